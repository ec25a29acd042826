import Verif.Proofs.SeriesNames
import Verif.Proofs.Paired
import Verif.Proofs.Grid
import Verif.Props.Headers
import Verif.Props.RegSeries
import Verif.Spec.SeriesFile
/-! The record of a block of a regular time series: what is written and what is read back. -/
namespace Hec
set_option linter.unusedSimpArgs false
set_option linter.unusedVariables false
open _root_.Spec (stored oddHeaders IsInt cells NoZero setField strings DescOk readHead)

theorem setBit_lt {h : List Nat} (hh : ∀ w ∈ h, w < 2 ^ 32) (i : Nat) : ∀ w ∈ setRepeatBit h i, w < 2 ^ 32 := by
  intro w hw
  unfold setRepeatBit at hw
  obtain ⟨k, hk⟩ := List.mem_iff_getElem?.1 hw
  rw [List.getElem?_modify] at hk
  cases hq : h[k]? with
  | none => rw [hq] at hk; simp at hk
  | some x =>
    rw [hq] at hk
    have hx := hh x (List.mem_of_getElem? hq)
    simp only [Option.map_eq_map, Option.map_some, Option.some.injEq] at hk
    split at hk
    · rw [← hk]
      apply Nat.or_lt_two_pow hx
      rw [Nat.shiftLeft_eq, Nat.one_mul]
      exact Nat.pow_lt_pow_right (by omega) (by omega)
    · rw [← hk]; exact hx

theorem compressLoop_lt {E : Type} [DecidableEq E] : ∀ (xs : List E) (i : Nat) (cur : E) (h : List Nat) (out : List E),
    (∀ w ∈ h, w < 2 ^ 32) → ∀ w ∈ (compressLoop xs i cur h out).1, w < 2 ^ 32
  | [], i, cur, h, out, hh => by unfold compressLoop; exact hh
  | x :: xs, i, cur, h, out, hh => by
    unfold compressLoop
    split
    · exact compressLoop_lt xs _ _ _ _ (setBit_lt hh _)
    · exact compressLoop_lt xs _ _ _ _ hh

theorem areaBits_lt {W : Type} [DecidableEq W] (flag : Nat) (els : List (List W)) : ∀ w ∈ areaBits flag els, w < 2 ^ 32 := by
  intro w hw
  unfold areaBits at hw
  split at hw
  · unfold repeatCompress at hw
    cases els with
    | nil => simp only at hw; rw [List.eq_of_mem_replicate hw]; decide
    | cons x xs => exact compressLoop_lt xs 1 x _ _ (fun w hw => by rw [List.eq_of_mem_replicate hw]; decide) w hw
  · simp at hw

theorem header2_lt {W : Type} [DecidableEq W] [Inhabited W] (pol : PackPolicy) (times : List W) (vsz : Nat) (vals : List (List W)) (qsz : Nat)
    (quals : List (List W)) (nsz : Nat) (notes : List (List W)) : ∀ w ∈ (aggregate pol times vsz vals qsz quals nsz notes).header2, w < 2 ^ 32 := by
  intro w hw
  unfold aggregate at hw
  simp only at hw
  split at hw
  · simp at hw
  · split at hw
    · simp at hw
    · simp only [List.mem_append] at hw
      rcases hw with ((hw | hw) | hw) | hw
      · exact areaBits_lt _ _ w hw
      · exact areaBits_lt _ _ w hw
      · exact areaBits_lt _ _ w hw
      · rw [List.eq_of_mem_replicate hw]; decide

theorem ofNat_toNat_map {l : List Nat} (h : ∀ w ∈ l, w < 2 ^ 32) : (l.map UInt32.ofNat).map UInt32.toNat = l := by
  rw [List.map_map]
  conv => rhs; rw [← List.map_id l]
  apply List.map_congr_left
  intro w hw
  simp only [Function.comp, id, UInt32.toNat_ofNat']
  exact Nat.mod_eq_of_lt (h w hw)

theorem areaNumber_le {W : Type} [DecidableEq W] (flag size : Nat) (els : List (List W)) (hn : 1 ≤ els.length) :
    areaNumber flag size els ≤ els.length * size := by
  unfold areaNumber
  split
  · exact Nat.mul_le_mul_right _ (by omega)
  · split
    · exact Nat.le_mul_of_pos_left _ (by omega)
    · exact Nat.le_refl _

/-- The sizes in the header of a block. -/
theorem head_small {cfg : RegCfg UInt32} {nib : Nat} {r : RegRec UInt32} {S : Nat} {V Q : List (List UInt32)} {qs : Nat} (h : RecHas cfg nib r S V qs Q)
    (hv : cfg.vsz ≤ 2) (hq : qs ≤ 1000) (hn : nib ≤ 86400) :
    (∀ n ∈ [r.startPos, r.endPos], IsInt n) ∧
    (∀ n ∈ [r.packed.head.valuesNumber, r.packed.head.valueSize, r.packed.head.vflag, r.packed.head.qualityNumber, r.packed.head.qualitySize,
      r.packed.head.qflag, r.packed.head.inotesNumber, r.packed.head.noteSize, r.packed.head.nflag], n < 2 ^ 31) := by
  have hV : 1 ≤ V.length := by
    have := h.ne
    cases V with
    | nil => exact absurd rfl this
    | cons _ _ => simp
  have hroom := h.room
  constructor
  · intro n hn
    simp only [List.mem_cons, List.not_mem_nil, or_false] at hn
    have h1 := h.start; have h2 := h.stop
    unfold IsInt
    rcases hn with rfl | rfl <;> omega
  · obtain ⟨cv, cq, cn, ht, hd, hb, hq0, hn0, hh⟩ :=
      aggregate_shape cfg.pol [] cfg.vsz V qs Q 0 [] h.vlen h.ne h.qlen h.qnum (by simp) (by simp)
    rw [h.packed, hh]
    have a1 := areaNumber_le (areaFlag cv V) cfg.vsz V hV
    have a2 : (if qs > 0 then areaNumber (areaFlag cq Q) qs Q else 0) ≤ 86400 * 1000 := by
      split
      · rename_i h0
        have := areaNumber_le (areaFlag cq Q) qs Q (by rw [h.qnum h0]; exact hV)
        have hl := h.qnum h0
        have := Nat.mul_le_mul (show Q.length ≤ 86400 by omega) hq
        omega
      · omega
    have a3 := Nat.mul_le_mul (show V.length ≤ 86400 by omega) hv
    have f1 := areaFlag_le cv V
    have f2 := areaFlag_le cq Q
    have f3 := areaFlag_le cn ([] : List (List UInt32))
    intro n hn
    simp only [List.mem_cons, List.not_mem_nil, or_false] at hn
    rcases hn with rfl | rfl | rfl | rfl | rfl | rfl | rfl | rfl | rfl
    · omega
    · omega
    · omega
    · exact Nat.lt_of_le_of_lt a2 (by decide)
    · omega
    · omega
    · simp
    · omega
    · omega

theorem intAt_ints (xs : List UInt32) (rest : Bytes) {i : Nat} (hi : i < xs.length) : intAt (intsToBytes xs ++ rest) i = toInt32 (xs[i]).toNat := by
  have e : intsToBytes xs = (intsToBytes xs).take (4 * i) ++ intsToBytes (xs.drop i) := by
    rw [← intsToBytes_take]
    unfold intsToBytes
    rw [← List.flatMap_append, List.take_append_drop]
  have hl : ((intsToBytes xs).take (4 * i)).length = 4 * i := by
    rw [List.length_take, intsToBytes_length]; omega
  unfold intAt
  rw [e, List.append_assoc, List.drop_left' hl, List.drop_eq_getElem_cons hi]
  generalize xs[i] = w
  have hw := w.toNat_lt
  simp only [intsToBytes, List.flatMap_cons, List.cons_append, List.nil_append, List.take_succ_cons, List.take_zero, List.foldr_cons, List.foldr_nil,
    toInt32]
  have e2 : (byteOf w.toNat 0).toNat + 256 * ((byteOf w.toNat 1).toNat + 256 * ((byteOf w.toNat 2).toNat + 256 * ((byteOf w.toNat 3).toNat + 256 * 0))) = w.toNat := by
    simp only [byteOf, UInt8.toNat_ofNat']; omega
  have e3 : lo32 w.toNat = w.toNat := by unfold lo32; omega
  rw [e2, e3]

theorem headInts_length (d : TsDesc) (r : RegRec UInt32) : (headInts d r).length = 17 := rfl

/-- What is written for a block, and what is read of it. -/
theorem tsReq_ok {d : TsDesc} (hd : DescOk d) (e : TsEnv) (hca : e.carray.length = 300) (hrest : e.rest.length = 732) {cfg : RegCfg UInt32}
    (hvs : cfg.vsz = 1 ∨ cfg.vsz = 2) {nib : Nat} {r : RegRec UInt32} {S : Nat} {V Q : List (List UInt32)} {qs : Nat} (h : RecHas cfg nib r S V qs Q)
    (hq : qs ≤ 1000) (hn : nib ≤ 86400) (path : Bytes) :
    ∃ q, tsReq d e path (tsType cfg) r = some q ∧ q.path = mallocAndCopyPath path ∧ q.dataType = tsType cfg ∧ oddHeaders q.ih q.h2 q.uh ≤ 1 ∧
      (∀ v, tsRecord cfg (some (stored q v)) = some (some r)) ∧ (∀ v, 17 ≤ (stored q v).ih.length ∧ (stored q v).ih.length ≤ 200) ∧
      ∀ (v : UInt32) (behind ca : Bytes), ca.length = 200 → ∀ T : TsHead,
        ztsInternalHeaderUnpack T (intsToBytes ((stored q v).ih.take 200) ++ behind) (min (stored q v).ih.length 200) ca = some (readHead d T) := by
  obtain ⟨hs1, hs2⟩ := head_small h (by omega) hq hn
  simp only [List.mem_cons, List.not_mem_nil, or_false, forall_eq_or_imp, forall_eq] at hs1 hs2
  obtain ⟨b1, b2⟩ := hs1
  obtain ⟨c1, c2, c3, c4, c5, c6, c7, c8, c9⟩ := hs2
  obtain ⟨g1, g2, g3⟩ := hd.ints
  have hst : strings d.strings = [d.strings.units, d.strings.type, d.strings.zone] := by unfold strings; rw [if_neg (by rw [hd.noProfile]; decide)]
  have hsum : ((strings d.strings).map cells).sum ≤ 200 := by
    rw [hst]; have := hd.fits; simp; omega
  have hhl : (intsToBytes (headInts d r) ++ e.rest).length = 800 := by rw [List.length_append, intsToBytes_length, headInts_length, hrest]
  have hint : ∀ i, (hi : i < 17) → intAt (intsToBytes (headInts d r) ++ e.rest) i = toInt32 ((headInts d r)[i]'(by rw [headInts_length]; exact hi)).toNat :=
    fun i hi => intAt_ints _ _ (by rw [headInts_length]; exact hi)
  have i0 : intAt (intsToBytes (headInts d r) ++ e.rest) 0 = d.granularity := (hint 0 (by omega)).trans (toInt32_i32 g1)
  have i1 : intAt (intsToBytes (headInts d r) ++ e.rest) 1 = d.precision := (hint 1 (by omega)).trans (toInt32_i32 g2)
  have i2 : intAt (intsToBytes (headInts d r) ++ e.rest) 2 = d.offset := (hint 2 (by omega)).trans (toInt32_i32 g3)
  have i3 : intAt (intsToBytes (headInts d r) ++ e.rest) 3 = 0 := (hint 3 (by omega)).trans (show toInt32 (0 : UInt32).toNat = 0 by decide)
  have key := fun (ca : Bytes) (hca2 : ca.length = 200) => C51_time_series_partial d.strings (by rw [hst]; exact hd.noZero) hsum e.carray (intsToBytes (headInts d r) ++ e.rest) ca hca (by omega) hca2 (by
    rw [i3, hd.noProfile]; simp)
  obtain ⟨hh, number, k1, k2, k3, k4, k5⟩ := key (List.replicate 200 0) (List.length_replicate)
  have k5 : ∀ ca : Bytes, ca.length = 200 → ∀ h', h'.take (4 * number) = hh.take (4 * number) → ∀ T : TsHead, ztsInternalHeaderUnpack T h' number ca = some (readHead d T) := by
    intro ca hca2 h' hh' T
    obtain ⟨hh2, number2, j1, j2, j3, j4, j5⟩ := key ca hca2
    rw [k1] at j1
    injection j1 with j1; injection j1 with j1 j1'; subst j1; subst j1'
    rw [j5 h' hh' T, i0, i1, i2, hd.noProfile]
    rfl
  have hev : number % 2 = 0 := by
    have : ((strings d.strings).map cells).sum % 8 = 0 := by
      rw [hst]; simp [cells]; try omega
    omega
  have hlt : (hh.take (4 * number)).length = 4 * number := by rw [List.length_take]; omega
  have hbl : (bytesToInts (hh.take (4 * number))).length = number := bytesToInts_length _ _ hlt
  have hib : intsToBytes (bytesToInts (hh.take (4 * number))) = hh.take (4 * number) := intsToBytes_bytesToInts _ _ hlt
  have hN : number ≤ 200 := by omega
  have hN18 : 18 ≤ number := by omega
  have hih : (bytesToInts (hh.take (4 * number))).take 17 = headInts d r := by
    have : (hh.take (4 * number)).take 68 = intsToBytes (headInts d r) := by
      rw [List.take_take, Nat.min_eq_left (by omega), k3, List.take_left' (by rw [intsToBytes_length, headInts_length])]
    have e2 : hh.take (4 * number) = intsToBytes (headInts d r) ++ (hh.take (4 * number)).drop 68 := by
      rw [← this, List.take_append_drop]
    rw [e2, bytesToInts_append, List.take_left' (headInts_length d r)]
  refine ⟨⟨mallocAndCopyPath path, tsType cfg, bytesToInts (hh.take (4 * number)), r.packed.header2.map UInt32.ofNat, [], r.packed.data, [], [],
      r.numberData, r.logicalNumber, 0, r.logicalNumber * (r.packed.head.valueSize + r.packed.head.qualitySize),
      e.w.now, e.w.firstDate, e.w.lastDate, e.w.dates, e.w.prog⟩, ?_, rfl, rfl, ?_, ?_, fun v => by simp only [stored]; omega, ?_⟩
  · unfold tsReq; rw [k1]; rfl
  · unfold oddHeaders
    simp only [hbl, List.length_nil]
    omega
  · intro v
    have hget : ∀ i, (hi : i < 17) → headInt (bytesToInts (hh.take (4 * number))) i = toInt32 ((headInts d r)[i]'(by rw [headInts_length]; exact hi)).toNat := by
      intro i hi
      unfold headInt
      have : (bytesToInts (hh.take (4 * number)))[i]? = (headInts d r)[i]? := by
        rw [← hih, List.getElem?_take_of_lt hi]
      rw [this, List.getElem?_eq_getElem (by rw [headInts_length]; exact hi)]
      rfl
    unfold tsRecord
    simp only [stored]
    rw [if_pos (by rw [hbl]; exact ⟨trivial, by omega⟩)]
    congr 2
    have cast : ∀ {n : Nat}, n < 2 ^ 31 → (toInt32 (i32 (n : Int)).toNat).toNat = n := by
      intro n hn
      rw [toInt32_i32 (by unfold IsInt; omega)]; omega
    have hlog : (if r.logicalNumber > 0 then r.logicalNumber else r.numberData) = r.logicalNumber := by
      rw [if_pos (by rw [h.logical]; have := h.room; have := h.ne; cases V with | nil => exact absurd rfl this | cons _ _ => simp at *; omega)]
    unfold regRecOf
    have G : ∀ i, (hi : i < 17) → ∀ {n : Nat}, n < 2 ^ 31 → (headInts d r)[i]'(by rw [headInts_length]; exact hi) = i32 (n : Int) → (headInt (bytesToInts (hh.take (4 * number))) i).toNat = n := by
      intro i hi n hn he
      rw [hget i hi, he, cast hn]
    have p4 : headInt (bytesToInts (hh.take (4 * number))) 4 = r.startPos := (hget 4 (by omega)).trans (toInt32_i32 b1)
    have p5 : headInt (bytesToInts (hh.take (4 * number))) 5 = r.endPos := (hget 5 (by omega)).trans (toInt32_i32 b2)
    simp only [p4, p5, G 6 (by omega) c1 rfl, G 7 (by omega) c2 rfl, G 9 (by omega) c3 rfl, G 10 (by omega) c4 rfl, G 11 (by omega) c5 rfl, G 12 (by omega) c6 rfl,
      G 13 (by omega) c7 rfl, G 14 (by omega) c8 rfl, G 15 (by omega) c9 rfl, hlog,
      ofNat_toNat_map (show ∀ w ∈ r.packed.header2, w < 2 ^ 32 by rw [h.packed]; exact header2_lt _ _ _ _ _ _ _ _)]
  · intro v behind ca hca2 T
    simp only [stored]
    rw [List.take_of_length_le (by omega), hbl, Nat.min_eq_left hN]
    apply k5 ca hca2
    rw [hib, List.take_left' hlt]

end Hec
