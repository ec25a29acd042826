import Verif.Proofs.SeriesRec
import Verif.Props.IrregSeries
import Verif.Model.ItsFile
/-! The record of a block of an irregular time series: what is written and what is read back. -/
namespace Hec
set_option linter.unusedSimpArgs false
set_option linter.unusedVariables false
open _root_.Spec (stored oddHeaders IsInt cells NoZero setField strings DescOk readHead Increasing)

/-- An internal header with 17 ints and the strings of the description: what is written and what is read of it. -/
theorem head_pack {d : TsDesc} (hd : DescOk d) {carray rest : Bytes} (hca : carray.length = 300) (hrest : rest.length = 732) {xs : List UInt32} (hx : xs.length = 17)
    (x0 : xs[0]? = some (i32 d.granularity)) (x1 : xs[1]? = some (i32 d.precision)) (x2 : xs[2]? = some (i32 d.offset)) (x3 : xs[3]? = some 0) :
    ∃ x : Bytes × Nat, ztsInternalHeaderPack d.strings carray (intsToBytes xs ++ rest) = some x ∧
      (bytesToInts (x.1.take (4 * x.2))).length % 2 = 0 ∧ (18 ≤ (bytesToInts (x.1.take (4 * x.2))).length ∧ (bytesToInts (x.1.take (4 * x.2))).length ≤ 200) ∧
      (bytesToInts (x.1.take (4 * x.2))).take 17 = xs ∧
      ∀ (behind ca : Bytes), ca.length = 200 → ∀ T : TsHead,
        ztsInternalHeaderUnpack T (intsToBytes ((bytesToInts (x.1.take (4 * x.2))).take 200) ++ behind) (min (bytesToInts (x.1.take (4 * x.2))).length 200) ca = some (readHead d T) := by
  obtain ⟨g1, g2, g3⟩ := hd.ints
  have hst : strings d.strings = [d.strings.units, d.strings.type, d.strings.zone] := by unfold strings; rw [if_neg (by rw [hd.noProfile]; decide)]
  have hsum : ((strings d.strings).map cells).sum ≤ 200 := by
    rw [hst]; have := hd.fits; simp; omega
  have hhl : (intsToBytes xs ++ rest).length = 800 := by rw [List.length_append, intsToBytes_length, hx, hrest]
  have hint : ∀ i v, i < 17 → xs[i]? = some v → intAt (intsToBytes xs ++ rest) i = toInt32 v.toNat := by
    intro i v hi hv
    rw [intAt_ints xs rest (by omega)]
    rw [List.getElem?_eq_getElem (by omega)] at hv
    injection hv with hv
    rw [hv]
  have i0 : intAt (intsToBytes xs ++ rest) 0 = d.granularity := (hint 0 _ (by omega) x0).trans (toInt32_i32 g1)
  have i1 : intAt (intsToBytes xs ++ rest) 1 = d.precision := (hint 1 _ (by omega) x1).trans (toInt32_i32 g2)
  have i2 : intAt (intsToBytes xs ++ rest) 2 = d.offset := (hint 2 _ (by omega) x2).trans (toInt32_i32 g3)
  have i3 : intAt (intsToBytes xs ++ rest) 3 = 0 := (hint 3 _ (by omega) x3).trans (show toInt32 (0 : UInt32).toNat = 0 by decide)
  have key := fun (ca : Bytes) (hca2 : ca.length = 200) => C51_time_series_partial d.strings (by rw [hst]; exact hd.noZero) hsum carray (intsToBytes xs ++ rest) ca hca (by omega) hca2 (by
    rw [i3, hd.noProfile]; simp)
  obtain ⟨hh, number, k1, k2, k3, k4, k5⟩ := key (List.replicate 200 0) (List.length_replicate)
  have k5 : ∀ ca : Bytes, ca.length = 200 → ∀ h', h'.take (4 * number) = hh.take (4 * number) → ∀ T : TsHead, ztsInternalHeaderUnpack T h' number ca = some (readHead d T) := by
    intro ca hca2 h' hh' T
    obtain ⟨hh2, number2, j1, j2, j3, j4, j5⟩ := key ca hca2
    rw [k1] at j1
    injection j1 with j1; injection j1 with j1 j1'; subst j1; subst j1'
    rw [j5 h' hh' T, i0, i1, i2, hd.noProfile]
    rfl
  have hev : number % 2 = 0 := by
    have : ((strings d.strings).map cells).sum % 8 = 0 := by
      rw [hst]; simp [cells]; try omega
    omega
  have hlt : (hh.take (4 * number)).length = 4 * number := by rw [List.length_take]; omega
  have hbl : (bytesToInts (hh.take (4 * number))).length = number := bytesToInts_length _ _ hlt
  have hib : intsToBytes (bytesToInts (hh.take (4 * number))) = hh.take (4 * number) := intsToBytes_bytesToInts _ _ hlt
  have hN : number ≤ 200 := by omega
  have hih : (bytesToInts (hh.take (4 * number))).take 17 = xs := by
    have : (hh.take (4 * number)).take 68 = intsToBytes xs := by
      rw [List.take_take, Nat.min_eq_left (by omega), k3, List.take_left' (by rw [intsToBytes_length, hx])]
    have e2 : hh.take (4 * number) = intsToBytes xs ++ (hh.take (4 * number)).drop 68 := by
      rw [← this, List.take_append_drop]
    rw [e2, bytesToInts_append, List.take_left' hx]
  refine ⟨(hh, number), k1, by rw [hbl]; exact hev, by rw [hbl]; omega, hih, ?_⟩
  intro behind ca hca2 T
  simp only
  rw [List.take_of_length_le (by omega), hbl, Nat.min_eq_left hN]
  apply k5 ca hca2
  rw [hib, List.take_left' hlt]

/-- A record that can be written: values of the right sizes, times and numbers that fit in ints. -/
structure ItsRecOk (cfg : ItsCfg) (r : IrregRec ItsVal) : Prop where
  ne : r.entries ≠ []
  sizes : ∀ e ∈ r.entries, e.val.1.length = cfg.vsz ∧ e.val.2.length = cfg.qsz
  times : ∀ e ∈ r.entries, IsInt e.time
  few : r.entries.length ≤ 400000000
  logical : 1 ≤ r.logical

theorem itsReq_ok {d : TsDesc} (hd : DescOk d) (e : TsEnv) (hca : e.carray.length = 300) (hrest : e.rest.length = 732) {cfg : ItsCfg}
    (hvs : cfg.vsz = 1 ∨ cfg.vsz = 2) (hqs : cfg.qsz ≤ 4) {r : IrregRec ItsVal} (h : ItsRecOk cfg r) (hg : r.gran = d.granularity) (path : Bytes) :
    ∃ q, itsReq cfg d e path r = some q ∧ q.path = mallocAndCopyPath path ∧ q.dataType = itsType cfg ∧ oddHeaders q.ih q.h2 q.uh ≤ 1 ∧
      (∀ v, irregRecord cfg (some (stored q v)) = some (some r)) ∧ q.numberValues = r.entries.length ∧ (∀ v, 17 ≤ (stored q v).ih.length ∧ (stored q v).ih.length ≤ 200) ∧
      ∀ (v : UInt32) (behind ca : Bytes), ca.length = 200 → ∀ T : TsHead,
        ztsInternalHeaderUnpack T (intsToBytes ((stored q v).ih.take 200) ++ behind) (min (stored q v).ih.length 200) ca = some (readHead d T) := by
  obtain ⟨l, logical, gran⟩ := r
  obtain ⟨hne, hsz, hti, hfew, hlog⟩ := h
  simp only at hne hsz hti hfew hlog hg
  subst hg
  have hlen : 1 ≤ l.length := by cases l with | nil => exact absurd rfl hne | cons _ _ => simp
  generalize hp : itsPacked cfg l = p
  have hxl : (itsHeadInts d p.head).length = 17 := rfl
  obtain ⟨x, k1, k2, k3, k4, k5⟩ := head_pack hd hca hrest hxl rfl rfl rfl rfl
  generalize hih : bytesToInts (x.1.take (4 * x.2)) = ih at *
  -- the sizes of the areas
  have hV : ∀ v ∈ (l.map fun e => e.val.1), v.length = cfg.vsz := by
    intro v hv; obtain ⟨e, he, rfl⟩ := List.mem_map.1 hv; exact (hsz e he).1
  have hQ : ∀ v ∈ (if cfg.qsz = 0 then [] else l.map fun e => e.val.2), v.length = cfg.qsz := by
    intro v hv
    split at hv
    · simp at hv
    · obtain ⟨e, he, rfl⟩ := List.mem_map.1 hv; exact (hsz e he).2
  have hQl : 0 < cfg.qsz → (if cfg.qsz = 0 then [] else l.map fun e => e.val.2).length = (l.map fun e => e.val.1).length := by
    intro h0; rw [if_neg (by omega)]; simp
  obtain ⟨cv, cq, cn, ht, hd', hb, hq0, hn0, hh⟩ :=
    aggregate_shape cfg.pol (l.map fun e => i32 e.time) cfg.vsz (l.map fun e => e.val.1) cfg.qsz (if cfg.qsz = 0 then [] else l.map fun e => e.val.2) 0 [] hV
      (by simp [hne]) hQ hQl (by simp) (by simp)
  have hpe : aggregate cfg.pol (l.map fun e => i32 e.time) cfg.vsz (l.map fun e => e.val.1) cfg.qsz (if cfg.qsz = 0 then [] else l.map fun e => e.val.2) 0 [] = p := hp
  rw [hpe] at hh hd'
  generalize hQQ : (if cfg.qsz = 0 then [] else l.map fun e => e.val.2) = Q at *
  have hsmall : ∀ n ∈ [p.head.valuesNumber, p.head.valueSize, p.head.vflag, p.head.qualityNumber, p.head.qualitySize,
      p.head.qflag, p.head.inotesNumber, p.head.noteSize, p.head.nflag], n < 2 ^ 31 := by
    rw [hh]
    have a1 := areaNumber_le (areaFlag cv (l.map fun e => e.val.1)) cfg.vsz (l.map fun e => e.val.1) (by simpa using hlen)
    have a1' : (l.map fun e => e.val.1).length * cfg.vsz ≤ 400000000 * 2 := Nat.mul_le_mul (by simpa using hfew) (by omega)
    have a2 : (if cfg.qsz > 0 then areaNumber (areaFlag cq Q) cfg.qsz Q else 0) ≤ 400000000 * 4 := by
      split
      · rename_i h0
        have hl := hQl h0
        rw [List.length_map] at hl
        have := areaNumber_le (areaFlag cq Q) cfg.qsz Q (by omega)
        have := Nat.mul_le_mul (show Q.length ≤ 400000000 by omega) hqs
        omega
      · omega
    have f1 := areaFlag_le cv (l.map fun e => e.val.1)
    have f2 := areaFlag_le cq Q
    have f3 := areaFlag_le cn ([] : List (List UInt32))
    intro n hn
    simp only [List.mem_cons, List.not_mem_nil, or_false] at hn
    rcases hn with rfl | rfl | rfl | rfl | rfl | rfl | rfl | rfl | rfl
    · omega
    · omega
    · omega
    · exact Nat.lt_of_le_of_lt a2 (by decide)
    · omega
    · omega
    · simp
    · omega
    · omega
  simp only [List.mem_cons, List.not_mem_nil, or_false, forall_eq_or_imp, forall_eq] at hsmall
  obtain ⟨c1, c2, c3, c4, c5, c6, c7, c8, c9⟩ := hsmall
  have hhs : p.head.valueSize = cfg.vsz ∧ p.head.qualitySize = cfg.qsz := by rw [hh]; exact ⟨rfl, rfl⟩
  have hdat : ∃ tl, p.data = (l.map fun e => i32 e.time) ++ tl := by
    have pad : ∀ {a b : List UInt32}, (∃ tl, b = a ++ tl) → ∃ tl, padEven b = a ++ tl := by
      rintro a b ⟨tl, rfl⟩
      unfold padEven
      split
      · exact ⟨tl ++ [default], by rw [List.append_assoc]⟩
      · exact ⟨tl, rfl⟩
    have app : ∀ {a b : List UInt32} (x : List UInt32), (∃ tl, b = a ++ tl) → ∃ tl, b ++ x = a ++ tl := by
      rintro a b x ⟨tl, rfl⟩
      exact ⟨tl ++ x, by rw [List.append_assoc]⟩
    have iff' : ∀ {a b c : List UInt32} {P : Prop} [Decidable P], (∃ tl, b = a ++ tl) → (∃ tl, c = a ++ tl) → ∃ tl, (if P then b else c) = a ++ tl := by
      intro a b c P _ h1 h2
      split
      · exact h1
      · exact h2
    rw [hd']
    exact iff' (pad (app _ (iff' (pad (app _ (pad ⟨_, rfl⟩))) (pad ⟨_, rfl⟩)))) (iff' (pad (app _ (pad ⟨_, rfl⟩))) (pad ⟨_, rfl⟩))
  obtain ⟨tl, htl⟩ := hdat
  have hrt := C42_pack_roundtrip cfg.pol (l.map fun e => i32 e.time) cfg.vsz (l.map fun e => e.val.1) cfg.qsz Q 0 [] 0 l.length (by omega) hV hQ hQl (by simp) (by simp) (by omega) (by simp)
  simp only [hpe, List.length_map, List.drop_zero, Nat.sub_zero] at hrt
  obtain ⟨u1, u2, _⟩ := hrt
  rw [List.take_of_length_le (by simp)] at u1
  refine ⟨⟨mallocAndCopyPath path, itsType cfg, ih, p.header2.map UInt32.ofNat, [], p.data, [], [],
      l.length, logical.toNat, 0, logical.toNat * (cfg.vsz + cfg.qsz) + logical.toNat, e.w.now, e.w.firstDate, e.w.lastDate, e.w.dates, e.w.prog⟩, ?_, rfl, rfl, ?_, ?_, rfl, fun v => by simp only [stored]; omega, ?_⟩
  · unfold itsReq
    simp only [hp, k1, Option.map_some, hih]
  · unfold oddHeaders
    simp only [List.length_nil]
    omega
  · intro v
    have hget : ∀ i w, i < 17 → (itsHeadInts d p.head)[i]? = some w → headInt ih i = toInt32 w.toNat := by
      intro i w hi hw
      unfold headInt
      have : ih[i]? = some w := by rw [← hw, ← k4, List.getElem?_take_of_lt hi]
      rw [this]; rfl
    have cast : ∀ {n : Nat}, n < 2 ^ 31 → (toInt32 (i32 (n : Int)).toNat) = n := by
      intro n hn
      rw [toInt32_i32 (by unfold IsInt; omega)]
    have Gi : ∀ i {n : Nat}, i < 17 → n < 2 ^ 31 → (itsHeadInts d p.head)[i]? = some (i32 (n : Int)) → headInt ih i = n := by
      intro i n hi hn he
      rw [hget i _ hi he, cast hn]
    have p0 : headInt ih 0 = d.granularity := (hget 0 _ (by omega) rfl).trans (toInt32_i32 hd.ints.1)
    have p6 := Gi 6 (by omega) c1 rfl
    have p7 := Gi 7 (by omega) c2 rfl
    have p9 := Gi 9 (by omega) c3 rfl
    have p10 := Gi 10 (by omega) c4 rfl
    have p11 := Gi 11 (by omega) c5 rfl
    have p12 := Gi 12 (by omega) c6 rfl
    have p13 := Gi 13 (by omega) c7 rfl
    have p14 := Gi 14 (by omega) c8 rfl
    have p15 := Gi 15 (by omega) c9 rfl
    unfold irregRecord
    simp only [stored]
    rw [if_pos ⟨trivial, by omega, by rw [p11, hhs.2]⟩]
    congr 2
    have hh2 := header2_lt cfg.pol (l.map fun e => i32 e.time) cfg.vsz (l.map fun e => e.val.1) cfg.qsz Q 0 []
    rw [hpe] at hh2
    have hpk : ∀ R : Rec, R.v1 = p.data → R.h2 = p.header2.map UInt32.ofNat → R.ih = ih → packedOf R = p := by
      intro R r1 r2 r3
      unfold packedOf
      rw [r1, r2, r3, ofNat_toNat_map hh2, p6, p7, p9, p10, p11, p12, p13, p14, p15]
      simp only [Int.toNat_natCast]
    unfold irregRecOf
    simp only
    rw [hpk _ rfl rfl rfl, p0, u1]
    have hlg : ((if logical.toNat > 0 then logical.toNat else l.length : Nat) : Int) = logical := by
      rw [if_pos (by omega)]; omega
    have ht : (p.data.take l.length).map (fun w => toInt32 w.toNat) = l.map Entry.time := by
      rw [htl, List.take_left' (by simp), List.map_map]
      apply List.map_congr_left
      intro e he
      exact toInt32_i32 (hti e he)
    have hq : (if cfg.qsz > 0 then unpackQuality p l.length l.length 0 l.length else List.replicate l.length []) = l.map (fun e => e.val.2) := by
      split
      · rename_i h0
        rw [u2 h0, ← hQQ, if_neg (by omega), List.take_of_length_le (by simp)]
      · rename_i h0
        symm
        rw [List.eq_replicate_iff]
        refine ⟨by simp, fun b hb => ?_⟩
        obtain ⟨e, he, rfl⟩ := List.mem_map.1 hb
        exact List.length_eq_zero_iff.1 (by rw [(hsz e he).2]; omega)
    rw [ht, hq]
    congr 1
    have hz : ∀ l : List (Entry ItsVal), (((l.map Entry.time).zip ((l.map fun e => e.val.1).zip (l.map fun e => e.val.2))).map fun x => (⟨x.1, x.2⟩ : Entry ItsVal)) = l := by
      intro l
      induction l with
      | nil => rfl
      | cons e l ih => simp [ih]
    exact hz l
  · intro v behind ca hca2 T
    exact k5 behind ca hca2 T

end Hec
