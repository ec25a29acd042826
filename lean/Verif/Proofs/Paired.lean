import Verif.Proofs.Records
import Verif.Proofs.EngineCopy3
import Verif.Props.Headers
import Verif.Spec.Paired
/-! Paired data: reading parts of arrays, labels, the internal header, and replacing a record of another type. -/
namespace Hec
set_option linter.unusedSimpArgs false
set_option linter.unusedVariables false
open _root_.Spec (Op Store Step Steps run runs Allowed AllAllowed Plain Reachable GoodSizes create join SixParts stored oddHeaders
  compatible Points IsInt MayStore Later headerString HeaderKept headerOdd asType HasSize Leads areDoubles wideFor zeroValues kept cut part Asked flat Paired
  Whole PdArrays MayReplace field readBack wideOut cells NoZero shown)
open Hec.Spec (sameUpToCase)

/-! ### Parts of arrays -/

theorem getInts_length (d : Disk) (a n : Nat) : (getInts d a n).length = n := by simp [getInts]

theorem getInts_part (d : Disk) (a N k n : Nat) (h : 2 * k + n ≤ N) : getInts d (a + k) n = ((getInts d a N).drop (2 * k)).take n := by
  apply List.ext_getElem
  · simp [getInts]; omega
  · intro i h1 h2
    simp only [getInts, List.getElem_map, List.getElem_range, List.getElem_take, List.getElem_drop]
    have e1 : (2 * k + i) % 2 = i % 2 := by omega
    have e2 : (2 * k + i) / 2 = k + i / 2 := by omega
    rw [e1, e2, Nat.add_assoc]

theorem pdGet_floats (d : Disk) (a N m n : Nat) (h : m + n ≤ N) : pdGet d a false m n = ((getInts d a N).drop m).take n := by
  unfold pdGet
  simp only [Bool.false_eq_true, if_false]
  split
  · next ho =>
    rw [getInts_part d a N (m / 2) (n + 1) (by omega), List.drop_take, List.drop_drop, show 2 * (m / 2) + 1 = m by omega]
    simp
  · next ho =>
    rw [getInts_part d a N (m / 2) n (by omega), show 2 * (m / 2) = m by omega]

theorem pdGet_doubles (d : Disk) (a N m n : Nat) (h : 2 * m + 2 * n ≤ N) : pdGet d a true m n = ((getInts d a N).drop (2 * m)).take (2 * n) := by
  unfold pdGet
  simp only [if_true]
  rw [getInts_part d a N m (2 * n) h]

theorem doubles_drop (xs : List UInt64) (m : Nat) : (xs.flatMap doubleInts).drop (2 * m) = (xs.drop m).flatMap doubleInts := by
  induction m generalizing xs with
  | zero => simp
  | succ m ih =>
    cases xs with
    | nil => simp
    | cons x xs =>
      have := ih xs
      rw [show 2 * (m + 1) = 2 * m + 1 + 1 by omega]
      simp only [List.flatMap_cons, doubleInts, List.cons_append, List.nil_append, List.drop_succ_cons]
      simpa only [doubleInts] using this

theorem doubles_take (xs : List UInt64) (m : Nat) : (xs.flatMap doubleInts).take (2 * m) = (xs.take m).flatMap doubleInts := by
  induction m generalizing xs with
  | zero => simp
  | succ m ih =>
    cases xs with
    | nil => simp
    | cons x xs =>
      have := ih xs
      rw [show 2 * (m + 1) = 2 * m + 1 + 1 by omega]
      simp only [List.flatMap_cons, doubleInts, List.cons_append, List.nil_append, List.take_succ_cons]
      rw [this]


/-! ### Labels -/

theorem cstr_label (l : Bytes) (rest : Bytes) (h : ∀ b ∈ l, b ≠ 0) : cstr (l ++ 0 :: rest) = l := by
  induction l with
  | nil => simp [cstr]
  | cons x l ih =>
    have hx := h x (by simp)
    have := ih fun b hb => h b (by simp [hb])
    simp only [cstr] at this ⊢
    rw [List.cons_append, List.takeWhile_cons, if_pos (by simpa using hx), this]

theorem flat_labels_append (a b : List Bytes) : flat (a ++ b) = flat a ++ flat b := by simp [flat]

/-- The loop over the labels, standing before the labels `ls`; `done` are the labels before. -/
theorem labelLoop_ok (sc : Nat) (n : Nat) : ∀ (ls pre : List Bytes) (rest : Bytes), (∀ l ∈ pre ++ ls, ∀ b ∈ l, b ≠ 0) → ls ≠ [] →
    ∀ start count,
      start = (if pre.length ≤ sc then (-1 : Int) else ((flat (pre.take sc)).length : Int)) →
      count = (flat (pre.drop sc)).length →
      labelLoop (flat (pre ++ ls) ++ rest) (flat (pre ++ ls)).length sc n pre.length (flat pre).length start count =
        (if (pre ++ ls.take n).length ≤ sc then (-1 : Int) else ((flat ((pre ++ ls).take sc)).length : Int), (flat ((pre ++ ls.take n).drop sc)).length) := by
  induction n with
  | zero =>
    intro ls pre rest hz hne start count hs hcnt
    simp only [labelLoop, List.take_zero, List.append_nil]
    rw [hs, hcnt]
    by_cases h : pre.length ≤ sc
    · simp only [if_pos h]
    · simp only [if_neg h]
      rw [List.take_append_of_le_length (by omega)]
  | succ n ih =>
    intro ls pre rest hz hne start count hs hcnt
    cases ls with
    | nil => exact absurd rfl hne
    | cons l ls =>
      have hcs : cstr ((flat (pre ++ l :: ls) ++ rest).drop (flat pre).length) = l := by
        rw [flat_labels_append, List.append_assoc, List.drop_left]
        simp only [flat, List.flatMap_cons, List.append_assoc, List.cons_append, List.nil_append]
        exact cstr_label _ _ fun b hb => hz l (by simp) b hb
      unfold labelLoop
      simp only [hcs]
      have hl1 : (flat (pre ++ [l])).length = (flat pre).length + l.length + 1 := by
        rw [flat_labels_append]; simp [flat]; omega
      -- the numbers after this label
      have hq : (if pre.length ≥ sc then (if start < 0 then ((flat pre).length : Int) else start, count + l.length + 1) else (start, count)) =
          ((if (pre ++ [l]).length ≤ sc then (-1 : Int) else ((flat ((pre ++ [l]).take sc)).length : Int)), (flat ((pre ++ [l]).drop sc)).length) := by
        have hlen1 : (pre ++ [l]).length = pre.length + 1 := by simp
        by_cases h : pre.length ≥ sc
        · have hn : ¬ (pre ++ [l]).length ≤ sc := by omega
          rw [if_pos h, if_neg hn]
          have e1 : (pre ++ [l]).take sc = pre.take sc := by rw [List.take_append_of_le_length h]
          have e2 : (pre ++ [l]).drop sc = pre.drop sc ++ [l] := by rw [List.drop_append_of_le_length h]
          rw [e1, e2, flat_labels_append, hs, hcnt]
          congr 1
          · by_cases h2 : pre.length ≤ sc
            · rw [if_pos h2, List.take_of_length_le h2]; rfl
            · rw [if_neg h2, if_neg (by omega)]
          · simp [flat]; omega
        · have hn : (pre ++ [l]).length ≤ sc := by omega
          have hn2 : pre.length ≤ sc := by omega
          rw [if_neg h, if_pos hn, hs, if_pos hn2, hcnt]
          rw [List.drop_of_length_le (by omega), List.drop_of_length_le (by simp; omega)]
      rw [hq]
      by_cases hlast : ls = []
      · subst hlast
        rw [if_pos (by
          rw [hl1]
          push_cast
          omega)]
        have : (pre ++ [l].take (n + 1)) = pre ++ [l] := by simp
        rw [this]
      · rw [if_neg (by
          have : (flat (pre ++ l :: ls)).length = (flat (pre ++ [l])).length + (flat ls).length := by
            rw [← List.length_append, ← flat_labels_append]; simp
          have h1 : 0 < (flat ls).length := by
            cases ls with
            | nil => exact absurd rfl hlast
            | cons a b => simp [flat]; omega
          rw [this, hl1]
          push_cast
          omega)]
        have := ih ls (pre ++ [l]) rest (by simpa using hz) hlast _ _ rfl rfl
        rw [show (pre ++ [l]) ++ ls = pre ++ l :: ls by simp, show (pre ++ [l]).length = pre.length + 1 by simp, hl1] at this
        rw [show (pre ++ [l]).length = pre.length + 1 by simp] at *
        rw [this]
        simp

theorem bytes8 (b : Bytes) : (b ++ List.replicate (7 - (b.length + 7) % 8) 0).length = 4 * (2 * ((b.length + 7) / 8)) := by simp; omega

theorem readLabels_ok (ls : List Bytes) (hz : ∀ l ∈ ls, ∀ b ∈ l, b ≠ 0) (sc ec : Nat) :
    pdReadLabels (bytesToInts (flat ls ++ List.replicate (7 - ((flat ls).length + 7) % 8) 0)) (flat ls).length sc ec = flat ((ls.take ec).drop sc) := by
  unfold pdReadLabels
  rw [bytesToInts_length _ _ (bytes8 _), intsToBytes_bytesToInts _ _ (bytes8 _)]
  by_cases hne : ls = []
  · subst hne; simp [flat]
  · have hpos : 0 < (flat ls).length := by
      cases ls with
      | nil => exact absurd rfl hne
      | cons a b => simp [flat]; omega
    rw [if_pos (by omega)]
    simp only [Int.toNat_natCast]
    rw [List.take_left]
    generalize List.replicate _ (0 : UInt8) = rest
    have := labelLoop_ok sc ec ls [] rest (by simpa using hz) hne (-1) 0 (by simp) (by simp [flat])
    rw [List.nil_append, List.nil_append] at this
    rw [show labelLoop (flat ls ++ rest) _ sc ec 0 0 (-1) 0 = _ from this]
    simp only []
    show ((flat ls ++ rest).drop _).take (flat ((ls.take ec).drop sc)).length = _
    by_cases h : (ls.take ec).length ≤ sc
    · rw [List.drop_of_length_le h]
      simp [flat]
    · rw [if_neg h, Int.toNat_natCast]
      show ((flat ls ++ rest).drop (flat (ls.take sc)).length).take (flat ((ls.take ec).drop sc)).length = _
      have hle : sc ≤ ec := by simp at h; omega
      have hsplit : flat ls = flat (ls.take sc) ++ (flat ((ls.take ec).drop sc) ++ flat (ls.drop ec)) := by
        rw [← flat_labels_append, ← flat_labels_append]
        congr 1
        rw [← List.append_assoc, show ls.take sc = (ls.take ec).take sc by rw [List.take_take, Nat.min_eq_left hle], List.take_append_drop,
          List.take_append_drop]
      rw [hsplit, List.append_assoc, List.drop_left, List.append_assoc, List.take_left]

/-! ### The internal header -/

theorem cells_even (l : List (Option Bytes)) : (l.map cells).sum % 8 = 0 := by
  induction l with
  | nil => rfl
  | cons a l ih => simp only [List.map_cons, List.sum_cons, cells] at ih ⊢; omega

theorem word_of_bytes (w : UInt32) :
    UInt32.ofNat ((byteOf w.toNat 0).toNat + 256 * (byteOf w.toNat 1).toNat + 256 ^ 2 * (byteOf w.toNat 2).toNat + 256 ^ 3 * (byteOf w.toNat 3).toNat) = w := by
  have hw := w.toNat_lt
  apply UInt32.toNat_inj.mp
  rw [UInt32.toNat_ofNat']
  simp only [byteOf, UInt8.toNat_ofNat']
  omega

theorem bytesToInts_append (xs : List UInt32) (b : Bytes) : bytesToInts (intsToBytes xs ++ b) = xs ++ bytesToInts b := by
  induction xs with
  | nil => rfl
  | cons w xs ih =>
    simp only [intsToBytes, List.flatMap_cons, List.cons_append, List.nil_append, bytesToInts] at ih ⊢
    rw [ih]
    have := word_of_bytes w
    simp only [byteOf] at this ⊢
    rw [this]

theorem intsToBytes_take (xs : List UInt32) (n : Nat) : intsToBytes (xs.take n) = (intsToBytes xs).take (4 * n) := by
  induction n generalizing xs with
  | zero => simp [intsToBytes]
  | succ n ih =>
    cases xs with
    | nil => simp [intsToBytes]
    | cons w xs =>
      have := ih xs
      simp only [intsToBytes] at this
      rw [show 4 * (n + 1) = 4 * n + 1 + 1 + 1 + 1 by omega]
      simp only [intsToBytes, List.take_succ_cons, List.flatMap_cons, List.cons_append, List.nil_append, this]

theorem intBytes_length (n : Int) : (intBytes n).length = 4 := by simp [intBytes, intsToBytes_length]

theorem fields_map (l : List (Option Bytes)) (h : l.length = 5) : List.zipWith setAlways (List.replicate 5 ⟨none, false⟩) l = l.map field := by
  match l, h with
  | [a, b, c, d, e], _ => rfl

theorem pdHeader_ok (e : PdEnv) (hA : PdArrays e) (p : PdIn) (hs : p.strings.length = 5 ∧ (∀ s ∈ p.strings, NoZero s) ∧ (p.strings.map cells).sum < 398) :
    ∃ rest, pdHeader e p = some (i32 p.nOrd :: i32 p.nCurves :: i32 p.xaxis :: i32 p.labelsLength ::
        i32 (if p.xprec < 0 then -1 else p.xprec * 10 + p.yprec) :: rest) ∧ (5 + rest.length) % 2 = 0 ∧
      ∀ ca : Bytes, ca.length = 400 →
        zpdHeadToUnits (List.replicate 5 ⟨none, false⟩) (intsToBytes (i32 p.nOrd :: i32 p.nCurves :: i32 p.xaxis :: i32 p.labelsLength ::
          i32 (if p.xprec < 0 then -1 else p.xprec * 10 + p.yprec) :: rest)) (5 + rest.length) ca = some (p.strings.map field) := by
  obtain ⟨a1, a2, a3⟩ := hA
  obtain ⟨s1, s2, s3⟩ := hs
  have i4 := intBytes_length
  have hev := cells_even p.strings
  generalize hprec : (if p.xprec < 0 then (-1 : Int) else p.xprec * 10 + p.yprec) = prec
  -- the first call
  obtain ⟨h1, n1, e1, l1, t1, k1, _⟩ := C51_paired_data_partial p.strings s2 s1 s3 e.ca1
    (intBytes p.nOrd ++ intBytes p.nCurves ++ intBytes p.xaxis ++ (e.hdr.drop 12).take 4 ++ intBytes 0 ++ e.hdr.drop 20) e.ca1 200 a2
    (by simp only [List.length_append, i4, List.length_take, List.length_drop, a1]; omega) (by omega) a2
  have l1' : h1.length = 800 := by rw [l1]; simp only [List.length_append, i4, List.length_take, List.length_drop, a1]; omega
  -- the second call
  obtain ⟨h2, n2, e2, l2, t2, k2, r2⟩ := C51_paired_data_partial p.strings s2 s1 s3 e.ca2
    (h1.take 12 ++ intBytes p.labelsLength ++ intBytes prec ++ h1.drop 20) e.ca2 n1 a3
    (by simp only [List.length_append, i4, List.length_take, List.length_drop, l1']; omega) (by omega) a3
  have l2' : h2.length = 800 := by rw [l2]; simp only [List.length_append, i4, List.length_take, List.length_drop, l1']; omega
  have hfirst : h1.take 12 = intBytes p.nOrd ++ intBytes p.nCurves ++ intBytes p.xaxis := by
    have := congrArg (List.take 12) t1
    rw [List.take_take, List.take_take, Nat.min_eq_left (by omega)] at this
    rw [this, List.append_assoc, List.append_assoc, List.take_left' (by simp [i4])]
  have h20 : h2.take 20 = intsToBytes [i32 p.nOrd, i32 p.nCurves, i32 p.xaxis, i32 p.labelsLength, i32 prec] := by
    rw [t2, hfirst, List.take_left' (by simp [i4])]
    simp [intBytes, intsToBytes]
  have hsplit : bytesToInts h2 = [i32 p.nOrd, i32 p.nCurves, i32 p.xaxis, i32 p.labelsLength, i32 prec] ++ bytesToInts (h2.drop 20) := by
    rw [← bytesToInts_append, ← h20, List.take_append_drop]
  have hn2 : 5 ≤ n2 := by omega
  have hrl : (bytesToInts (h2.drop 20)).length = 195 := bytesToInts_length 195 _ (by rw [List.length_drop, l2'])
  have hih : (bytesToInts h2).take n2 = i32 p.nOrd :: i32 p.nCurves :: i32 p.xaxis :: i32 p.labelsLength :: i32 prec :: (bytesToInts (h2.drop 20)).take (n2 - 5) := by
    rw [hsplit, List.take_append, List.take_of_length_le (by simpa using hn2)]
    rfl
  have hlen : ((bytesToInts (h2.drop 20)).take (n2 - 5)).length = n2 - 5 := by rw [List.length_take, hrl]; omega
  refine ⟨(bytesToInts (h2.drop 20)).take (n2 - 5), ?_, by rw [hlen]; omega, ?_⟩
  · unfold pdHeader
    simp only []
    rw [e1, Option.bind_some]
    simp only [hprec]
    rw [e2, Option.map_some, hih]
  · intro ca hca
    rw [← hih, hlen, show 5 + (n2 - 5) = n2 by omega, intsToBytes_take, intsToBytes_bytesToInts 200 h2 l2']
    obtain ⟨h3, n3, e3, l3, t3, k3, r3⟩ := C51_paired_data_partial p.strings s2 s1 s3 e.ca2
      (h1.take 12 ++ intBytes p.labelsLength ++ intBytes prec ++ h1.drop 20) ca n1 a3
      (by simp only [List.length_append, i4, List.length_take, List.length_drop, l1']; omega) (by omega) hca
    rw [e2] at e3
    injection e3 with e3
    injection e3 with e4 e5
    subst e4; subst e5
    rw [r3 _ (by rw [List.take_take, Nat.min_self]) _ (by simp), fields_map _ s1]

/-! ### Replacing a record -/

theorem zdataType_some {c : Cfg} (hc : c.OK) {G : Ghost} {s : Eng} (I : Inv c G s) {p : Bytes} (hlen : p.length ≤ 392) {R : Rec}
    (h : (abs c G s.disk).live p = some R) (looks : Int) :
    ∃ t : UInt32, zdataType c s looks p = some (toInt32 t.toNat) ∧ compatible t R.dataType := by
  have hh := hc.tHash_lt p hlen
  obtain ⟨A, B, e, T, hm, hl, hA, hB⟩ := live_entry hc I hlen h
  obtain ⟨C1, b, pre, post, C2, hC, hAeq, hBeq⟩ := split_centries T.ents
  have hlen' : (G.chain (c.tHash p)).length ≤ s.hdr.totalBins + 1 := by have := I.h.len _ hh; omega
  obtain ⟨ws, hz⟩ := zcheck_some hc (hx := c.tHash p) (ax := 0) I.w.idle hh hC hlen' (wanted := REC_STATUS_VALID) (by
    rw [← hAeq]; intro x hx hmx; exact EMatch.not_gone (Or.inl hmx) (hA x hx hmx.1)) hm
  have hat := (I.w.chains _ hh).at_
  rw [hC] at hat
  have hb := (ChainAt_bin C1 hat).1
  have he : EntryAt c s.disk (b + esize pre) e := (EntriesAt_append.mp hb.1).2.1
  refine ⟨UInt32.ofNat (lo32 e.typeCat), ?_, ?_⟩
  · unfold zdataType
    rw [hz, Option.map_some]
    simp only [if_true]
    rw [he.2.2.2.2.1, UInt32.toNat_ofNat']
    unfold toInt32 lo32
    simp
  · have := T.rcd.ok.tc
    rw [← T.rcd.eq]
    exact this

theorem zdataType_none {c : Cfg} (hc : c.OK) {G : Ghost} {s : Eng} (I : Inv c G s) {p : Bytes} (hlen : p.length ≤ 392)
    (h : (abs c G s.disk).live p = none) (looks : Int) : zdataType c s looks p = some looks := by
  obtain ⟨k, h1, h2⟩ := zcheck_found hc I hlen
  unfold zdataType
  rw [h1, Option.map_some, h2, h]
  rfl

theorem HInv.delete {c : Cfg} (hc : c.OK) {G : Ghost} {s : Eng} {past : List Op} (H : HInv c G s past) {p : Bytes} (hlen : p.length ≤ 392) :
    ∃ G' s' res, zdeleteInternal c s p false = some (s', res) ∧ HInv c G' s' (past ++ [.delete p]) ∧
      (∀ q, q.length ≤ 392 → ¬ sameUpToCase p q → zread c s' q = zread c s q) ∧ zread c s' p = some none := by
  obtain ⟨G', s', res, hr, S, H'⟩ := H.step hc (op := .delete p) hlen
  have hst := S.step
  refine ⟨G', s', res, hr, H', fun q hq hne => ?_, ?_⟩
  · rw [zread_abs hc H.inv hq, zread_abs hc H'.inv hq]
    rw [step_other hst (q := q) (fun x hx hs => hne (by simp [Op.paths] at hx; subst hx; exact hs))]
  · rw [zread_abs hc H'.inv hlen]
    congr 1
    generalize abs c G s.disk = st at hst
    generalize abs c G' s'.disk = st' at hst ⊢
    cases hst with
    | delete h1 h2 h3 => exact (h2 p).1 (same_iff.mpr (Same.refl _))
    | deleteMissing h1 => exact h1

theorem leads_nil {c : Cfg} {past : List Op} {s : Eng} : Leads c past s [] s := ⟨trivial, [], rfl⟩

theorem leads_delete {c : Cfg} {past : List Op} {s s' : Eng} {p : Bytes} {res : Res} (h : p.length ≤ 392)
    (hd : zdeleteInternal c s p false = some (s', res)) : Leads c past s [.delete p] s' :=
  ⟨⟨h, fun _ _ _ => trivial⟩, [res], by simp only [runs, run, hd]; rfl⟩

theorem leads_append {c : Cfg} : ∀ {a b : List Op} {past : List Op} {s s1 s2 : Eng}, Leads c past s a s1 → Leads c (past ++ a) s1 b s2 → Leads c past s (a ++ b) s2
  | [], b, past, s, s1, s2, ⟨_, r, h⟩, h2 => by
    simp only [runs, Option.some.injEq, Prod.mk.injEq] at h
    obtain ⟨rfl, _⟩ := h
    rw [List.append_nil] at h2
    exact h2
  | op :: a, b, past, s, s1, s2, ⟨⟨h0, h1⟩, r, h⟩, h2 => by
    simp only [runs] at h
    cases hr : run c s op with
    | none => rw [hr] at h; cases h
    | some q =>
      rw [hr, Option.bind_some] at h
      cases hq : runs c q.1 a with
      | none => rw [hq] at h; cases h
      | some z =>
        rw [hq, Option.map_some] at h
        injection h with h; injection h with h _; subst h
        have hrec := leads_append (a := a) (b := b) (past := past ++ [op]) (s := q.1) (s1 := z.1) (s2 := s2) ⟨h1 q.1 q.2 hr, z.2, hq⟩ (by
          rw [List.append_assoc]; exact h2)
        obtain ⟨k1, r', k2⟩ := hrec
        refine ⟨⟨h0, fun s' res hs => ?_⟩, q.2 :: r', ?_⟩
        · rw [hr] at hs
          injection hs with hs; subst hs
          exact k1
        · simp only [List.cons_append, runs]
          rw [hr, Option.bind_some, k2]
          rfl

theorem compatible_pd {t u : UInt32} (h : compatible t u) (hu : u = 200 ∨ u = 205 ∨ t = 200 ∨ t = 205) : t = u := by
  rcases h with h | ⟨h1, h2⟩ | ⟨h1, h2⟩
  · exact h
  all_goals
    simp only [List.mem_cons, List.not_mem_nil, or_false] at h1 h2
    rcases hu with hu | hu | hu | hu <;> subst hu <;> rcases h1 with h1 | h1 <;> rcases h2 with h2 | h2 <;> first | (exact absurd h1 (by decide)) | (exact absurd h2 (by decide))

theorem compatible_pos {t u : UInt32} (h : compatible t u) (hu : 0 < toInt32 u.toNat) : 0 < toInt32 t.toNat := by
  rcases h with h | ⟨h1, h2⟩ | ⟨h1, h2⟩
  · rw [h]; exact hu
  all_goals
    simp only [List.mem_cons, List.not_mem_nil, or_false] at h1
    rcases h1 with h1 | h1 <;> subst h1 <;> decide

theorem toInt32_inj {t u : UInt32} (h : toInt32 t.toNat = toInt32 u.toNat) : t = u := by
  have h1 := t.toNat_lt; have h2 := u.toNat_lt
  apply UInt32.toNat_inj.mp
  unfold toInt32 lo32 at h
  split at h <;> split at h <;> omega

theorem pdWrite_ok {c : Cfg} (hc : c.OK) {G : Ghost} {s : Eng} {past : List Op} (H : HInv c G s past) (e : PdEnv) (r : Req)
    (hty : r.dataType = 200 ∨ r.dataType = 205) (hp : 0 < r.path.length)
    (hm : MayReplace c past s r.path r.dataType (oddHeaders r.ih r.h2 (lengthened r.uh))) :
    ∃ G' s' more, pdWrite c s e r.path r = some (s', .ok) ∧ Leads c past s more s' ∧ HInv c G' s' (past ++ more) ∧
      (∀ q, q.length ≤ 392 → ¬ sameUpToCase r.path q → zread c s' q = zread c s q) ∧
      ∃ v, zread c s' r.path = some (some (stored { r with uh := lengthened r.uh } v)) := by
  obtain ⟨m1, m2, m3, m4⟩ := hm
  have hz := zread_abs hc H.inv m1
  have first : ∃ t G1 s1 pre, (pre = [] ∨ pre = [.delete r.path]) ∧ Leads c past s pre s1 ∧ zdataType c s e.looks r.path = some t ∧
      (if t > 0 ∧ t ≠ toInt32 r.dataType.toNat then (zdeleteInternal c s r.path false).map Prod.fst else some s) = some s1 ∧
      HInv c G1 s1 (past ++ pre) ∧ (∀ q, q.length ≤ 392 → ¬ sameUpToCase r.path q → zread c s1 q = zread c s q) ∧
      ((zread c s1 r.path = some none ∧ ∀ d ∈ past.flatMap Op.deletes, (d.length + 7) / 8 ≤ (r.path.length + 7) / 8) ∨
        (s1 = s ∧ ∃ R, zread c s r.path = some (some R) ∧ R.dataType = r.dataType)) := by
    cases hR : (abs c G s.disk).live r.path with
    | none =>
      have hz' : zread c s r.path = some none := by rw [hz, hR]
      have hdel := m4 (fun R hR' => by rw [hz'] at hR'; cases hR')
      by_cases hl : e.looks > 0 ∧ e.looks ≠ toInt32 r.dataType.toNat
      · obtain ⟨G1, s1, res, k1, k2, k3, k4⟩ := H.delete hc m1
        exact ⟨e.looks, G1, s1, _, Or.inr rfl, leads_delete m1 k1, zdataType_none hc H.inv m1 hR _, by rw [if_pos hl, k1]; rfl, k2, k3, Or.inl ⟨k4, hdel⟩⟩
      · exact ⟨e.looks, G, s, [], Or.inl rfl, leads_nil, zdataType_none hc H.inv m1 hR _, by rw [if_neg hl], by rw [List.append_nil]; exact H, fun _ _ _ => rfl, Or.inl ⟨hz', hdel⟩⟩
    | some R =>
      have hz' : zread c s r.path = some (some R) := by rw [hz, hR]
      obtain ⟨t, ht, hcomp⟩ := zdataType_some hc H.inv m1 hR e.looks
      by_cases hl : toInt32 t.toNat > 0 ∧ toInt32 t.toNat ≠ toInt32 r.dataType.toNat
      · obtain ⟨G1, s1, res, k1, k2, k3, k4⟩ := H.delete hc m1
        refine ⟨_, G1, s1, _, Or.inr rfl, leads_delete m1 k1, ht, by rw [if_pos hl, k1]; rfl, k2, k3, Or.inl ⟨k4, m4 fun R' hR' he => ?_⟩⟩
        rw [hz'] at hR'
        injection hR' with hR'; injection hR' with hR'; subst hR'
        have : t = R.dataType := compatible_pd hcomp (by rw [he]; rcases hty with h | h <;> simp [h])
        exact hl.2 (by rw [this, he])
      · refine ⟨_, G, s, [], Or.inl rfl, leads_nil, ht, by rw [if_neg hl], by rw [List.append_nil]; exact H, fun _ _ _ => rfl, Or.inr ⟨rfl, R, hz', ?_⟩⟩
        have hpos := compatible_pos hcomp (m2 R hz')
        have : t = r.dataType := toInt32_inj (Decidable.byContradiction fun h => hl ⟨hpos, h⟩)
        rw [← compatible_pd hcomp (by rw [this]; rcases hty with h | h <;> simp [h]), this]
  obtain ⟨t, G1, s1, pre, hpre, hlead, k1, k2, H1, k3, k4⟩ := first
  have hal : Allowed c (past ++ pre) s1 (.write { r with uh := lengthened r.uh }) := by
    refine ⟨hp, m1, fun R hR => ?_, fun hn d hdm => ?_⟩
    · rcases k4 with ⟨k5, _⟩ | ⟨rfl, R', k5, k6⟩
      · have hR : zread c s1 r.path = some (some R) := hR
        rw [k5] at hR; cases hR
      · have hR : zread c s1 r.path = some (some R) := hR
        rw [k5] at hR
        injection hR with hR; injection hR with hR; subst hR
        exact m3 _ k5 k6
    · show (d.length + 7) / 8 ≤ (r.path.length + 7) / 8
      rcases k4 with ⟨_, k5⟩ | ⟨rfl, R', k5, k6⟩
      · rw [List.flatMap_append, List.mem_append] at hdm
        rcases hdm with h | h
        · exact k5 d h
        · rcases hpre with rfl | rfl
          · simp at h
          · simp [Op.deletes] at h; subst h; exact Nat.le_refl _
      · have hn : zread c s1 r.path = some none := hn
        rw [k5] at hn; cases hn
  obtain ⟨G2, s2, j1, H2, j2, v, j3⟩ := H1.put_in hc _ hal (fun R hR => by
    rcases k4 with ⟨k5, _⟩ | ⟨rfl, R', k5, k6⟩
    · have hR : zread c s1 r.path = some (some R) := hR
      rw [k5] at hR; cases hR
    · have hR : zread c s1 r.path = some (some R) := hR
      rw [k5] at hR
      injection hR with hR; injection hR with hR; subst hR
      exact k6)
  refine ⟨G2, s2, pre ++ [.write { r with uh := lengthened r.uh }], ?_, leads_append hlead ⟨⟨hal, fun _ _ _ => trivial⟩, [.ok], by simp only [runs, run, j1]; rfl⟩,
    H2.mono (fun d h => by rw [← List.append_assoc, List.flatMap_append]; exact List.mem_append_left _ h), fun q hq hne => by rw [j2 q hq hne, k3 q hq hne], v, j3⟩
  unfold pdWrite zwritePublic
  rw [k1, Option.bind_some, k2, Option.bind_some, j1]
  rfl

/-! ### Reading -/

/-- The arrays of a record with these data. -/
def pdWords : PdData → List UInt32 × List UInt32
  | .floats o v => (o, v)
  | .doubles o v => (o.flatMap doubleInts, v.flatMap doubleInts)

theorem asType_doubles (k : Conv) (w : Bool) (d : PdData) : areDoubles (asType k w d) = w := by
  cases d <;> cases w <;> rfl

theorem pdRead_words (k : Conv) (out : Bool) (D : PdData) : pdRead k (areDoubles D) out (pdWords D).1 (pdWords D).2 = asType k out D := by
  cases D <;> cases out <;> simp [pdRead, pdWords, areDoubles, asType, intsDoubles_ints]

theorem flatMap_congr' {α β : Type} {f g : α → List β} {l : List α} (h : ∀ x ∈ l, f x = g x) : l.flatMap f = l.flatMap g := by
  induction l with
  | nil => rfl
  | cons a l ih => simp only [List.flatMap_cons]; rw [h a (by simp), ih fun x hx => h x (by simp [hx])]

theorem row_fits {n m a rows b i curves : Nat} (h1 : a + rows ≤ n) (h2 : b + curves ≤ m) (hi : i < curves) : (b + i) * n + a + rows ≤ m * n := by
  have : (b + i + 1) * n ≤ m * n := Nat.mul_le_mul_right n (by omega)
  rw [Nat.add_mul, Nat.one_mul] at this
  omega

theorem pdGet_part {d : Disk} {a1 N1 a2 N2 n m : Nat} {D : PdData} (hs : HasSize n m D) (h1 : getInts d a1 N1 = (pdWords D).1) (h2 : getInts d a2 N2 = (pdWords D).2)
    {a rows b curves : Nat} (hr : a + rows ≤ n) (hb : b + curves ≤ m) :
    (pdGet d a1 (areDoubles D) a rows, (List.range curves).flatMap fun i : Nat => pdGet d a2 (areDoubles D) ((b + i) * n + a) rows) =
      pdWords (part n a rows b curves D) := by
  have l1 := getInts_length d a1 N1
  have l2 := getInts_length d a2 N2
  rw [h1] at l1; rw [h2] at l2
  cases D with
  | floats o v =>
    obtain ⟨s1, s2⟩ := hs
    simp only [pdWords] at l1 l2 h1 h2
    simp only [areDoubles, part, pdWords, cut]
    rw [pdGet_floats d a1 N1 a rows (by omega), h1]
    congr 1
    apply flatMap_congr'
    intro i hi
    have hi := List.mem_range.mp hi
    have := row_fits hr hb hi
    rw [pdGet_floats d a2 N2 _ rows (by omega), h2]
  | doubles o v =>
    obtain ⟨s1, s2⟩ := hs
    simp only [pdWords] at l1 l2 h1 h2
    rw [doubles_length] at l1 l2
    simp only [areDoubles, part, pdWords, cut]
    rw [pdGet_doubles d a1 N1 a rows (by omega), h1, doubles_drop, doubles_take]
    congr 1
    rw [List.flatMap_assoc]
    apply flatMap_congr'
    intro i hi
    have hi := List.mem_range.mp hi
    have := row_fits hr hb hi
    rw [pdGet_doubles d a2 N2 _ rows (by omega), h2, doubles_drop, doubles_take]

theorem part_doubles (n a rows b curves : Nat) (D : PdData) : areDoubles (part n a rows b curves D) = areDoubles D := by cases D <;> rfl

theorem clampRange_ok {start fin : Int} {n a k : Nat} (h : Asked start fin n a k) : clampRange start fin n = ((a : Int), (k : Int)) ∧ a + k ≤ n := by
  obtain ⟨h1, h2, h3⟩ := h
  unfold clampRange
  simp only []
  split at h3
  · next hf =>
    rw [if_pos hf]
    refine ⟨?_, by omega⟩
    have e1 : (if start - 1 < 0 then (0 : Int) else start - 1) = a := by split <;> omega
    rw [e1, if_neg (by omega)]
    congr 1; omega
  · next hf =>
    rw [if_neg hf]
    refine ⟨?_, by omega⟩
    have e1 : (if start - 1 < 0 then (0 : Int) else start - 1) = a := by split <;> omega
    rw [e1, if_neg (by omega)]
    congr 1; omega

end Hec
