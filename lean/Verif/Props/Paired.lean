import Verif.Proofs.Paired
import Verif.Props.Records
/-!
Paired data are read back as they were stored (C54).  `ps` are the six parts of the pathname the data are stored under,
`qs` those of the pathname they are read under, which may differ in letter case; both may be followed by blanks.
-/
namespace Hec
set_option linter.unusedSimpArgs false
set_option linter.unusedVariables false
set_option synthInstance.maxSize 1000
set_option synthInstance.maxHeartbeats 200000
open _root_.Spec (Op Store Step Steps run runs Allowed AllAllowed Plain Reachable GoodSizes create join SixParts stored oddHeaders
  compatible Points IsInt MayStore Later headerString HeaderKept headerOdd asType areDoubles wideFor zeroValues kept cut part Asked flat HasSize Leads
  Paired Whole PdArrays MayReplace field readBack wideOut)
open Hec.Spec (sameUpToCase)

/-! ### The record -/

theorem pdInts_ords (k : Conv) (w : Bool) {n m : Nat} {d : PdData} (h : HasSize n m d) : pdInts k w (d.ords n) = (pdWords (asType k w d)).1 := by
  cases d <;> obtain ⟨h1, h2⟩ := h <;> cases w <;> simp [pdInts, PdData.ords, asType, pdWords, ← h1]

theorem pdInts_vals (k : Conv) (w : Bool) {n m : Nat} {d : PdData} (h : HasSize n m d) : pdInts k w (d.vals 0 (m * n)) = (pdWords (asType k w d)).2 := by
  cases d <;> obtain ⟨h1, h2⟩ := h <;> cases w <;> simp [pdInts, PdData.vals, asType, pdWords, ← h2]

theorem zeros_doubles (n : Nat) : (List.replicate n (0 : UInt64)).flatMap doubleInts = List.replicate (2 * n) 0 := by
  induction n with
  | zero => rfl
  | succ n ih =>
    rw [List.replicate_succ, List.flatMap_cons, ih, show 2 * (n + 1) = 2 * n + 1 + 1 by omega, List.replicate_succ, List.replicate_succ]
    rfl

theorem zero_words (k : Conv) (w : Bool) {n m : Nat} {d : PdData} (h : HasSize n m d) :
    pdWords (zeroValues (asType k w d)) = ((pdWords (asType k w d)).1, List.replicate (if w then 2 * (m * n) else m * n) 0) := by
  cases d <;> obtain ⟨h1, h2⟩ := h <;> cases w <;> simp only [zeroValues, asType, pdWords, List.length_map, List.map_const', h2, zeros_doubles, if_true, if_false, Bool.false_eq_true]

theorem kept_size (k : Conv) (flag : Int) {n m : Nat} {d : PdData} (h : HasSize n m d) : HasSize n m (kept k flag d) := by
  unfold kept
  generalize wideFor flag d = w
  cases d <;> cases w <;> split <;> simpa [zeroValues, asType, HasSize] using h

theorem kept_doubles (k : Conv) (flag : Int) (d : PdData) : areDoubles (kept k flag d) = wideFor flag d := by
  unfold kept
  split
  · generalize wideFor flag d = w
    cases d <;> cases w <;> rfl
  · exact asType_doubles _ _ _

theorem storeDoubles_ok (flag : Int) (d : PdData) : storeDoubles flag (some d) = some (wideFor flag d) := by
  unfold storeDoubles wideFor
  cases d <;> (repeat' split) <;> simp_all [areDoubles]

theorem storeEntire_ok {p : PdIn} (h : Whole p) : storeEntire p = true := by
  unfold storeEntire
  rcases h with ⟨h1, h2, h3, h4⟩ | ⟨h1, h2, h3, h4⟩
  · simp [h1, h2, h3, h4]
  · simp [h1, h2, h3, h4]

theorem pdLabels_ok {p : PdIn} {ls : List Bytes} (h : Points p.labels p.labelsLength (flat ls)) :
    pdLabels p = bytesToInts (flat ls ++ List.replicate (7 - ((flat ls).length + 7) % 8) 0) := by
  unfold pdLabels
  rw [points_chars h]

/-- The labels of a record as they are read. -/
theorem labels_back {p : PdIn} {ls : List Bytes} (h : Points p.labels p.labelsLength (flat ls)) (hz : ∀ l ∈ ls, ∀ b ∈ l, b ≠ 0) (sc ec : Nat) :
    pdReadLabels (pdLabels p) (toInt32 (i32 p.labelsLength).toNat) sc ec = flat ((ls.take ec).drop sc) := by
  rw [pdLabels_ok h]
  rcases h with ⟨h1, h2⟩ | ⟨h1, h2, rest, h3, h4⟩
  · cases ls with
    | cons l ls => simp [flat] at h2
    | nil => simp [flat, pdReadLabels, bytesToInts]
  · rw [toInt32_i32 ⟨by omega, by omega⟩, ← h4]
    exact readLabels_ok ls hz sc ec

/-- What the record in the file holds. -/
structure PdRec (k : Conv) (p : PdIn) (flag : Int) (d : PdData) (R : Rec) : Prop where
  type : R.dataType = if wideFor flag d then 205 else 200
  head : ∃ rest, R.ih = i32 p.nOrd :: i32 p.nCurves :: i32 p.xaxis :: i32 p.labelsLength ::
      i32 (if p.xprec < 0 then -1 else p.xprec * 10 + p.yprec) :: rest
  strings : ∀ ca : Bytes, ca.length = 400 → zpdHeadToUnits (List.replicate 5 ⟨none, false⟩) (intsToBytes R.ih) R.ih.length ca = some (p.strings.map field)
  labels : R.h2 = pdLabels p
  uh : R.uh = lengthened p.uh
  words : (R.v1, R.v2) = pdWords (kept k flag d)

theorem type_range (w : Bool) : ¬ (toInt32 (if w then (205 : UInt32) else 200).toNat < 200 ∨ toInt32 (if w then (205 : UInt32) else 200).toNat ≥ 300) := by
  cases w <;> decide

theorem prec_back {p : PdIn} (h : p.xprec < 0 ∨ (0 ≤ p.xprec ∧ p.xprec < 2 ^ 27 ∧ 0 ≤ p.yprec ∧ p.yprec ≤ 9)) :
    let prec := toInt32 (i32 (if p.xprec < 0 then -1 else p.xprec * 10 + p.yprec)).toNat
    (if prec < 0 then (-1 : Int) else prec.tdiv 10) = (if p.xprec < 0 then -1 else p.xprec) ∧
      (if prec < 0 then (-1 : Int) else prec - prec.tdiv 10 * 10) = (if p.xprec < 0 then -1 else p.yprec) := by
  intro prec
  have hp : prec = if p.xprec < 0 then -1 else p.xprec * 10 + p.yprec := toInt32_i32 (by unfold IsInt; split <;> omega)
  rcases h with h | ⟨h1, h2, h3, h4⟩
  · rw [if_pos h] at hp
    have hlt : prec < 0 := by omega
    rw [if_pos hlt, if_pos hlt, if_pos h, if_pos h]
    exact ⟨rfl, rfl⟩
  · rw [if_neg (by omega)] at hp
    rw [if_neg (by omega), if_neg (by omega), if_neg (by omega), if_neg (by omega), Int.tdiv_eq_ediv_of_nonneg (by omega)]
    omega

theorem sizeOut {size : Int} (hs : size = 0 ∨ size = 1 ∨ size = 2) (k : Conv) (flag : Int) (d : PdData) :
    (if size = 0 then some (decide ((if wideFor flag d then (205 : UInt32) else 200) ≠ 200)) else if size = 1 then some false else if size = 2 then some true else none) =
      some (wideOut size (kept k flag d)) := by
  unfold wideOut
  rw [kept_doubles]
  rcases hs with rfl | rfl | rfl
  · cases wideFor flag d <;> rfl
  · rfl
  · rfl

/-- Reading such a record. -/
theorem pdRec_read {c : Cfg} {s : Eng} {k : Conv} {p : PdIn} {flag : Int} {d : PdData} {n m : Nat} {ls : List Bytes} {R : Rec} (hR : PdRec k p flag d R)
    (hd : Paired p d n m ls) {qs : List Bytes} (hq : SixParts qs) (j : Nat) (hz : zread c s (join qs) = some (some R)) {ca : Bytes} (hca : ca.length = 400)
    {a : PdAsk} (ha : a.path = join qs ++ List.replicate j 32) (hsz : a.size = 0 ∨ a.size = 1 ∨ a.size = 2) :
    (readEntire a = true → zpdRetrieve c s k ca a =
      some (.got (some (readBack p flag d (flat (ls.take m)) (lengthened p.uh) n m (asType k (wideOut a.size (kept k flag d)) (kept k flag d)))))) ∧
    (∀ r0 rows c0 curves, readEntire a = false → Asked a.startOrd a.endOrd n r0 rows → Asked a.startCurve a.endCurve m c0 curves →
      zpdRetrieve c s k ca a = some (.got (some (readBack p flag d (flat ((ls.take a.endCurve.toNat).drop c0)) [] rows curves
        (asType k (wideOut a.size (kept k flag d)) (part n r0 rows c0 curves (kept k flag d))))))) := by
  obtain ⟨info, chk, hi, hRi⟩ : ∃ info chk, zreadInfo c s (join qs) REC_STATUS_VALID = some (chk, some info) ∧ R = readArrays s.disk info := by
    unfold zread at hz
    cases h : zreadInfo c s (join qs) REC_STATUS_VALID with
    | none => rw [h] at hz; cases hz
    | some q =>
      obtain ⟨chk, o⟩ := q
      cases o with
      | none => rw [h] at hz; cases hz
      | some info =>
        rw [h] at hz
        simp only [Option.map_some, Option.some.injEq] at hz
        exact ⟨info, chk, rfl, hz.symm⟩
  obtain ⟨r1, ⟨rest, r2⟩, r3, r4, r5, r6⟩ := hR
  have hnO : toInt32 (i32 p.nOrd).toNat = n := by rw [hd.nOrd.1]; exact toInt32_i32 ⟨by omega, by have := hd.nOrd.2.2; omega⟩
  have hnC : toInt32 (i32 p.nCurves).toNat = m := by rw [hd.nCurves.1]; exact toInt32_i32 ⟨by omega, by have := hd.nCurves.2.2; omega⟩
  have hx : toInt32 (i32 p.xaxis).toNat = p.xaxis := toInt32_i32 hd.xaxis
  have hpr := prec_back hd.prec
  have hw : ∀ w : Bool, (decide ((if w then (205 : UInt32) else 200) = 205)) = w := by intro w; cases w <;> rfl
  have hS : HasSize n m (kept k flag d) := kept_size k flag hd.size
  have hv1 : R.v1 = (pdWords (kept k flag d)).1 := congrArg Prod.fst r6
  have hv2 : R.v2 = (pdWords (kept k flag d)).2 := congrArg Prod.snd r6
  have hstr := r3 ca hca
  refine ⟨fun hre => ?_, fun r0 rows c0 curves hre hA hB => ?_⟩
  · unfold zpdRetrieve
    rw [ha, C50_trailing_blanks qs hq j, hi, Option.bind_some]
    simp only []
    rw [← hRi, r1, if_neg (type_range _), r2]
    simp only []
    rw [sizeOut hsz k, Option.bind_some, ← r2, hstr, Option.bind_some, if_pos hre]
    simp only [hnO, hnC, hx]
    rw [hpr.1, hpr.2, r4, labels_back hd.labels.1 hd.labels.2, r5, hv1, hv2]
    have hfin : ∀ w, areDoubles (kept k flag d) = w → pdRead k w (wideOut a.size (kept k flag d)) (pdWords (kept k flag d)).1 (pdWords (kept k flag d)).2 =
        asType k (wideOut a.size (kept k flag d)) (kept k flag d) := fun w hw => by
      rw [← hw]; exact pdRead_words k (wideOut a.size (kept k flag d)) (kept k flag d)
    unfold readBack
    rw [hd.nOrd.1, hd.nCurves.1, List.drop_zero, Int.toNat_natCast]
    cases hwf : wideFor flag d with
    | false =>
      rw [hfin false (by rw [kept_doubles, hwf])]
      rfl
    | true =>
      rw [hfin true (by rw [kept_doubles, hwf])]
      rfl
  · obtain ⟨e1, f1⟩ := clampRange_ok hA
    obtain ⟨e2, f2⟩ := clampRange_ok hB
    have hrow : 1 ≤ rows := hA.2.1
    unfold zpdRetrieve
    rw [ha, C50_trailing_blanks qs hq j, hi, Option.bind_some]
    simp only []
    rw [← hRi, r1, if_neg (type_range _), r2]
    simp only []
    rw [sizeOut hsz k, Option.bind_some, ← r2, hstr, Option.bind_some, if_neg (by rw [hre]; decide)]
    simp only [hnO, hnC, hx, e1, e2]
    rw [if_neg (by omega), hpr.1, hpr.2, r4, labels_back hd.labels.1 hd.labels.2, hw]
    have g1 : getInts s.disk (info kinfoValues1Address) (info kinfoValues1Number) = (pdWords (kept k flag d)).1 := by rw [← hv1, hRi]; rfl
    have g2 : getInts s.disk (info kinfoValues2Address) (info kinfoValues2Number) = (pdWords (kept k flag d)).2 := by rw [← hv2, hRi]; rfl
    have hg := pdGet_part hS g1 g2 f1 f2
    rw [kept_doubles] at hg
    have hga := congrArg Prod.fst hg
    have hgb := congrArg Prod.snd hg
    simp only [] at hga hgb
    have hc0 : (a.startCurve - 1).toNat = c0 := by have := hB.1; omega
    have hidx : ∀ i : Nat, ((r0 : Int) + ((c0 : Int) + (i : Int)) * (n : Int)).toNat = (c0 + i) * n + r0 := by
      intro i
      rw [← Int.natCast_add, ← Int.natCast_mul, ← Int.natCast_add, Int.toNat_natCast, Nat.add_comm]
    simp only [Int.toNat_natCast, hidx, hc0]
    rw [hga, hgb]
    have hfin := pdRead_words k (wideOut a.size (kept k flag d)) (part n r0 rows c0 curves (kept k flag d))
    rw [part_doubles, kept_doubles] at hfin
    rw [hfin]
    unfold readBack
    rw [hd.nOrd.1, hd.nCurves.1]

/-! ### C54 -/

section
variable {hdrSize maxHash binSize : Nat} {mul : Nat → Nat}

/-- C54.  Paired data stored as a whole, under a pathname without a record, with paired data or with a record of another
type (which is replaced), are stored, and no other record changes.  Whatever is called next about other records, they are
read back: all of them, or any range of ordinates and curves, as floats or as doubles, with labels, units and types, the
numbers of ordinates and curves, precisions and user header.  Missing: writes outside the conditions of MayReplace, the
labels of a partial read without a last curve, two digits of precision (see the violations below); elevations. -/
theorem C54_whole_partial (g : GoodSizes hdrSize maxHash binSize) {past : List Op} {s : Eng}
    (hs : Reachable (create hdrSize maxHash binSize mul).1 (create hdrSize maxHash binSize mul).2 past s) {e : PdEnv} (he : PdArrays e) (w : WriteEnv)
    (flag : Int) {p : PdIn} {d : PdData} {n m : Nat} {ls : List Bytes} (hd : Paired p d n m ls) (hwh : Whole p)
    {ps : List Bytes} {k : Nat} (hp : SixParts ps) (hpath : p.path = join ps ++ List.replicate k 32)
    (hm : MayReplace (create hdrSize maxHash binSize mul).1 past s (join ps) (if wideFor flag d then 205 else 200) (headerOdd p.uh)) :
    ∃ s' more, zpdStore (create hdrSize maxHash binSize mul).1 s e w flag p = some (s', .ok) ∧
      Reachable (create hdrSize maxHash binSize mul).1 (create hdrSize maxHash binSize mul).2 (past ++ more) s' ∧
      (∀ q, q.length ≤ 392 → ¬ sameUpToCase (join ps) q →
        zread (create hdrSize maxHash binSize mul).1 s' q = zread (create hdrSize maxHash binSize mul).1 s q) ∧
      ∀ ops s'', Later (create hdrSize maxHash binSize mul).1 (past ++ more) s' (join ps) ops s'' →
        ∀ qs j, SixParts qs → sameUpToCase (join ps) (join qs) →
        ∃ uh, HeaderKept p.uh uh ∧ ∀ (ca : Bytes) (a : PdAsk), ca.length = 400 → a.path = join qs ++ List.replicate j 32 →
          (a.size = 0 ∨ a.size = 1 ∨ a.size = 2) →
          (a.startCurve = 0 → a.endCurve = 0 → a.startOrd = 0 → a.endOrd = 0 →
            zpdRetrieve (create hdrSize maxHash binSize mul).1 s'' e.conv ca a = some (.got (some (readBack p flag d (flat (ls.take m)) uh n m
              (asType e.conv (wideOut a.size (kept e.conv flag d)) (kept e.conv flag d)))))) ∧
          (∀ r0 rows c0 curves, 1 < a.startCurve ∨ 1 < a.startOrd ∨ a.endOrd ≠ 0 ∨ a.endCurve ≠ 0 →
            Asked a.startOrd a.endOrd n r0 rows → Asked a.startCurve a.endCurve m c0 curves →
            ∃ labels, (a.endCurve ≠ 0 → ls.length ≤ m → labels = flat ((ls.drop c0).take curves)) ∧
              zpdRetrieve (create hdrSize maxHash binSize mul).1 s'' e.conv ca a = some (.got (some (readBack p flag d labels [] rows curves
                (asType e.conv (wideOut a.size (kept e.conv flag d)) (part n r0 rows c0 curves (kept e.conv flag d))))))) := by
  obtain ⟨G, H⟩ := reach g hs
  have hc := create_OK (mul := mul) g
  have hmal : mallocAndCopyPath p.path = join ps := by rw [hpath]; exact C50_trailing_blanks ps hp k
  obtain ⟨rest, hh1, hh2, hh3⟩ := pdHeader_ok e he p hd.strings
  generalize hih : (i32 p.nOrd :: i32 p.nCurves :: i32 p.xaxis :: i32 p.labelsLength :: i32 (if p.xprec < 0 then -1 else p.xprec * 10 + p.yprec) :: rest) = ih at hh1 hh3
  have hihl : ih.length = 5 + rest.length := by rw [← hih]; simp; omega
  generalize hr : pdReq e w flag p d (wideFor flag d) ih = r
  have hrp : r.path = join ps := by rw [← hr]; exact hmal
  have hru : r.uh = p.uh := by rw [← hr]; rfl
  have hodd : oddHeaders r.ih r.h2 (lengthened r.uh) = headerOdd p.uh := by
    rw [hru]
    unfold oddHeaders
    rw [lengthened_odd, ← hr]
    show ih.length % 2 + (pdLabels p).length % 2 + _ = _
    rw [pdLabels_ok hd.labels.1, bytesToInts_length _ _ (bytes8 _)]
    omega
  have hty : r.dataType = if wideFor flag d then 205 else 200 := by rw [← hr]; rfl
  obtain ⟨G', s', more, k1, k2, H', k3, v, k4⟩ := pdWrite_ok hc H e r (by rw [hty]; cases wideFor flag d <;> simp) (by rw [hrp]; simp [join])
    (by rw [hodd, hrp, hty]; exact hm)
  rw [hrp] at k1 k3
  refine ⟨s', more, ?_, leads_append hs k2, k3, fun ops s'' hl qs j hqs hq => ⟨lengthened p.uh, lengthened_kept _, fun ca a hca ha hsz => ?_⟩⟩
  · have hpos : ¬ p.nCurves * p.nOrd ≤ 0 := by
      have h1 := hd.nOrd; have h2 := hd.nCurves
      have : 0 < p.nCurves * p.nOrd := Int.mul_pos (by omega) (by omega)
      omega
    unfold zpdStore
    rw [if_pos (storeEntire_ok hwh)]
    unfold zpdStoreEntire
    rw [hd.data, storeDoubles_ok]
    simp only []
    rw [hh1, Option.bind_some, if_neg hpos, Option.bind_some, hmal, hr]
    exact k1
  · have hz : zread (create hdrSize maxHash binSize mul).1 s'' (join qs) = some (some (stored { r with uh := lengthened r.uh } v)) := by
      rw [H'.kept hc hm.1 hl hq, ← hrp, k4]
    have hR : PdRec e.conv p flag d (stored { r with uh := lengthened r.uh } v) := by
      have hN : (p.nCurves * p.nOrd).toNat = m * n := by
        rw [hd.nCurves.1, hd.nOrd.1, ← Int.natCast_mul, Int.toNat_natCast]
      have hnO : p.nOrd.toNat = n := by rw [hd.nOrd.1]; rfl
      refine ⟨hty, ⟨rest, ?_⟩, fun ca hca => ?_, ?_, ?_, ?_⟩
      · show r.ih = _
        rw [← hr]; exact hih.symm
      · show zpdHeadToUnits _ (intsToBytes r.ih) r.ih.length ca = _
        have : r.ih = ih := by rw [← hr]; rfl
        rw [this, hihl]
        exact hh3 ca hca
      · show r.h2 = _
        rw [← hr]; rfl
      · show lengthened r.uh = _
        rw [hru]
      · show (r.v1, r.v2) = _
        rw [← hr]
        show (pdInts e.conv (wideFor flag d) (d.ords p.nOrd.toNat), if flag > 5 then List.replicate (if wideFor flag d then 2 * (p.nCurves * p.nOrd).toNat else
          (p.nCurves * p.nOrd).toNat) 0 else pdInts e.conv (wideFor flag d) (d.vals 0 (p.nCurves * p.nOrd).toNat)) = _
        rw [hN, hnO, pdInts_ords _ _ hd.size, pdInts_vals _ _ hd.size]
        unfold kept
        split
        · rw [zero_words _ _ hd.size]
        · rfl
    obtain ⟨q1, q2⟩ := pdRec_read hR hd hqs j hz hca ha hsz
    refine ⟨fun a1 a2 a3 a4 => q1 (by simp [readEntire, a1, a2, a3, a4]), fun r0 rows c0 curves hpart hA hB => ⟨_, fun hne hll => ?_, q2 r0 rows c0 curves (by
      unfold readEntire
      rcases hpart with h | h | h | h <;> simp [h]) hA hB⟩⟩
    have hb := hB
    obtain ⟨b1, b2, b3⟩ := hb
    congr 1
    split at b3
    · next hf =>
      have hf : a.endCurve > m := by omega
      rw [List.take_of_length_le (by omega), List.take_of_length_le (by simp; omega)]
    · rw [show a.endCurve.toNat = c0 + curves by omega, ← List.take_drop]

/-- C54.  Without ordinates or curves, or without data, nothing is stored. -/
theorem C54_no_data (c : Cfg) (s : Eng) {e : PdEnv} (he : PdArrays e) (w : WriteEnv) (flag : Int) (p : PdIn)
    (hs : p.strings.length = 5 ∧ (∀ s ∈ p.strings, _root_.Spec.NoZero s) ∧ (p.strings.map _root_.Spec.cells).sum < 398)
    (h : p.nCurves * p.nOrd ≤ 0 ∨ (p.data = none ∧ flag ≠ 1 ∧ flag ≠ 11 ∧ flag ≠ 2 ∧ flag ≠ 12)) :
    zpdStoreEntire c s e w flag p = some (s, .noData) := by
  obtain ⟨rest, hh1, _⟩ := pdHeader_ok e he p hs
  unfold zpdStoreEntire
  rcases h with h | ⟨h1, h2, h3, h4, h5⟩
  · cases hsd : storeDoubles flag p.data with
    | none => rfl
    | some wide =>
      simp only []
      rw [hh1, Option.bind_some, if_pos h]
  · have : storeDoubles flag p.data = none := by simp [storeDoubles, h1, h2, h3, h4, h5]
    rw [this]

/-- C54.  A record that is not paired data is not read as such, and a record that is not there is reported. -/
theorem C54_other_type (c : Cfg) (s : Eng) {qs : List Bytes} (hq : SixParts qs) (j : Nat) (k : Conv) (ca : Bytes) {a : PdAsk}
    (ha : a.path = join qs ++ List.replicate j 32) :
    (∀ R, zread c s (join qs) = some (some R) → (toInt32 R.dataType.toNat < 200 ∨ toInt32 R.dataType.toNat ≥ 300) →
      zpdRetrieve c s k ca a = some .wrongType) ∧
    (zread c s (join qs) = some none → zpdRetrieve c s k ca a = some .notFound) := by
  unfold zpdRetrieve zread
  rw [ha, C50_trailing_blanks qs hq j]
  refine ⟨fun R hR ht => ?_, fun h => ?_⟩
  · cases h : zreadInfo c s (join qs) REC_STATUS_VALID with
    | none => rw [h] at hR; cases hR
    | some q =>
      obtain ⟨chk, o⟩ := q
      cases o with
      | none => rw [h] at hR; cases hR
      | some info =>
        rw [h] at hR
        simp only [Option.map_some, Option.some.injEq] at hR
        rw [Option.bind_some]
        simp only [hR]
        rw [if_pos ht]
  · cases h' : zreadInfo c s (join qs) REC_STATUS_VALID with
    | none => rw [h'] at h; cases h
    | some q =>
      obtain ⟨chk, o⟩ := q
      cases o with
      | none => rfl
      | some info => rw [h'] at h; cases h

end

/-! ### Cases -/

/-- Numbers are kept: a machine with only one size of numbers, for the cases. -/
def someConv : Conv := ⟨fun x => x.toNat.toUInt64, fun x => x.toNat.toUInt32⟩

def aPdEnv : PdEnv := ⟨someConv, List.replicate 800 77, List.replicate 400 78, List.replicate 400 79, 0⟩

/-- Three ordinates, two curves "HI" and "LO", as floats. -/
def curves : PdIn := ⟨nA, some (.floats [1, 2, 3] [10, 20, 30, 11, 21, 31]), 3, 2, 1, 2, 3, [some [70, 84], none, some [67, 70, 83], none, none],
  some [72, 73, 0, 76, 79, 0], 6, [1, 2], 0, 0, 0, 0⟩

/-- The conditions of C54_whole_partial are met in a new file: storing as doubles, and reading the second to third value of
the second curve as floats. -/
example : ∃ s', zpdStore tiny.1 tiny.2 aPdEnv anEnv 2 curves = some (s', .ok) ∧
    zpdRetrieve tiny.1 s' someConv (List.replicate 400 1) ⟨na ++ [32, 32], 2, 2, 2, 3, 1⟩ =
      some (.got (some (readBack curves 2 (.floats [1, 2, 3] [10, 20, 30, 11, 21, 31]) [76, 79, 0] [] 2 1 (.floats [2, 3] [21, 31])))) := by
  have hp : SixParts [[65], [], [], [], [], []] := ⟨rfl, by simp [_root_.Spec.IsPart]⟩
  have hq : SixParts [[97], [], [], [], [], []] := ⟨rfl, by simp [_root_.Spec.IsPart]⟩
  have hz : zread tiny.1 tiny.2 (join [[65], [], [], [], [], []]) = some none := by decide +kernel
  obtain ⟨s', more, h1, _, _, h3⟩ := C54_whole_partial (mul := id) tiny_good (past := []) (s := tiny.2) ⟨trivial, [], rfl⟩ (e := aPdEnv)
    ⟨List.length_replicate, List.length_replicate, List.length_replicate⟩ anEnv 2 (p := curves) (d := .floats [1, 2, 3] [10, 20, 30, 11, 21, 31]) (n := 3) (m := 2) (ls := [[72, 73], [76, 79]])
    ⟨rfl, ⟨rfl, rfl⟩, ⟨rfl, by decide, by decide⟩, ⟨rfl, by decide, by decide⟩, ⟨by decide, by decide⟩, Or.inr (by decide),
      ⟨rfl, by simp [curves, _root_.Spec.NoZero], by decide⟩, Or.inr ⟨by decide, by decide, [], rfl, rfl⟩, by decide⟩
    (Or.inl ⟨rfl, rfl, rfl, rfl⟩) (k := 0) hp rfl
    ⟨by decide, (fun R h => by rw [show (create 12 2 58 id) = tiny from rfl, hz] at h; cases h),
      (fun R h => by rw [show (create 12 2 58 id) = tiny from rfl, hz] at h; cases h), fun _ d hd => by simp at hd⟩
  refine ⟨s', h1, ?_⟩
  obtain ⟨uh, _, h4⟩ := h3 [] s' ⟨trivial, ⟨[], rfl⟩, by simp⟩ _ 2 hq (by rw [same_iff]; decide)
  obtain ⟨_, h5⟩ := h4 (List.replicate 400 1) ⟨na ++ [32, 32], 2, 2, 2, 3, 1⟩ List.length_replicate rfl (by decide)
  obtain ⟨labels, h6, h7⟩ := h5 1 2 1 1 (by decide) ⟨by decide, by decide, by decide⟩ ⟨by decide, by decide, by decide⟩
  rw [h6 (by decide) (by decide)] at h7
  exact h7

/-- Paired data replace text, and are replaced by paired data of doubles, evaluated. -/
example : ((ztextStore tiny.1 tiny.2 anEnv hello).bind fun q => (zpdStoreEntire tiny.1 q.1 aPdEnv anEnv 0 curves).bind fun r =>
    (zpdStoreEntire tiny.1 r.1 aPdEnv anEnv 2 { curves with xaxis := 2 }).bind fun t =>
      (zpdRetrieve tiny.1 t.1 someConv (List.replicate 400 1) ⟨nA, 0, 0, 0, 0, 0⟩).map fun x => (q.2, r.2, t.2, x)) =
    some (some .ok, .ok, .ok, .got (some (readBack { curves with xaxis := 2 } 2 (.floats [1, 2, 3] [10, 20, 30, 11, 21, 31]) [72, 73, 0, 76, 79, 0] [1, 2] 3 2
      (.doubles [1, 2, 3] [10, 20, 30, 11, 21, 31])))) := by decide +kernel

/-- Text is not read as paired data, evaluated. -/
example : ((ztextStore tiny.1 tiny.2 anEnv hello).bind fun q => zpdRetrieve tiny.1 q.1 someConv [] ⟨nA, 0, 0, 0, 0, 0⟩) = some .wrongType := by decide +kernel

/-- C54 fails: a partial read that names no last curve gets the values of all curves from the first one named, but no
labels. -/
theorem C54_labels_violation :
    ((zpdStoreEntire tiny.1 tiny.2 aPdEnv anEnv 0 curves).bind fun q =>
      zpdRetrieve tiny.1 q.1 someConv (List.replicate 400 1) ⟨nA, 1, 0, 2, 3, 0⟩) =
      some (.got (some (readBack curves 0 (.floats [1, 2, 3] [10, 20, 30, 11, 21, 31]) [] [] 2 2 (.floats [2, 3] [20, 30, 21, 31])))) := by decide +kernel

/-- C54 fails: with ten or more digits after the point of the values, other precisions are read back. -/
theorem C54_precision_violation :
    ((zpdStoreEntire tiny.1 tiny.2 aPdEnv anEnv 0 { curves with xprec := 2, yprec := 12 }).bind fun q =>
      (zpdRetrieve tiny.1 q.1 someConv (List.replicate 400 1) ⟨nA, 0, 0, 0, 0, 0⟩).map fun x =>
        match x with | .got (some r) => (q.2, r.xprec, r.yprec) | _ => (q.2, 0, 0)) = some (.ok, 3, 2) := by decide +kernel

end Hec
