import Verif.Proofs.PairedPart
import Verif.Props.Paired
/-!
A part of paired data is replaced, and nothing else (C55); reading a range agrees with reading everything.
-/
namespace Hec
set_option linter.unusedSimpArgs false
set_option linter.unusedVariables false
set_option synthInstance.maxSize 1000
set_option synthInstance.maxHeartbeats 200000
open _root_.Spec (Op Store Step Steps run runs Set Allowed AllAllowed Plain Reachable GoodSizes create join SixParts stored oddHeaders
  compatible Points IsInt MayStore Later headerString HeaderKept headerOdd asType areDoubles wideFor zeroValues kept cut part Asked flat HasSize Leads
  Paired Whole PdArrays MayReplace field readBack wideOut InPart Replaced ReplacedData valuesGiven askAll Reached PutsPart)
open Hec.Spec (sameUpToCase)

/-- What a whole read gives of a record. -/
def pdAll (k : Conv) (ca : Bytes) (R : Rec) : Option (Got (Option PdOut)) :=
  if toInt32 R.dataType.toNat < 200 ∨ toInt32 R.dataType.toNat ≥ 300 then some .wrongType
  else match R.ih with
    | w0 :: w1 :: w2 :: w3 :: w4 :: _ =>
      let prec := toInt32 w4.toNat
      (zpdHeadToUnits (List.replicate 5 ⟨none, false⟩) (intsToBytes R.ih) R.ih.length ca).bind fun strings =>
        let x := if prec < 0 then -1 else prec.tdiv 10
        let y := if prec < 0 then -1 else prec - prec.tdiv 10 * 10
        let labels := pdReadLabels R.h2 (toInt32 w3.toNat) 0 (toInt32 w1.toNat).toNat
        if R.dataType = 200 then
          some (.got (some ⟨R.dataType, toInt32 w0.toNat, toInt32 w1.toNat, toInt32 w2.toNat, x, y, strings, labels, R.uh, toInt32 w0.toNat, toInt32 w1.toNat,
            pdRead k false (decide (R.dataType ≠ 200)) R.v1 R.v2⟩))
        else if R.dataType = 205 then
          some (.got (some ⟨R.dataType, toInt32 w0.toNat, toInt32 w1.toNat, toInt32 w2.toNat, x, y, strings, labels, R.uh, toInt32 w0.toNat, toInt32 w1.toNat,
            pdRead k true (decide (R.dataType ≠ 200)) R.v1 R.v2⟩))
        else some .wrongType
    | _ => some .wrongType

theorem all_of {c : Cfg} {s : Eng} {p q : Bytes} (hq : mallocAndCopyPath q = p) {R : Rec} (hR : zread c s p = some (some R)) (k : Conv) (ca : Bytes) :
    zpdRetrieve c s k ca (askAll q) = pdAll k ca R := by
  unfold zpdRetrieve pdAll
  have hi : ∃ chk info, zreadInfo c s p REC_STATUS_VALID = some (chk, some info) ∧ R = readArrays s.disk info := by
    unfold zread at hR
    cases h : zreadInfo c s p REC_STATUS_VALID with
    | none => rw [h] at hR; cases hR
    | some x =>
      obtain ⟨chk, o⟩ := x
      cases o with
      | none => rw [h] at hR; cases hR
      | some info =>
        rw [h] at hR
        simp only [Option.map_some, Option.some.injEq] at hR
        exact ⟨chk, info, rfl, hR.symm⟩
  obtain ⟨chk, info, h1, rfl⟩ := hi
  show ((zreadInfo c s (mallocAndCopyPath q) REC_STATUS_VALID).bind _) = _
  rw [hq, h1, Option.bind_some]
  simp only []
  split
  · rfl
  · rfl

/-- A whole read that succeeds: the header, the type, the data. -/
theorem all_got {k : Conv} {ca : Bytes} {R : Rec} {out : PdOut} (h : pdAll k ca R = some (.got (some out))) :
    ∃ w, (R.dataType = if w then 205 else 200) ∧ (∃ w0 w1 w2 w3 w4 rest, R.ih = w0 :: w1 :: w2 :: w3 :: w4 :: rest ∧ toInt32 w0.toNat = out.nOrd ∧ toInt32 w1.toNat = out.nCurves) ∧
      out.data = pdRead k w w R.v1 R.v2 ∧ areDoubles out.data = w ∧
      ∀ x, pdAll k ca { R with v2 := x } = some (.got (some { out with data := pdRead k w w R.v1 x })) := by
  unfold pdAll at h
  split at h
  · cases h
  · next hr =>
    split at h
    · next w0 w1 w2 w3 w4 rest hih =>
      simp only [] at h
      cases hs : zpdHeadToUnits (List.replicate 5 ⟨none, false⟩) (intsToBytes R.ih) R.ih.length ca with
      | none => rw [hs] at h; cases h
      | some strings =>
        rw [hs, Option.bind_some] at h
        split at h
        · next hd =>
          rw [hd] at h
          injection h with h; injection h with h; injection h with h; subst h
          refine ⟨false, hd, ⟨w0, w1, w2, w3, w4, rest, hih, rfl, rfl⟩, rfl, rfl, fun x => ?_⟩
          unfold pdAll
          simp only []
          rw [if_neg hr, hih]
          simp only []
          rw [← hih, hs, Option.bind_some, hd, if_pos rfl]
          rfl
        · next hd =>
          split at h
          · next hd2 =>
            rw [hd2] at h
            injection h with h; injection h with h; injection h with h; subst h
            refine ⟨true, hd2, ⟨w0, w1, w2, w3, w4, rest, hih, rfl, rfl⟩, rfl, rfl, fun x => ?_⟩
            unfold pdAll
            simp only []
            rw [if_neg hr, hih]
            simp only []
            rw [← hih, hs, Option.bind_some, hd2, if_neg (by decide), if_pos rfl]
            rfl
          · cases h
    · cases h

theorem inPart_not {p : PdIn} (h : InPart p) : storeEntire p = false := by
  unfold storeEntire
  rcases h with h | h | ⟨h1, h2⟩ | ⟨h1, h2⟩ | ⟨h1, h2, h3 | h3⟩
  · simp [h]
  · simp [h]
  · simp [h1, h2]
  · simp [h1, h2]
  · simp [h1, h2, h3]
  · simp [h1, h2, h3]

theorem asType_floats (k : Conv) (d : PdData) : ∃ o, asType k false d = .floats o (pdFloats k d) := by cases d <;> exact ⟨_, rfl⟩
theorem asType_doubles' (k : Conv) (d : PdData) : ∃ o, asType k true d = .doubles o (pdDoubles k d) := by cases d <;> exact ⟨_, rfl⟩

theorem valuesGiven_floats (k : Conv) (d : PdData) : (pdFloats k d).length = valuesGiven d := by cases d <;> simp [pdFloats, valuesGiven]
theorem valuesGiven_doubles (k : Conv) (d : PdData) : (pdDoubles k d).length = valuesGiven d := by cases d <;> simp [pdDoubles, valuesGiven]

/-- Storing a part. -/
theorem part_ok {c : Cfg} (hc : c.OK) {G : Ghost} {s : Eng} {past : List Op} (H : HInv c G s past) (e : PdEnv) (w : WriteEnv) (flag : Int) {ca : Bytes}
    {p : PdIn} {d : PdData} {ps : List Bytes} {n m a rows b curves : Nat} {out : PdOut} (hp : PutsPart c s e.conv ca p d ps n m a rows b curves out) :
    ∃ s' R R' D', zpdStore c s e w flag p = some (s', .ok) ∧ HInv c G s' past ∧ zread c s (join ps) = some (some R) ∧ zread c s' (join ps) = some (some R') ∧
      (∀ q, q.length ≤ 392 → ¬ sameUpToCase (join ps) q → zread c s' q = zread c s q) ∧ R' = { R with v2 := R'.v2 } ∧
      ReplacedData n a rows b curves (asType e.conv (areDoubles out.data) d) out.data D' ∧
      pdAll e.conv ca R' = some (.got (some { out with data := D' })) := by
  obtain ⟨⟨hps, hlen, j, hpath⟩, hth, ⟨hsz, hnO, hnC⟩, ⟨hin, hA, hB⟩, ⟨hdat, hgiv⟩, hlab⟩ := hp
  have hmal : mallocAndCopyPath p.path = join ps := by rw [hpath]; exact C50_trailing_blanks ps hps j
  have hmal' : mallocAndCopyPath (join ps) = join ps := by simpa using C50_trailing_blanks ps hps 0
  have I := H.inv
  have hz := zread_abs hc I hlen
  cases hR : (abs c G s.disk).live (join ps) with
  | none =>
    rw [hR] at hz
    have := (C54_other_type c s hps 0 e.conv ca (a := askAll (join ps)) (by simp [askAll])).2 hz
    rw [this] at hth
    cases hth
  | some R =>
  rw [hR] at hz
  obtain ⟨A, B, x, T, hm, hl, hA', hB'⟩ := live_entry hc I hlen hR
  have hh := hc.tHash_lt _ hlen
  obtain ⟨C1, bb, pre, post, C2, hC, hAeq, hBeq⟩ := split_centries T.ents
  have hlen' : (G.chain (c.tHash (join ps))).length ≤ s.hdr.totalBins + 1 := by have := I.h.len _ hh; omega
  have hRk := T.rcd.ok
  obtain ⟨ws, hri⟩ := zreadInfo_some hc (hx := c.tHash (join ps)) (ax := 0) I.w.idle hh hC hlen' (wanted := REC_STATUS_VALID) (by
    rw [← hAeq]; intro y hy hmx; exact EMatch.not_gone (Or.inl hmx) (hA' y hy hmx.1)) hm hRk.hash
  have hRe : readArrays s.disk (fun i => s.disk (x.infoAdd + i)) = R := T.rcd.eq
  rw [all_of hmal' hz] at hth
  obtain ⟨wd, ht, ⟨w0, w1, w2, w3, w4, rest, hih, hw0, hw1⟩, hdata, hdbl, hall⟩ := all_got hth
  obtain ⟨e1, f1⟩ := clampRange_ok hA
  obtain ⟨e2, f2⟩ := clampRange_ok hB
  have hv2 : R.v2 = getInts s.disk (s.disk (x.infoAdd + kinfoValues2Address)) (s.disk (x.infoAdd + kinfoValues2Number)) := by rw [← hRe]; rfl
  have hN : (if wd then 2 * (m * n) else m * n) ≤ s.disk (x.infoAdd + kinfoValues2Number) := by
    rw [hdata] at hsz
    have hl2 := getInts_length s.disk (s.disk (x.infoAdd + kinfoValues2Address)) (s.disk (x.infoAdd + kinfoValues2Number))
    rw [← hv2] at hl2
    cases wd with
    | false =>
      have : R.v2.length = m * n := hsz.2
      simp only [Bool.false_eq_true, if_false]; omega
    | true =>
      have : (intsDoubles R.v2).length = m * n := hsz.2
      rw [intsDoubles_length] at this
      simp only [if_true]; omega
  obtain ⟨k1, k2, k3, k4⟩ := putCurves_ok (b := b) s e.conv (s.disk (x.infoAdd + kinfoValues2Address)) (s.disk (x.infoAdd + kinfoValues2Number)) wd d f1 hN curves f2 hgiv
  generalize hs' : pdPutCurves s e.conv (s.disk (x.infoAdd + kinfoValues2Address)) wd n a rows b curves d = s' at k1 k2 k3 k4
  have r1 := hRk.ih; have r2 := hRk.h2; have r3 := hRk.uh; have r4 := hRk.v1; have r5 := hRk.v2; have r6 := hRk.v3; have r7 := hRk.fits
  obtain ⟨H', hset⟩ := edit_ok hc H hlen (s' := s') T hl hA' (fun y hy hno => k2 y (by omega)) (by rw [k1]; exact I.h) (by rw [k1])
  have hR' : (readArrays s'.disk fun i => s.disk (x.infoAdd + i)) = { R with v2 := getInts s'.disk (s.disk (x.infoAdd + kinfoValues2Address)) (s.disk (x.infoAdd + kinfoValues2Number)) } := by
    rw [← hRe]
    unfold readArrays
    simp only []
    have hg : ∀ ad nn, ad + nLongs nn ≤ s.disk (x.infoAdd + kinfoValues2Address) ∨
        s.disk (x.infoAdd + kinfoValues2Address) + nLongs (s.disk (x.infoAdd + kinfoValues2Number)) ≤ ad → getInts s'.disk ad nn = getInts s.disk ad nn := by
      intro ad nn h
      exact getInts_congr fun i hi => k2 _ (by omega)
    rw [hg _ _ (Or.inl (by omega)), hg _ (s.disk (x.infoAdd + kinfoHeader2Number)) (Or.inl (by omega)), hg _ (s.disk (x.infoAdd + kinfoUserHeadNumber)) (Or.inl (by omega)),
      hg _ (s.disk (x.infoAdd + kinfoValues1Number)) (Or.inl (by omega)), hg _ (s.disk (x.infoAdd + kinfoValues3Number)) (Or.inr (by omega))]
  rw [hR'] at hset
  generalize hx : getInts s'.disk (s.disk (x.infoAdd + kinfoValues2Address)) (s.disk (x.infoAdd + kinfoValues2Number)) = xs at hset k3 k4
  refine ⟨s', R, { R with v2 := xs }, pdRead e.conv wd wd R.v1 xs, ?_, H', hz, ?_, fun q hq hne => ?_, rfl, ?_, hall xs⟩
  · unfold zpdStore
    rw [inPart_not hin]
    simp only [Bool.false_eq_true, if_false]
    unfold zpdStorePart
    rw [hmal, hri, Option.bind_some]
    simp only []
    rw [hRe, ht, if_neg (by cases wd <;> decide), hih]
    simp only [hw0, hw1, hnO, hnC, e1, e2, hdat]
    have hw : (decide ((if wd then (205 : UInt32) else 200) = 205)) = wd := by cases wd <;> rfl
    rw [hw]
    simp only [Int.toNat_natCast]
    rw [hs']
    unfold pdPutLabels
    rw [if_neg (by omega)]
    rfl
  · rw [zread_abs hc H'.inv hlen, (hset (join ps)).1 (same_iff.mpr (Same.refl _))]
  · rw [zread_abs hc H'.inv hq, zread_abs hc I hq, (hset q).2 hne]
  · rw [hdbl, hdata]
    rw [hdata] at hsz
    rw [← hv2] at k3 k4
    cases wd with
    | false =>
      obtain ⟨o, ho⟩ := asType_floats e.conv d
      rw [ho, k3 rfl]
      exact ⟨rfl, spliceAll_ok f1 hsz.2 curves f2 (by rw [valuesGiven_floats]; exact hgiv)⟩
    | true =>
      obtain ⟨o, ho⟩ := asType_doubles' e.conv d
      rw [ho]
      refine ⟨rfl, ?_⟩
      rw [k4 rfl]
      exact spliceAll_ok f1 hsz.2 curves f2 (by rw [valuesGiven_doubles]; exact hgiv)

theorem ints_of_doubles : ∀ xs : List UInt32, (intsDoubles xs).flatMap doubleInts = xs.take (2 * (xs.length / 2))
  | [] => by simp [intsDoubles]
  | [_] => by simp [intsDoubles]
  | a :: b :: xs => by
    have h : doubleInts (UInt64.ofNat (packInts a b)) = [a, b] := by
      have h1 := a.toNat_lt
      have h2 := b.toNat_lt
      have : (UInt64.ofNat (packInts a b)).toNat = packInts a b := by
        rw [UInt64.toNat_ofNat']
        simp only [packInts, show (2:Nat) ^ 32 = 4294967296 from rfl] at *
        omega
      simp only [doubleInts]
      rw [this, lowInt_pack, highInt_pack]
    simp only [intsDoubles, List.flatMap_cons, h, ints_of_doubles xs, List.length_cons]
    rw [show 2 * ((xs.length + 1 + 1) / 2) = 2 * (xs.length / 2) + 1 + 1 by omega]
    rfl

theorem words_back (d : Disk) (k : Conv) (w : Bool) (a1 n1 a2 n2 : Nat) :
    ∃ m1 m2, getInts d a1 m1 = (pdWords (pdRead k w w (getInts d a1 n1) (getInts d a2 n2))).1 ∧ getInts d a2 m2 = (pdWords (pdRead k w w (getInts d a1 n1) (getInts d a2 n2))).2 := by
  cases w with
  | false => exact ⟨n1, n2, rfl, rfl⟩
  | true =>
    have h : ∀ a n, getInts d a (2 * (n / 2)) = (intsDoubles (getInts d a n)).flatMap doubleInts := by
      intro a n
      rw [ints_of_doubles, getInts_length]
      have := getInts_part d a n 0 (2 * (n / 2)) (by omega)
      simpa using this
    exact ⟨_, _, h a1 n1, h a2 n2⟩

section
variable {hdrSize maxHash binSize : Nat} {mul : Nat → Nat}

theorem reached (g : GoodSizes hdrSize maxHash binSize) {past : List Op} {s : Eng}
    (R : Reached (create hdrSize maxHash binSize mul).1 (create hdrSize maxHash binSize mul).2 past s) :
    ∃ G, HInv (create hdrSize maxHash binSize mul).1 G s past := by
  have hc := create_OK (mul := mul) g
  induction R with
  | calls h => exact reach g h
  | @part past s s' e w flag ca p d ps n m a rows b curves out _ hp hs ih =>
    obtain ⟨G, H⟩ := ih
    obtain ⟨s1, _, _, _, h1, H1, _⟩ := part_ok hc H e w flag hp
    rw [h1] at hs
    injection hs with hs; injection hs with hs _; subst hs
    exact ⟨G, H1⟩
  | @more past ops s s' _ hl ih =>
    obtain ⟨G, H⟩ := ih
    obtain ⟨hall, ress, hr⟩ := hl
    obtain ⟨G2, s2, ress2, k1, k2, H2⟩ := HInv.runs hc ops H hall
    have : some (s2, ress2) = some (s', ress) := k1.symm.trans hr
    injection this with this
    injection this with this _
    subst this
    exact ⟨G2, H2⟩

/-- C55.  In a file reached by any calls, storing values for a range of ordinates and curves of paired data in it, without
labels, replaces exactly these values: whatever is called next about other records, a whole read gives what it gave
before, with the new values in the range.  No other record changes.  Missing: storing labels with the values (see the
violations below). -/
theorem C55_part_partial (g : GoodSizes hdrSize maxHash binSize) {past : List Op} {s : Eng}
    (hs : Reached (create hdrSize maxHash binSize mul).1 (create hdrSize maxHash binSize mul).2 past s) (e : PdEnv) (w : WriteEnv) (flag : Int) {ca : Bytes}
    {p : PdIn} {d : PdData} {ps : List Bytes} {n m a rows b curves : Nat} {out : PdOut}
    (hp : PutsPart (create hdrSize maxHash binSize mul).1 s e.conv ca p d ps n m a rows b curves out) :
    ∃ s' D', zpdStore (create hdrSize maxHash binSize mul).1 s e w flag p = some (s', .ok) ∧
      Reached (create hdrSize maxHash binSize mul).1 (create hdrSize maxHash binSize mul).2 past s' ∧
      ReplacedData n a rows b curves (asType e.conv (areDoubles out.data) d) out.data D' ∧
      (∀ q, q.length ≤ 392 → ¬ sameUpToCase (join ps) q →
        zread (create hdrSize maxHash binSize mul).1 s' q = zread (create hdrSize maxHash binSize mul).1 s q) ∧
      ∀ ops s'', Later (create hdrSize maxHash binSize mul).1 past s' (join ps) ops s'' →
        ∀ qs j, SixParts qs → sameUpToCase (join ps) (join qs) →
          zpdRetrieve (create hdrSize maxHash binSize mul).1 s'' e.conv ca (askAll (join qs ++ List.replicate j 32)) =
            some (.got (some { out with data := D' })) := by
  obtain ⟨G, H⟩ := reached g hs
  have hc := create_OK (mul := mul) g
  obtain ⟨s', R, R', D', h1, H1, h2, h3, h4, h5, h6, h7⟩ := part_ok hc H e w flag hp
  refine ⟨s', D', h1, .part hs hp h1, h6, h4, fun ops s'' hl qs j hqs hq => ?_⟩
  rw [all_of (C50_trailing_blanks qs hqs j) (R := R') (by rw [H1.kept hc hp.name.2.1 hl hq, h3]), h7]

/-- C55.  Storing a part where there are no paired data changes nothing. -/
theorem C55_nothing_there (c : Cfg) (s : Eng) (e : PdEnv) (w : WriteEnv) (flag : Int) {p : PdIn} {ps : List Bytes} {j : Nat} (hps : SixParts ps)
    (hpath : p.path = join ps ++ List.replicate j 32) (hin : InPart p)
    (h : zread c s (join ps) = some none ∨ ∃ R, zread c s (join ps) = some (some R) ∧ R.dataType ≠ 200 ∧ R.dataType ≠ 205) :
    zpdStore c s e w flag p = some (s, .wrongType) := by
  unfold zpdStore
  rw [inPart_not hin]
  simp only [Bool.false_eq_true, if_false]
  unfold zpdStorePart zread at *
  rw [hpath, C50_trailing_blanks ps hps j]
  cases hz : zreadInfo c s (join ps) REC_STATUS_VALID with
  | none => rw [hz] at h; rcases h with h | ⟨R, h, _⟩ <;> cases h
  | some q =>
    rw [hz] at h
    obtain ⟨chk, o⟩ := q
    cases o with
    | none => rfl
    | some info =>
      rcases h with h | ⟨R, h, h1, h2⟩
      · cases h
      · simp only [Option.map_some, Option.some.injEq] at h
        rw [Option.bind_some]
        simp only [h]
        rw [if_pos ⟨h1, h2⟩]

/-- C55.  Reading a range of ordinates and curves, as floats or as doubles, gives this range of what reading everything
gives. -/
theorem C55_ranges (c : Cfg) (s : Eng) (k : Conv) (ca : Bytes) {qs : List Bytes} (hq : SixParts qs) (j : Nat) {out : PdOut}
    (hall : zpdRetrieve c s k ca (askAll (join qs)) = some (.got (some out))) {n m : Nat} (hsz : HasSize n m out.data) (hn : out.nOrd = n)
    (hm : out.nCurves = m) {a : PdAsk} (ha : a.path = join qs ++ List.replicate j 32) (hz : a.size = 0 ∨ a.size = 1 ∨ a.size = 2) {r0 rows c0 curves : Nat}
    (hpart : 1 < a.startCurve ∨ 1 < a.startOrd ∨ a.endOrd ≠ 0 ∨ a.endCurve ≠ 0)
    (hA : Asked a.startOrd a.endOrd n r0 rows) (hB : Asked a.startCurve a.endCurve m c0 curves) :
    ∃ labels, zpdRetrieve c s k ca a = some (.got (some { out with labels := labels, uh := [], ordsIn := rows, curvesIn := curves, data := asType k (wideOut a.size out.data) (part n r0 rows c0 curves out.data) })) := by
  have hmal' : mallocAndCopyPath (join qs) = join qs := by simpa using C50_trailing_blanks qs hq 0
  cases hi : zreadInfo c s (join qs) REC_STATUS_VALID with
  | none =>
    unfold zpdRetrieve at hall
    have : zreadInfo c s (mallocAndCopyPath (askAll (join qs)).path) REC_STATUS_VALID = none := by
      show zreadInfo c s (mallocAndCopyPath (join qs)) _ = _
      rw [hmal', hi]
    rw [this] at hall; cases hall
  | some q =>
  obtain ⟨chk, o⟩ := q
  cases o with
  | none =>
    unfold zpdRetrieve at hall
    have : zreadInfo c s (mallocAndCopyPath (askAll (join qs)).path) REC_STATUS_VALID = some (chk, none) := by
      show zreadInfo c s (mallocAndCopyPath (join qs)) _ = _
      rw [hmal', hi]
    rw [this] at hall; cases hall
  | some info =>
  have hzr : zread c s (join qs) = some (some (readArrays s.disk info)) := by unfold zread; rw [hi]; rfl
  rw [all_of hmal' hzr] at hall
  obtain ⟨e1, f1⟩ := clampRange_ok hA
  obtain ⟨e2, f2⟩ := clampRange_ok hB
  obtain ⟨wd, ht, ⟨w0, w1, w2, w3, w4, rest, hih, hw0, hw1⟩, hdata, hdbl, _⟩ := all_got hall
  have hre : readEntire a = false := by
    unfold readEntire
    rcases hpart with h | h | h | h <;> simp [h]
  have hrow : 1 ≤ rows := hA.2.1
  have hout : (if a.size = 0 then some (decide ((if wd then (205 : UInt32) else 200) ≠ 200)) else if a.size = 1 then some false else if a.size = 2 then some true else none) =
      some (wideOut a.size out.data) := by
    unfold wideOut
    rw [hdbl]
    rcases hz with h | h | h <;> rw [h]
    · cases wd <;> rfl
    · rfl
    · rfl
  have hw : (decide ((if wd then (205 : UInt32) else 200) = 205)) = wd := by cases wd <;> rfl
  have hidx : ∀ i : Nat, ((r0 : Int) + ((c0 : Int) + (i : Int)) * (n : Int)).toNat = (c0 + i) * n + r0 := by
    intro i
    rw [← Int.natCast_add, ← Int.natCast_mul, ← Int.natCast_add, Int.toNat_natCast, Nat.add_comm]
  have hv1 : (readArrays s.disk info).v1 = getInts s.disk (info kinfoValues1Address) (info kinfoValues1Number) := rfl
  have hv2 : (readArrays s.disk info).v2 = getInts s.disk (info kinfoValues2Address) (info kinfoValues2Number) := rfl
  obtain ⟨m1, m2, g1, g2⟩ := words_back s.disk k wd (info kinfoValues1Address) (info kinfoValues1Number) (info kinfoValues2Address) (info kinfoValues2Number)
  rw [← hv1, ← hv2, ← hdata] at g1 g2
  have hg := pdGet_part hsz g1 g2 f1 f2
  rw [hdbl] at hg
  have hga := congrArg Prod.fst hg
  have hgb := congrArg Prod.snd hg
  simp only [] at hga hgb
  have hfin := pdRead_words k (wideOut a.size out.data) (part n r0 rows c0 curves out.data)
  rw [part_doubles, hdbl] at hfin
  unfold zpdRetrieve
  rw [ha, C50_trailing_blanks qs hq j, hi, Option.bind_some]
  simp only []
  -- what the whole read says about the header
  unfold pdAll at hall
  rw [ht, if_neg (type_range _), hih] at hall
  rw [ht, if_neg (type_range _), hih]
  simp only [] at hall ⊢
  rw [hout, Option.bind_some]
  cases hs : zpdHeadToUnits (List.replicate 5 ⟨none, false⟩) (intsToBytes (w0 :: w1 :: w2 :: w3 :: w4 :: rest)) (w0 :: w1 :: w2 :: w3 :: w4 :: rest).length ca with
  | none => rw [hs] at hall; cases hall
  | some strings =>
    rw [hs, Option.bind_some] at hall
    rw [Option.bind_some, if_neg (by rw [hre]; decide)]
    simp only [hw0, hw1, hn, hm, e1, e2] at hall ⊢
    rw [if_neg (by omega), hw]
    simp only [Int.toNat_natCast, hidx]
    rw [hga, hgb, hfin]
    cases wd with
    | false =>
      simp only [Bool.false_eq_true, if_false, if_true] at hall ⊢
      injection hall with hall; injection hall with hall; injection hall with hall
      rw [← hall]
      exact ⟨_, rfl⟩
    | true =>
      simp only [if_true] at hall ⊢
      rw [if_neg (by decide)] at hall
      injection hall with hall; injection hall with hall; injection hall with hall
      rw [← hall]
      exact ⟨_, rfl⟩

end

/-! ### Cases -/

/-- The second to third value of the second curve of `curves`. -/
def patch : PdIn := { curves with data := some (.doubles [] [22, 32]), labels := none, labelsLength := 0, startCurve := 2, endCurve := 2, startOrd := 2, endOrd := 3 }

/-- The conditions of C55_part_partial are met: `curves` is stored in a new file as floats, then the part; a whole read gives
both together. -/
example : ∃ s s', zpdStore tiny.1 tiny.2 aPdEnv anEnv 0 curves = some (s, .ok) ∧ zpdStore tiny.1 s aPdEnv anEnv 0 patch = some (s', .ok) ∧
    zpdRetrieve tiny.1 s' someConv (List.replicate 400 1) (askAll na) =
      some (.got (some (readBack curves 0 (.floats [1, 2, 3] [10, 20, 30, 11, 21, 31]) [72, 73, 0, 76, 79, 0] [1, 2] 3 2 (.floats [1, 2, 3] [10, 20, 30, 11, 22, 32])))) := by
  have hp : SixParts [[65], [], [], [], [], []] := ⟨rfl, by simp [_root_.Spec.IsPart]⟩
  have hq : SixParts [[97], [], [], [], [], []] := ⟨rfl, by simp [_root_.Spec.IsPart]⟩
  have hz : zread tiny.1 tiny.2 (join [[65], [], [], [], [], []]) = some none := by decide +kernel
  obtain ⟨s, more, h1, hreach, _, h3⟩ := C54_whole_partial (mul := id) tiny_good (past := []) (s := tiny.2) ⟨trivial, [], rfl⟩ (e := aPdEnv)
    ⟨List.length_replicate, List.length_replicate, List.length_replicate⟩ anEnv 0 (p := curves) (d := .floats [1, 2, 3] [10, 20, 30, 11, 21, 31]) (n := 3) (m := 2) (ls := [[72, 73], [76, 79]])
    ⟨rfl, ⟨rfl, rfl⟩, ⟨rfl, by decide, by decide⟩, ⟨rfl, by decide, by decide⟩, ⟨by decide, by decide⟩, Or.inr (by decide),
      ⟨rfl, by simp [curves, _root_.Spec.NoZero], by decide⟩, Or.inr ⟨by decide, by decide, [], rfl, rfl⟩, by decide⟩
    (Or.inl ⟨rfl, rfl, rfl, rfl⟩) (k := 0) hp rfl
    ⟨by decide, (fun R h => by rw [show (create 12 2 58 id) = tiny from rfl, hz] at h; cases h),
      (fun R h => by rw [show (create 12 2 58 id) = tiny from rfl, hz] at h; cases h), fun _ d hd => by simp at hd⟩
  obtain ⟨uh, hu, h4⟩ := h3 [] s ⟨trivial, ⟨[], rfl⟩, by simp⟩ _ 0 hp (by rw [same_iff]; decide)
  obtain ⟨h5, _⟩ := h4 (List.replicate 400 1) (askAll (join [[65], [], [], [], [], []])) List.length_replicate rfl (by decide)
  have h5 := h5 rfl rfl rfl rfl
  have hr : Reached tiny.1 tiny.2 ([] ++ more) s := .calls hreach
  obtain ⟨s', D', k1, _, k2, _, k3⟩ := C55_part_partial (mul := id) tiny_good hr aPdEnv anEnv 0 (p := patch) (d := .doubles [] [22, 32]) (ps := [[65], [], [], [], [], []])
    (n := 3) (m := 2) (a := 1) (rows := 2) (b := 1) (curves := 1) ⟨⟨hp, by decide, 0, rfl⟩, h5, ⟨⟨rfl, rfl⟩, rfl, rfl⟩,
      ⟨by unfold InPart; decide, ⟨by decide, by decide, by decide⟩, ⟨by decide, by decide, by decide⟩⟩, ⟨rfl, by decide⟩, by decide⟩
  refine ⟨s, s', h1, k1, ?_⟩
  have k4 := k3 [] s' ⟨trivial, ⟨[], rfl⟩, by simp⟩ _ 0 hq (by rw [same_iff]; decide)
  have hu2 : uh = [1, 2] := hu
  subst hu2
  cases D' with
  | doubles o v => exact k2.elim
  | floats o v =>
    obtain ⟨rfl, hl, hv⟩ := k2
    have e0 := hv 0 0 (by decide); have e1 := hv 0 1 (by decide); have e2 := hv 0 2 (by decide)
    have e3 := hv 1 0 (by decide); have e4 := hv 1 1 (by decide); have e5 := hv 1 2 (by decide)
    match v, hl with
    | [x0, x1, x2, x3, x4, x5], _ =>
      simp at e0 e1 e2 e3 e4 e5
      subst e0 e1 e2 e3 e4 e5
      exact k4


/-- Reading a range after storing another one, evaluated; also with doubles in the record. -/
example : ((zpdStore tiny.1 tiny.2 aPdEnv anEnv 2 curves).bind fun q => (zpdStore tiny.1 q.1 aPdEnv anEnv 0 patch).bind fun r =>
    (zpdRetrieve tiny.1 r.1 someConv (List.replicate 400 1) ⟨nA, 1, 2, 1, 2, 1⟩).map fun x =>
      match x with | .got (some o) => (r.2, o.labels, o.data) | _ => (r.2, [], .floats [] [])) =
    some (.ok, [72, 73, 0, 76, 79, 0], .floats [1, 2] [10, 20, 11, 22]) := by decide +kernel

/-- Nothing is there: evaluated. -/
example : ((zpdStore tiny.1 tiny.2 aPdEnv anEnv 0 patch).map fun q => (q.2, (zread tiny.1 q.1 nA).map fun x => x.isSome)) = some (.wrongType, some false) := by
  decide +kernel

/-- C55: the version and the time of the last write of the record stay although its values change. -/
theorem C55_unnoticed_violation :
    ((zpdStore tiny.1 tiny.2 aPdEnv anEnv 0 curves).bind fun q => (zpdStore tiny.1 q.1 aPdEnv { anEnv with now := anEnv.now + 1000 } 0 patch).bind fun r =>
      (zreadInfo tiny.1 q.1 nA REC_STATUS_VALID).bind fun x => (zreadInfo tiny.1 r.1 nA REC_STATUS_VALID).map fun y =>
        (r.2, decide ((x.2.map fun i => (i kinfoTypeVersion, i kinfoLastWriteTime)) = y.2.map fun i => (i kinfoTypeVersion, i kinfoLastWriteTime)),
          decide (zread tiny.1 r.1 nA = zread tiny.1 q.1 nA))) = some (.ok, true, false) := by
  decide +kernel

/-- C55 fails: of the labels of two curves that are stored with them only the first one is kept; the second curve has an
empty label. -/
theorem C55_labels_violation :
    ((zpdStore tiny.1 tiny.2 aPdEnv anEnv 0 curves).bind fun q =>
      (zpdStore tiny.1 q.1 aPdEnv anEnv 0 { patch with data := some (.floats [] [1, 2]), labels := some [65, 0, 66, 0], labelsLength := 4, startCurve := 1, endCurve := 2, startOrd := 1, endOrd := 1 }).bind fun r =>
        (zpdRetrieve tiny.1 r.1 someConv (List.replicate 400 1) (askAll nA)).map fun x => match x with | .got (some o) => (r.2, o.labels) | _ => (r.2, [])) =
      some (.ok, [65, 0, 0]) := by decide +kernel

/-- C55 fails: with a label that is longer than the one before, the last label is cut. -/
theorem C55_cut_violation :
    ((zpdStore tiny.1 tiny.2 aPdEnv anEnv 0 curves).bind fun q =>
      (zpdStore tiny.1 q.1 aPdEnv anEnv 0 { patch with labels := some [65, 65, 65, 65, 0], labelsLength := 5, startCurve := 1, endCurve := 1, startOrd := 1, endOrd := 2 }).bind fun r =>
        (zpdRetrieve tiny.1 r.1 someConv (List.replicate 400 1) (askAll nA)).map fun x => match x with | .got (some o) => (r.2, o.labels) | _ => (r.2, [])) =
      some (.ok, [65, 65, 65, 65, 0, 76, 0]) := by decide +kernel

end Hec
