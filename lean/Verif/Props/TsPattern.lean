import Verif.Proofs.TsPattern
import Verif.Props.Records
/-!
Time patterns are read back as they were stored, whatever dates are asked for (C95).
-/
namespace Hec
set_option linter.unusedSimpArgs false
set_option linter.unusedVariables false
open _root_.Spec (Op Reachable GoodSizes create SixParts IsPart Printable join Holds TsMemOk TsArrays PatternName PatternFor AnyTime TsRoom stored oddHeaders IsInt MayStore Later Ascii DescOk
  readHead shown shownOpt setField cells apiDesc itsApiDesc written instant Normal)
open Hec.Spec (sameUpToCase)

variable {hdrSize maxHash binSize : Nat} {mul : Nat → Nat}

/-- What is written for a pattern, and what is read of it later. -/
theorem pattern_stored (gs : GoodSizes hdrSize maxHash binSize) {past : List Op} {s : Eng}
    (hs : Reachable (create hdrSize maxHash binSize mul).1 (create hdrSize maxHash binSize mul).2 past s) {e : TsEnv} (hca : e.carray.length = 300) {d : TsDesc} (hd : DescOk d)
    {ps : List Bytes} (hn : PatternName ps) (type : UInt32) (values : List UInt32) (n : Nat) (hw : MayStore (create hdrSize maxHash binSize mul).1 past s (join ps) 0)
    (hty : ∀ R, zread (create hdrSize maxHash binSize mul).1 s (join ps) = some (some R) → R.dataType = type) :
    ∃ s', ztsStorePattern (create hdrSize maxHash binSize mul).1 e d (join ps) type values n s = some (s', .ok) ∧
      (∀ q, q.length ≤ 392 → ¬ sameUpToCase (join ps) q → zread (create hdrSize maxHash binSize mul).1 s' q = zread (create hdrSize maxHash binSize mul).1 s q) ∧
      ∀ ops s'', Later (create hdrSize maxHash binSize mul).1 past s' (join ps) ops s'' → ∀ q, sameUpToCase (join ps) q →
        ∃ R, zread (create hdrSize maxHash binSize mul).1 s'' q = some (some R) ∧ R.dataType = type ∧ R.v1 = values ∧ R.numberValues = n ∧ 18 ≤ R.ih.length ∧
          ∀ ca : Bytes, ca.length = 200 → ∀ T : TsHead, ztsInternalHeaderUnpack T (intsToBytes R.ih) R.ih.length ca = some (readHead d T) := by
  obtain ⟨x, k1, k2, k3, k4, k5⟩ := head_pack hd hca (rest := List.replicate 732 0) List.length_replicate (xs := patternInts d) rfl rfl rfl rfl rfl
  generalize hr : plainReq e.w (join ps) type (bytesToInts (x.1.take (4 * x.2))) [] (lengthened []) values [] [] n = r
  have hrp : r.path = join ps := by rw [← hr]; exact malloc_join hn.six
  have hodd : oddHeaders r.ih r.h2 r.uh = 0 := by
    rw [← hr]
    show (bytesToInts (x.1.take (4 * x.2))).length % 2 + 0 + (lengthened []).length % 2 = 0
    rw [k2]; rfl
  have hne : 0 < r.path.length := by
    rw [hrp]
    obtain ⟨pa, pb, pc, pd, pe, pf, rfl⟩ := six_list hn.six
    have : (join [pa, pb, pc, pd, pe, pf]).length = pa.length + pb.length + pc.length + pd.length + pe.length + pf.length + 7 := join_six ..
    omega
  obtain ⟨s', j1, j2, j3⟩ := stored_kept gs hs r (can_allowed hne (by rw [hrp, hodd]; exact hw)) (by
    rw [hrp]; intro R hR; rw [hty R hR, ← hr]; rfl)
  rw [hrp] at j2 j3
  refine ⟨s', ?_, j2, fun ops s'' hl q hq => ?_⟩
  · unfold ztsStorePattern
    rw [k1, Option.bind_some]
    unfold zwritePublic
    rw [← j1, ← hr]; rfl
  · obtain ⟨v, hv⟩ := j3 ops s'' hl q hq
    refine ⟨_, hv, by rw [← hr]; rfl, by rw [← hr]; rfl, by rw [← hr]; rfl, ?_, fun ca hc T => ?_⟩
    · show 18 ≤ r.ih.length
      rw [← hr]; exact k3.1
    · have := k5 [] ca hc T
      rw [List.append_nil, List.take_of_length_le k3.2, Nat.min_eq_left k3.2] at this
      show ztsInternalHeaderUnpack T (intsToBytes r.ih) r.ih.length ca = _
      rw [← hr]
      exact this

/-- What a caller gets of a pattern whose record is there. -/
theorem pattern_got {c : Cfg} {s : Eng} {ps : List Bytes} (hn : PatternName ps) {kind secs : Int} {path : Bytes} (hp : PatternFor ps kind secs path) {m : TsMem} (hm : TsMemOk m)
    {carray : Bytes} (hca : carray.length = 200) {startDate startTime endDate endTime : Bytes} (h1 : AnyTime startDate startTime) (h2 : AnyTime endDate endTime)
    {d : TsDesc} {units type zone : Bytes} (hu : Ascii units) (ht : Ascii type) (hz : Ascii zone)
    (hdu : d.strings.units = some (mallocAndCopy units)) (hdt : d.strings.type = some (mallocAndCopy type)) (hdz : d.strings.zone = some (mallocAndCopy zone))
    {R : Rec} (hR : zread c s (join ps) = some (some R)) (hty : R.dataType = 106 ∨ R.dataType = 116) (hlen : 18 ≤ R.ih.length)
    (hun : ∀ ca : Bytes, ca.length = 200 → ∀ T : TsHead, ztsInternalHeaderUnpack T (intsToBytes R.ih) R.ih.length ca = some (readHead d T))
    {times : Option (List Int)} {values : List (List UInt32)} (hv : patternValues R = some (times, values)) (hvl : values.length = R.numberValues)
    (htl : ∀ ts, times = some ts → ts.length = R.numberValues)
    {size qualityWidth unitsSize typeSize zoneSize : Int} (hq : qualityWidth ≤ 0) {b : TsBuffers} (hb : TsRoom b size unitsSize typeSize zoneSize) :
    hecTsRetrieveP c carray m path startDate startTime endDate endTime size qualityWidth unitsSize typeSize zoneSize b s =
      some (some (.ok, ⟨match times with | none => b.times | some ts => written b.times (ts.take size.toNat), written b.values (values.take size.toNat),
        min R.numberValues size, 0, if d.granularity > 0 then d.granularity else 0, shownOpt b.units unitsSize.toNat (shown (some units)),
        shownOpt b.type typeSize.toNat (shown (some type)), shownOpt b.zone zoneSize.toNat (shown (some zone))⟩)) := by
  obtain ⟨p1, _, p3, buf, p4, p5⟩ := patternPath_spec hn hp hm
  obtain ⟨t1, a1⟩ := any_time h1
  obtain ⟨t2, a2⟩ := any_time h2
  obtain ⟨z1, z2, z3⟩ := hb.size
  have hread : ztsRetrievePattern c carray (join ps) s = some (.got ⟨R.numberValues, times, values, readHead d ⟨0, -1, 0, ⟨none, false⟩, ⟨none, false⟩, ⟨none, false⟩, ⟨none, false⟩, ⟨none, false⟩⟩⟩) := by
    unfold ztsRetrievePattern
    rw [malloc_join hn.six, hR, Option.bind_some]
    simp only
    rw [if_neg (by rintro (h | h); · omega
                   · exact h hty), hun carray hca, Option.bind_some, hv]
    rfl
  have arr : ∀ {α : Type} (dst src : List α), src.length = R.numberValues → size ≤ dst.length →
      copyArray dst (max 0 (min (R.numberValues : Int) size)) src = some (written dst (src.take size.toNat)) := by
    intro α dst src h1 h2
    rw [show max 0 (min (R.numberValues : Int) size) = ((min R.numberValues size.toNat : Nat) : Int) by omega, copyArray_first dst src (by omega) (by omega)]
    congr 2
    rcases Nat.le_total R.numberValues size.toNat with h | h
    · rw [Nat.min_eq_left h, List.take_of_length_le (by omega), List.take_of_length_le (by omega)]
    · rw [Nat.min_eq_right h]
  unfold hecTsRetrieveP
  rw [a1, Option.bind_some, a2, Option.bind_some]
  simp only
  rw [p3, Option.bind_some, p1, p4, Option.bind_some]
  simp only
  rw [if_neg (by simp), p5, hread, Option.bind_some]
  simp only [readHead, hdu, hdt, hdz]
  rw [put_shown b.units hu hb.units.1 hb.units.2, Option.bind_some, put_shown b.type ht hb.type.1 hb.type.2, Option.bind_some, put_shown b.zone hz hb.zone.1 hb.zone.2, Option.bind_some,
    if_neg (by omega)]
  have hnum : max 0 (min (R.numberValues : Int) size) = min (R.numberValues : Int) size := by omega
  cases times with
  | none =>
    simp only [Option.bind_some]
    rw [arr b.values values hvl z3, Option.map_some, hnum]
  | some ts =>
    simp only
    rw [arr b.times ts (htl ts rfl) z2, Option.bind_some, arr b.values values hvl z3, Option.map_some, hnum]

/-- The description of a regular pattern. -/
def patternDesc (gran : Int) (units type zone : Bytes) : TsDesc :=
  ⟨gran, -1, 0, ⟨false, some (mallocAndCopy units), none, none, some (mallocAndCopy type), some (mallocAndCopy zone)⟩⟩

/-- The record of a regular pattern. -/
theorem regular_stored (gs : GoodSizes hdrSize maxHash binSize) {past : List Op} {s : Eng}
    (hs : Reachable (create hdrSize maxHash binSize mul).1 (create hdrSize maxHash binSize mul).2 past s) (cfg : RegCfg UInt32)
    {env : Int → TsEnv} (he : TsArrays env) {m : TsMem} (hm : TsMemOk m) {ps : List Bytes} (hn : PatternName ps) {secs : Int} {path : Bytes} (hp : PatternFor ps 0 secs path)
    {date time : Bytes} (hat : AnyTime date time) {values : List (List UInt32)} (hne : values ≠ []) (h2 : ∀ v ∈ values, v.length = 2)
    {units type zone : Bytes} (hu : Ascii units) (hty : Ascii type) (hz : Ascii zone) (hfit : cells (some units) + cells (some type) + cells (some zone) ≤ 200) (flag : Int)
    (hw : MayStore (create hdrSize maxHash binSize mul).1 past s (join ps) 0)
    (hold : ∀ R, zread (create hdrSize maxHash binSize mul).1 s (join ps) = some (some R) → R.dataType = 106) :
    ∃ s', hecTsStoreRegularP (create hdrSize maxHash binSize mul).1 cfg env m path date time values units type zone flag s = some (s', .ok) ∧
      (∀ q, q.length ≤ 392 → ¬ sameUpToCase (join ps) q → zread (create hdrSize maxHash binSize mul).1 s' q = zread (create hdrSize maxHash binSize mul).1 s q) ∧
      ∀ ops s'', Later (create hdrSize maxHash binSize mul).1 past s' (join ps) ops s'' → ∀ q, sameUpToCase (join ps) q →
        ∃ R, zread (create hdrSize maxHash binSize mul).1 s'' q = some (some R) ∧ R.dataType = 106 ∧ R.numberValues = values.length ∧ 18 ≤ R.ih.length ∧
          (∀ ca : Bytes, ca.length = 200 → ∀ T : TsHead, ztsInternalHeaderUnpack T (intsToBytes R.ih) R.ih.length ca =
            some (readHead (patternDesc (if secs > 0 ∧ secs < 60 then 1 else 60) units type zone) T)) ∧
          patternValues R = some (none, values) := by
  obtain ⟨p1, p2, _, buf, p4, p5⟩ := patternPath_spec hn hp hm
  obtain ⟨t1, a1⟩ := any_time hat
  have hd : DescOk (⟨if secs > 0 ∧ secs < 60 then 1 else 60, -1, 0, ⟨false, some (mallocAndCopy units), none, none, some (mallocAndCopy type), some (mallocAndCopy zone)⟩⟩ : TsDesc) := by
    have h := api_desc_ok (secs := 60) hu hty hz hfit
    refine ⟨⟨?_, (show IsInt (-1) by unfold IsInt; decide), (show IsInt 0 by unfold IsInt; decide)⟩, rfl, h.3, h.4⟩
    show IsInt (if _ then _ else _)
    split <;> (unfold IsInt; decide)
  obtain ⟨s', k1, k2, k3⟩ := pattern_stored gs hs (he 0).1 hd hn 106 values.flatten values.length hw hold
  refine ⟨s', ?_, k2, fun ops s'' hl q hq => ?_⟩
  · unfold hecTsStoreRegularP
    simp only
    rw [p1, if_neg (by omega), a1, Option.bind_some, p4, Option.bind_some]
    simp only
    rw [if_neg (by
      rintro (h | h)
      · exact hne (List.length_eq_zero_iff.mp h)
      · exact h rfl), p5, k1]
    rfl
  · obtain ⟨R, r1, r2, r3, r4, r5, r6⟩ := k3 ops s'' hl _ hq
    refine ⟨R, r1, r2, r4, r5, r6, ?_⟩
    unfold patternValues
    rw [if_pos r2, r3, r4, flatten_two _ h2, if_neg (by omega), List.take_of_length_le (by rw [flatten_two _ h2]; omega), doubles_flatten _ h2]

/-- C95, regular patterns.  In a file reached by any calls, a pattern of any number of values is stored over no record or over another such
pattern; and whatever is called next about other records, and whatever dates are asked for, it is read back by the same name in any letter
case and any spelling of the interval: as many values as there is room for, units, type and time zone, the unit of times.  No other record changes.
The caller's times are left as they are.  Missing: the times, quality flags, values as floats, writes outside the conditions of MayStore. -/
theorem C95_regular_partial (gs : GoodSizes hdrSize maxHash binSize) {past : List Op} {s : Eng}
    (hs : Reachable (create hdrSize maxHash binSize mul).1 (create hdrSize maxHash binSize mul).2 past s) (cfg : RegCfg UInt32)
    {env : Int → TsEnv} (he : TsArrays env) {m : TsMem} (hm : TsMemOk m) {ps : List Bytes} (hn : PatternName ps) {secs : Int} {path : Bytes} (hp : PatternFor ps 0 secs path)
    {date time : Bytes} (hat : AnyTime date time) {values : List (List UInt32)} (hne : values ≠ []) (h2 : ∀ v ∈ values, v.length = 2)
    {units type zone : Bytes} (hu : Ascii units) (hty : Ascii type) (hz : Ascii zone) (hfit : cells (some units) + cells (some type) + cells (some zone) ≤ 200) (flag : Int)
    (hw : MayStore (create hdrSize maxHash binSize mul).1 past s (join ps) 0)
    (hold : ∀ R, zread (create hdrSize maxHash binSize mul).1 s (join ps) = some (some R) → R.dataType = 106) :
    ∃ s', hecTsStoreRegularP (create hdrSize maxHash binSize mul).1 cfg env m path date time values units type zone flag s = some (s', .ok) ∧
      (∀ q, q.length ≤ 392 → ¬ sameUpToCase (join ps) q → zread (create hdrSize maxHash binSize mul).1 s' q = zread (create hdrSize maxHash binSize mul).1 s q) ∧
      ∀ ops s'', Later (create hdrSize maxHash binSize mul).1 past s' (join ps) ops s'' →
        ∀ qs secs' path', PatternName qs → PatternFor qs 0 secs' path' → sameUpToCase (join ps) (join qs) →
        ∀ startDate startTime endDate endTime, AnyTime startDate startTime → AnyTime endDate endTime →
        ∀ m' carray, TsMemOk m' → carray.length = 200 → ∀ (b : TsBuffers) size qualityWidth unitsSize typeSize zoneSize, qualityWidth ≤ 0 → TsRoom b size unitsSize typeSize zoneSize →
        hecTsRetrieveP (create hdrSize maxHash binSize mul).1 carray m' path' startDate startTime endDate endTime size qualityWidth unitsSize typeSize zoneSize b s'' =
          some (some (.ok, ⟨b.times, written b.values (values.take size.toNat), min values.length size, 0, if 0 < secs ∧ secs < 60 then 1 else 60,
            shownOpt b.units unitsSize.toNat (shown (some units)), shownOpt b.type typeSize.toNat (shown (some type)), shownOpt b.zone zoneSize.toNat (shown (some zone))⟩)) := by
  obtain ⟨s', k1, k2, k3⟩ := regular_stored gs hs cfg he hm hn hp hat hne h2 hu hty hz hfit flag hw hold
  refine ⟨s', k1, k2, fun ops s'' hl qs secs' path' hqs hqp hq sd st ed et hst het m' carray hm' hca b size qw us ts zs hqw hb => ?_⟩
  obtain ⟨R, r1, r2, r4, r5, r6, hv⟩ := k3 ops s'' hl _ hq
  have := pattern_got (c := (create hdrSize maxHash binSize mul).1) hqs hqp hm' hca hst het hu hty hz rfl rfl rfl r1 (Or.inl r2) r5 r6 hv r4.symm (fun ts h => by cases h) hqw hb
  rw [this]
  simp only
  rw [r4]
  congr 4
  unfold patternDesc
  split <;> simp_all

/-- C95, failing part: the range of dates that is given for a pattern of any number of values (interval below ten days) begins one interval after
01Jan3000 0:00, and ends as many intervals later as there are values: one interval after the last value. -/
theorem C95_range_violation (gs : GoodSizes hdrSize maxHash binSize) {past : List Op} {s : Eng}
    (hs : Reachable (create hdrSize maxHash binSize mul).1 (create hdrSize maxHash binSize mul).2 past s) (cfg : RegCfg UInt32)
    {env : Int → TsEnv} (he : TsArrays env) {m : TsMem} (hm : TsMemOk m) {ps : List Bytes} (hn : PatternName ps) {secs : Int} {path : Bytes} (hp : PatternFor ps 0 secs path)
    (hsecs : 1 ≤ secs ∧ secs < 864000)
    {date time : Bytes} (hat : AnyTime date time) {values : List (List UInt32)} (hne : values ≠ []) (h2 : ∀ v ∈ values, v.length = 2)
    {units type zone : Bytes} (hu : Ascii units) (hty : Ascii type) (hz : Ascii zone) (hfit : cells (some units) + cells (some type) + cells (some zone) ≤ 200) (flag : Int)
    (hw : MayStore (create hdrSize maxHash binSize mul).1 past s (join ps) 0)
    (hold : ∀ R, zread (create hdrSize maxHash binSize mul).1 s (join ps) = some (some R) → R.dataType = 106) {carray : Bytes} (hca : carray.length = 200) :
    ∃ s' first last, hecTsStoreRegularP (create hdrSize maxHash binSize mul).1 cfg env m path date time values units type zone flag s = some (s', .ok) ∧
      hecTsRangeP (create hdrSize maxHash binSize mul).1 carray m path s' = some (some (.ok, some (first, last))) ∧
      instant first.1 first.2 = instant (julianOf ⟨3000, 1, 1⟩) 0 + secs ∧ instant last.1 last.2 = instant first.1 first.2 + values.length * secs := by
  obtain ⟨s', k1, k2, k3⟩ := regular_stored gs hs cfg he hm hn hp hat hne h2 hu hty hz hfit flag hw hold
  obtain ⟨R, r1, r2, r4, r5, r6, hv⟩ := k3 [] s' ⟨trivial, ⟨[], rfl⟩, by simp⟩ _ (same_iff.mpr rfl)
  obtain ⟨p1, _, p3, buf, p4, p5⟩ := patternPath_spec hn hp hm
  have hread : ztsRetrievePattern (create hdrSize maxHash binSize mul).1 carray (join ps) s' =
      some (.got ⟨R.numberValues, none, values, readHead (patternDesc (if secs > 0 ∧ secs < 60 then 1 else 60) units type zone) ⟨0, -1, 0, ⟨none, false⟩, ⟨none, false⟩, ⟨none, false⟩, ⟨none, false⟩, ⟨none, false⟩⟩⟩) := by
    unfold ztsRetrievePattern
    rw [malloc_join hn.six, r1, Option.bind_some]
    simp only
    rw [if_neg (by rintro (h | h); · omega
                   · exact h (Or.inl r2)), r6 carray hca, Option.bind_some, hv]
    rfl
  obtain ⟨f1, f2⟩ := C07_increment_adds secs 1 401768 0 hsecs.1 hsecs.2 (by unfold IsTime UNDEFINED_TIME; decide) (by unfold HitsUndefined; omega)
  have hft : IsTime (incrementTime secs 1 401768 0).1 (incrementTime secs 1 401768 0).2 := by
    unfold instant at f2
    unfold Normal at f1
    unfold IsTime UNDEFINED_TIME
    omega
  obtain ⟨l1, l2⟩ := C07_increment_adds secs values.length _ _ hsecs.1 hsecs.2 hft (by
    unfold instant at f2
    unfold Normal at f1
    unfold HitsUndefined
    omega)
  refine ⟨s', incrementTime secs 1 401768 0, incrementTime secs values.length (incrementTime secs 1 401768 0).1 (incrementTime secs 1 401768 0).2, k1, ?_, ?_, l2⟩
  · unfold hecTsRangeP
    rw [p3, Option.bind_some, if_neg (by decide), p1, p4, Option.bind_some]
    simp only
    rw [if_neg (by simp), p5, hread, Option.map_some]
    simp only
    unfold patternRange
    rw [r4]
    have : (readHead (patternDesc (if secs > 0 ∧ secs < 60 then 1 else 60) units type zone) ⟨0, -1, 0, ⟨none, false⟩, ⟨none, false⟩, ⟨none, false⟩, ⟨none, false⟩, ⟨none, false⟩⟩).offset = 0 := rfl
    rw [this]
    rfl
  · rw [f2, show julianOf ⟨3000, 1, 1⟩ = 401768 by decide +kernel]
    omega

/-- C95, irregular patterns: the times come back, too, as the numbers that were given (from the day 0). -/
theorem C95_irregular_partial (gs : GoodSizes hdrSize maxHash binSize) {past : List Op} {s : Eng}
    (hs : Reachable (create hdrSize maxHash binSize mul).1 (create hdrSize maxHash binSize mul).2 past s) (pol : PackPolicy)
    {env : Int → TsEnv} (he : TsArrays env) {m : TsMem} (hm : TsMemOk m) {ps : List Bytes} (hn : PatternName ps) {block : Int} {path : Bytes} (hp : PatternFor ps 1 block path)
    (baseDate : Bytes) {vals : List (Entry (List UInt32))} (hne : vals ≠ []) (h2 : ∀ e ∈ vals, IsInt e.time ∧ e.val.length = 2) {gran : Int} (hg : IsInt gran ∧ 0 ≤ gran) (quality : List UInt32)
    {units type zone : Bytes} (hu : Ascii units) (hty : Ascii type) (hz : Ascii zone) (hfit : cells (some units) + cells (some type) + cells (some zone) ≤ 200) (flag : Int)
    (hw : MayStore (create hdrSize maxHash binSize mul).1 past s (join ps) 0)
    (hold : ∀ R, zread (create hdrSize maxHash binSize mul).1 s (join ps) = some (some R) → R.dataType = 116) :
    ∃ s', hecTsStoreIregularP (create hdrSize maxHash binSize mul).1 pol env m path baseDate vals gran quality units type zone flag s = some (s', .ok) ∧
      (∀ q, q.length ≤ 392 → ¬ sameUpToCase (join ps) q → zread (create hdrSize maxHash binSize mul).1 s' q = zread (create hdrSize maxHash binSize mul).1 s q) ∧
      ∀ ops s'', Later (create hdrSize maxHash binSize mul).1 past s' (join ps) ops s'' →
        ∀ qs block' path', PatternName qs → PatternFor qs 1 block' path' → sameUpToCase (join ps) (join qs) →
        ∀ startDate startTime endDate endTime, AnyTime startDate startTime → AnyTime endDate endTime →
        ∀ m' carray, TsMemOk m' → carray.length = 200 → ∀ (b : TsBuffers) size qualityWidth unitsSize typeSize zoneSize, qualityWidth ≤ 0 → TsRoom b size unitsSize typeSize zoneSize →
        hecTsRetrieveP (create hdrSize maxHash binSize mul).1 carray m' path' startDate startTime endDate endTime size qualityWidth unitsSize typeSize zoneSize b s'' =
          some (some (.ok, ⟨written b.times ((vals.map fun e => e.time).take size.toNat), written b.values ((vals.map fun e => e.val).take size.toNat), min vals.length size, 0,
            if gran = 0 then 60 else gran,
            shownOpt b.units unitsSize.toNat (shown (some units)), shownOpt b.type typeSize.toNat (shown (some type)), shownOpt b.zone zoneSize.toNat (shown (some zone))⟩)) := by
  obtain ⟨p1, p2, _, buf, p4, p5⟩ := patternPath_spec hn hp hm
  have hd : DescOk (⟨if gran = 0 then 60 else gran, -1, 0, ⟨false, some (mallocAndCopy units), none, none, some (mallocAndCopy type), some (mallocAndCopy zone)⟩⟩ : TsDesc) := by
    have h := api_desc_ok (secs := 60) hu hty hz hfit
    refine ⟨⟨?_, (show IsInt (-1) by unfold IsInt; decide), (show IsInt 0 by unfold IsInt; decide)⟩, rfl, h.3, h.4⟩
    show IsInt (if _ then _ else _)
    split
    · unfold IsInt; decide
    · exact hg.1
  obtain ⟨s', k1, k2, k3⟩ := pattern_stored gs hs (he 0).1 hd hn 116 ((vals.map fun e => i32 e.time) ++ vals.flatMap fun e => e.val) vals.length hw hold
  refine ⟨s', ?_, k2, fun ops s'' hl qs block' path' hqs hqp hq sd st ed et hst het m' carray hm' hca b size qw us ts zs hqw hb => ?_⟩
  · unfold hecTsStoreIregularP
    simp only
    rw [p1, if_neg (by omega), p4, Option.bind_some]
    simp only
    rw [if_neg (by
      rintro (h | h)
      · exact hne (List.length_eq_zero_iff.mp h)
      · revert h; decide), p5, k1]
    rfl
  · obtain ⟨R, r1, r2, r3, r4, r5, r6⟩ := k3 ops s'' hl _ hq
    have h2v : ∀ v ∈ vals.map (fun e => e.val), v.length = 2 := by
      intro v hv
      obtain ⟨e, he, rfl⟩ := List.mem_map.mp hv
      exact (h2 e he).2
    have hfm : (vals.flatMap fun e => e.val) = (vals.map fun e => e.val).flatten := rfl
    have hfl := flatten_two _ h2v
    rw [List.length_map] at hfl
    have hml : (vals.map fun e => i32 e.time).length = vals.length := List.length_map _
    have hback : (vals.map fun e => i32 e.time).map (fun w => toInt32 w.toNat) = vals.map fun e => e.time := by
      rw [List.map_map]
      exact List.map_congr_left fun e he => toInt32_i32 (h2 e he).1
    have hv : patternValues R = some (some (vals.map fun e => e.time), vals.map fun e => e.val) := by
      unfold patternValues
      rw [if_neg (by rw [r2]; decide), r3, r4, hfm, if_neg (by rw [List.length_append, hml, hfl]; omega), List.take_left' hml, List.drop_left' hml,
        List.take_of_length_le (by omega), doubles_flatten _ h2v, hback]
    have := pattern_got (c := (create hdrSize maxHash binSize mul).1) hqs hqp hm' hca hst het hu hty hz rfl rfl rfl r1 (Or.inr r2) r5 r6 hv (by rw [List.length_map]; exact r4.symm)
      (fun ts h => by injection h with h; rw [← h, List.length_map]; exact r4.symm) hqw hb
    rw [this]
    simp only
    rw [r4]
    congr 4
    split
    · split <;> omega
    · split <;> omega

end Hec
