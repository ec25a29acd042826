import Verif.Props.TsPattern
import Verif.Props.TsApiCases
import Verif.Props.ItsApiCases
/-! C95 on a file: a daily pattern, and what goes wrong. -/
namespace Hec
set_option linter.unusedSimpArgs false
set_option linter.unusedVariables false
set_option synthInstance.maxSize 1000
set_option synthInstance.maxHeartbeats 200000
open _root_.Spec (GoodSizes create SixParts IsPart Printable join TsMemOk TsArrays PatternName PatternFor AnyTime TsRoom IsInt MayStore Later Ascii shown shownOpt cells written instant)
open Hec.Spec (sameUpToCase)

/-- `/A/B/FLOW/TS-Pattern/1Day/F/` and `/a/B/FLOW/ts-pattern/1Day/F/` -/
def daily : List Bytes := [[65], [66], [70, 76, 79, 87], TS_PATTERN, [49, 68, 97, 121], [70]]
def dailyLow : List Bytes := [[97], [66], [70, 76, 79, 87], [116, 115, 45, 112, 97, 116, 116, 101, 114, 110], [49, 68, 97, 121], [70]]

theorem daily_name : PatternName daily := ⟨⟨rfl, by unfold IsPart; decide⟩, by decide, by unfold Printable; decide, by decide, by decide⟩
theorem dailyLow_name : PatternName dailyLow := ⟨⟨rfl, by unfold IsPart; decide⟩, by decide, by unfold Printable; decide, by decide, by decide⟩

/-- The E part `1DAY`. -/
def dailyPath : Bytes := join (daily.set 4 [49, 68, 65, 89])
theorem daily_path : PatternFor daily 0 86400 dailyPath :=
  ⟨[49, 68, 65, 89], [49, 68, 97, 121], rfl, by unfold IsPart; decide, by unfold Printable; decide, by decide, by decide, by decide +kernel, by decide⟩
theorem dailyLow_path : PatternFor dailyLow 0 86400 (join (dailyLow.set 4 [49, 68, 97, 121])) :=
  ⟨[49, 68, 97, 121], [49, 68, 97, 121], rfl, by unfold IsPart; decide, by unfold Printable; decide, by decide, by decide, by decide +kernel, by decide⟩

theorem nothing_there (ps : List Bytes) (h : zread tiny.1 tiny.2 (join ps) = some none) (hl : (join ps).length ≤ 392) (type : UInt32) :
    MayStore (create 12 2 58 id).1 [] tiny.2 (join ps) 0 ∧ ∀ R, zread (create 12 2 58 id).1 tiny.2 (join ps) = some (some R) → R.dataType = type :=
  ⟨⟨hl, (fun R hR => by rw [show (create 12 2 58 id) = tiny from rfl, h] at hR; cases hR), fun _ d hd => by simp at hd⟩,
    fun R hR => by rw [show (create 12 2 58 id) = tiny from rfl, h] at hR; cases hR⟩

/-- The conditions of C95_regular_partial are met in a new file: the three values are read without dates, and under the name in small letters. -/
theorem daily_store : ∃ s', hecTsStoreRegularP tiny.1 doubleCfg aTsEnv aTsMem dailyPath nov30 midnight runoffs.values cfs instVal [] 0 tiny.2 = some (s', .ok) ∧
    hecTsRetrieveP tiny.1 (List.replicate 200 8) aTsMem (join (dailyLow.set 4 [49, 68, 97, 121])) [] [] [] [] 2 0 10 10 10 fiveBuffers s' =
      some (some (.ok, ⟨fiveBuffers.times, written fiveBuffers.values [[1, 5], [2, 6]], 2, 0, 60, shownOpt fiveBuffers.units 10 (shown (some cfs)),
        shownOpt fiveBuffers.type 10 (shown (some instVal)), shownOpt fiveBuffers.zone 10 (shown (some []))⟩)) := by
  obtain ⟨h1, h2⟩ := nothing_there daily (by decide +kernel) (by decide) 106
  obtain ⟨s', k1, _, k3⟩ := C95_regular_partial (mul := id) tiny_good (past := []) (s := tiny.2) ⟨trivial, [], rfl⟩ doubleCfg aTsEnv_ok aTsMem_ok daily_name daily_path
    (date := nov30) (time := midnight) (Or.inr ⟨86400, by decide +kernel⟩) (values := runoffs.values) (by decide) (by decide) (units := cfs) (type := instVal) (zone := [])
    (by unfold Ascii; decide) (by unfold Ascii; decide) (by unfold Ascii; decide) (by decide) 0 h1 h2
  refine ⟨s', k1, ?_⟩
  have := k3 [] s' ⟨trivial, ⟨[], rfl⟩, by simp⟩ dailyLow 86400 _ dailyLow_name dailyLow_path (by rw [same_iff]; decide) [] [] [] [] (Or.inl rfl) (Or.inl rfl) aTsMem
    (List.replicate 200 8) aTsMem_ok List.length_replicate fiveBuffers 2 0 10 10 10 (by decide) ⟨by decide, by decide, by decide, by decide⟩
  rw [show (create 12 2 58 id) = tiny from rfl] at this
  rw [this]
  rfl

/-- C95, failing part: the times of the pattern are asked for, and the caller's array is left as it is (77). -/
theorem C95_times_violation :
    ((hecTsStoreRegularP tiny.1 doubleCfg aTsEnv aTsMem dailyPath nov30 midnight runoffs.values cfs instVal [] 0 tiny.2).bind fun p =>
      (hecTsRetrieveP tiny.1 (List.replicate 200 8) aTsMem dailyPath nov30 midnight feb29 midnight 5 0 10 10 10 fiveBuffers p.1).map fun r => r.map fun x => (p.2, x.1, x.2.number, x.2.times)) =
    some (some (.ok, .ok, 3, [77, 77, 77, 77, 77])) := by decide +kernel

/-- C95, failing part: if quality flags are asked for, they are read through a null pointer. -/
theorem C95_quality_violation :
    ((hecTsStoreRegularP tiny.1 doubleCfg aTsEnv aTsMem dailyPath nov30 midnight runoffs.values cfs instVal [] 0 tiny.2).map fun p =>
      (p.2, hecTsRetrieveP tiny.1 (List.replicate 200 8) aTsMem dailyPath nov30 midnight feb29 midnight 5 1 10 10 10 fiveBuffers p.1)) = some (.ok, none) := by decide +kernel

/-- The conditions of C95_range_violation are met: the range of three daily values is 1 to 4 January 3000. -/
theorem daily_range : ∃ s' first last, hecTsStoreRegularP tiny.1 doubleCfg aTsEnv aTsMem dailyPath nov30 midnight runoffs.values cfs instVal [] 0 tiny.2 = some (s', .ok) ∧
    hecTsRangeP tiny.1 (List.replicate 200 8) aTsMem dailyPath s' = some (some (.ok, some (first, last))) ∧
      instant first.1 first.2 = instant (julianOf ⟨3000, 1, 1⟩) 0 + 86400 ∧ instant last.1 last.2 = instant first.1 first.2 + ((3 : Nat) : Int) * 86400 := by
  obtain ⟨h1, h2⟩ := nothing_there daily (by decide +kernel) (by decide) 106
  exact C95_range_violation (mul := id) tiny_good (past := []) (s := tiny.2) ⟨trivial, [], rfl⟩ doubleCfg aTsEnv_ok aTsMem_ok daily_name daily_path (by decide)
    (date := nov30) (time := midnight) (Or.inr ⟨86400, by decide +kernel⟩) (values := runoffs.values) (by decide) (by decide) (units := cfs) (type := instVal) (zone := [])
    (by unfold Ascii; decide) (by unfold Ascii; decide) (by unfold Ascii; decide) (by decide) 0 h1 h2 List.length_replicate

/-- `/A/B/FLOW/TS-Pattern/~1Day/F/` -/
def rare : List Bytes := [[65], [66], [70, 76, 79, 87], TS_PATTERN, [126, 49, 68, 97, 121], [70]]
theorem rare_name : PatternName rare := ⟨⟨rfl, by unfold IsPart; decide⟩, by decide, by unfold Printable; decide, by decide, by decide⟩
theorem rare_path : ∃ block, PatternFor rare 1 block (join rare) := by
  have hk0 : (ePartToSeconds 7 [126, 49, 68, 97, 121]).map (fun x => (x.1, x.2.2)) = some (1, [49, 68, 97, 121]) := by decide +kernel
  cases h : ePartToSeconds 7 [126, 49, 68, 97, 121] with
  | none => rw [h] at hk0; cases hk0
  | some x =>
    obtain ⟨k, b, name⟩ := x
    have hk : (ePartToSeconds 7 [126, 49, 68, 97, 121]).map (fun x => (x.1, x.2.2)) = some (1, [49, 68, 97, 121]) := by decide +kernel
    rw [h] at hk
    injection hk with hk
    injection hk with h1 h2
    simp only at h1 h2
    subst h1 h2
    exact ⟨b, [126, 49, 68, 97, 121], _, rfl, by unfold IsPart; decide, by unfold Printable; decide, by decide, by decide, h, by decide⟩

/-- The conditions of C95_irregular_partial are met. -/
theorem rare_store : ∃ s', hecTsStoreIregularP tiny.1 samplePolicy aTsEnv aTsMem (join rare) nov30 springs 60 [] cfs instVal [] 0 tiny.2 = some (s', .ok) ∧
    hecTsRetrieveP tiny.1 (List.replicate 200 8) aTsMem (join rare) [] [] [] [] 5 0 10 10 10 fiveBuffers s' =
      some (some (.ok, ⟨written fiveBuffers.times [60, 1500, 59040], written fiveBuffers.values [[1, 5], [2, 6], [3, 7]], 3, 0, 60, shownOpt fiveBuffers.units 10 (shown (some cfs)),
        shownOpt fiveBuffers.type 10 (shown (some instVal)), shownOpt fiveBuffers.zone 10 (shown (some []))⟩)) := by
  obtain ⟨block, hb⟩ := rare_path
  obtain ⟨h1, h2⟩ := nothing_there rare (by decide +kernel) (by decide) 116
  obtain ⟨s', k1, _, k3⟩ := C95_irregular_partial (mul := id) tiny_good (past := []) (s := tiny.2) ⟨trivial, [], rfl⟩ samplePolicy aTsEnv_ok aTsMem_ok rare_name hb nov30 (vals := springs) (by decide)
    (by unfold IsInt; decide) (gran := 60) (by unfold IsInt; decide) [] (units := cfs) (type := instVal) (zone := [])
    (by unfold Ascii; decide) (by unfold Ascii; decide) (by unfold Ascii; decide) (by decide) 0 h1 h2
  refine ⟨s', k1, ?_⟩
  have := k3 [] s' ⟨trivial, ⟨[], rfl⟩, by simp⟩ rare block _ rare_name hb (same_iff.mpr rfl) [] [] [] [] (Or.inl rfl) (Or.inl rfl) aTsMem
    (List.replicate 200 8) aTsMem_ok List.length_replicate fiveBuffers 5 0 10 10 10 (by decide) ⟨by decide, by decide, by decide, by decide⟩
  rw [show (create 12 2 58 id) = tiny from rfl] at this
  rw [this]
  rfl

/-- C95, failing part: an irregular pattern is stored with the times counted from 30 November 2019, and read with the times counted from the
day 0. -/
theorem C95_base_violation : julianOf ⟨2019, 11, 30⟩ ≠ 0 ∧
    ((hecTsStoreIregularP tiny.1 samplePolicy aTsEnv aTsMem (join rare) nov30 springs 60 [] cfs instVal [] 0 tiny.2).bind fun p =>
      (hecTsRetrieveP tiny.1 (List.replicate 200 8) aTsMem (join rare) nov30 midnight feb29 midnight 5 0 10 10 10 fiveBuffers p.1).map fun r => r.map fun x => (x.1, x.2.base, x.2.times)) =
    some (some (.ok, 0, [60, 1500, 59040, 77, 77])) := by decide +kernel

/-- C95, failing part: times that do not ascend are stored (an irregular series is refused with them, C67). -/
theorem C95_order_violation :
    ((hecTsStoreIregularP tiny.1 samplePolicy aTsEnv aTsMem (join rare) nov30 [⟨60, [1, 5]⟩, ⟨30, [2, 6]⟩] 60 [] cfs instVal [] 0 tiny.2).map fun p => p.2) = some .ok ∧
    ((hecTsStoreIregularP tiny.1 samplePolicy aTsEnv aTsMem springPath nov30 [⟨60, [1, 5]⟩, ⟨30, [2, 6]⟩] 60 [] cfs instVal [] 0 tiny.2).map fun p => p.2) = some .failed := by decide +kernel

end Hec
