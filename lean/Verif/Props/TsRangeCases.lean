import Verif.Props.RecordType
import Verif.Props.SeriesFileCases
import Verif.Props.ItsFileCases
/-! C69 and C70 on the files of C63 and C64. -/
namespace Hec
set_option linter.unusedSimpArgs false
set_option linter.unusedVariables false
set_option synthInstance.maxSize 1000
set_option synthInstance.maxHeartbeats 200000
open _root_.Spec (Date Block Period RegInterval RegStore regSeries IrregStore seriesOf Op Reachable GoodSizes create join SixParts IsPart DayOf SameBlock IsBlockName OldMinute compatible runs)

theorem flow_not_old : ∀ e, mflow[4]? = some e → ¬ OldMinute e := by
  intro e he
  have : e = [49, 77, 79, 78] := by
    have h : some [49, 77, 79, 78] = some e := he
    injection h with h; exact h.symm
  subst this
  rintro ⟨a, m, i, n, h, _, h2, _⟩
  match a, h with
  | [], h => injection h with _ h; injection h with _ h; injection h with _ h; cases h
  | [x], h =>
    injection h with _ h; injection h with _ h; injection h with h3 h
    subst h3; revert h2; decide
  | x :: y :: z, h =>
    have := congrArg List.length h
    simp at this

/-- `01Jan2010`, the block of November 2019, in the pathname. -/
def block2010 : Bytes := join (mflow.set 3 [48, 49, 74, 97, 110, 50, 48, 49, 48])

/-- The history of C63 meets the conditions of C69, for the block of November 2019 and for that of January 2020. -/
theorem flow_range : ∃ past s a b, SeriesHistory tiny.1 tiny.2 floatCfg (.period .month) 0 mflow past s [(flowDesc, flows)] ∧
    ztsGetDateTimeRange tiny.1 s block2010 = some (.range ((RegInterval.period .month).time julianOf a) ((RegInterval.period .month).time julianOf b)) ∧ a ≤ 12 * 2019 + 10 ∧ 12 * 2019 + 11 ≤ b := by
  obtain ⟨past, s, h⟩ := flow_history
  have hd : DayOf julianOf (.period .month) (12 * 2019 + 10) ⟨2019, 11, 30⟩ := by
    refine ⟨by unfold Date.Valid; decide, by decide, by decide +kernel⟩
  have hd2 : DayOf julianOf (.period .month) (12 * 2019 + 11) ⟨2019, 12, 31⟩ := by
    refine ⟨by unfold Date.Valid; decide, by decide, by decide +kernel⟩
  have hR : InRange (.period .month) (12 * 2019 + 10) := by show (100 : Int) ≤ _; decide
  have hR2 : InRange (.period .month) (12 * 2019 + 11) := by show (100 : Int) ≤ _; decide
  rcases C69_block_range_partial (mul := id) tiny_good floatCfg_ok (r := .period .month) trivial (by intro h; cases h) flow_six (by decide) flow_not_old h
    (by intro x hx; rcases List.mem_singleton.mp hx with rfl; decide) rfl hR hd (by decide +kernel)
    (p := block2010) ⟨block2010, ⟨[48, 49, 74, 97, 110, 50, 48, 49, 48], by decide +kernel, rfl⟩, same_iff.mpr rfl⟩ with ⟨_, k⟩ | ⟨a, b, k1, k2, k3, k4, k5, k6⟩
  · exfalso
    have := k _ hR ⟨_, _, hd, hd, rfl⟩
    revert this
    decide +kernel
  · exact ⟨past, s, a, b, h, k1, (k6 _ hR ⟨_, _, hd, hd, rfl⟩ (by decide +kernel)).1, (k6 _ hR2 ⟨_, _, hd, hd2, by decide +kernel⟩ (by decide +kernel)).2⟩

/-- The file after the flows are stored with description `d`. -/
def flowFile (d : TsDesc) : Option Eng :=
  (ztsStoreReg tiny.1 floatCfg d aTsEnv ⟨fun _ => 1, 2⟩ (List.replicate 393 3) flowPath 2592000 (julianOf ⟨2019, 11, 30⟩) 86400 0 flows.values [] 0 tiny.2).map Prod.fst

/-- What the calls of the model do. -/
theorem flow_range_case :
    ((flowFile flowDesc).bind fun s => ztsGetDateTimeRange tiny.1 s block2010) = some (.range (julianOf ⟨2019, 11, 30⟩, 86400) (julianOf ⟨2019, 12, 31⟩, 86400)) ∧
    ((flowFile flowDesc).bind fun s => ztsGetDateTimeRange tiny.1 s (join (mflow.set 3 [48, 49, 74, 97, 110, 50, 48, 48, 48]))) = some .notFound := by
  decide +kernel

/-- C69 fails for series with an offset: these flows are those of 10 minutes past the start of the months, and the range is the same. -/
theorem C69_offset_violation :
    ((flowFile { flowDesc with offset := 600 }).bind fun s => ztsGetDateTimeRange tiny.1 s block2010) = some (.range (julianOf ⟨2019, 11, 30⟩, 86400) (julianOf ⟨2019, 12, 31⟩, 86400)) := by
  decide +kernel

/-- `/A/B/FLOW//1YEAR/F/` -/
def yflow : List Bytes := [[65], [66], [70, 76, 79, 87], [], [49, 89, 69, 65, 82], [70]]

/-- A value for the year `y` is stored. -/
def storeYear (y : Int) (v : UInt32) (s : Eng) : Option Eng :=
  (ztsStoreReg tiny.1 floatCfg flowDesc aTsEnv ⟨fun _ => 1, 2⟩ (List.replicate 393 3) (join yflow) 31536000 (julianOf ⟨y, 12, 31⟩) 86400 0 [[v]] [] 0 s).map Prod.fst

/-- C69 fails for yearly data: when the value of 2002 joins that of 2000, the range is that of 30 December 2000 to 30 December 2002. -/
theorem C69_yearly_violation :
    (((storeYear 2000 5 tiny.2).bind (storeYear 2002 6)).bind fun s => ztsGetDateTimeRange tiny.1 s (join (yflow.set 3 [48, 49, 74, 97, 110, 50, 48, 48, 48]))) =
      some (.range (julianOf ⟨2000, 12, 30⟩, 86400) (julianOf ⟨2002, 12, 30⟩, 86400)) := by
  decide +kernel

/-- `/A/B/C/D/E/F/` -/
def plainSix : List Bytes := [[65], [66], [67], [68], [69], [70]]

theorem plain_six : SixParts plainSix := ⟨rfl, by unfold IsPart; decide⟩

theorem plain_not_old : ∀ e, plainSix[4]? = some e → ¬ OldMinute e := by
  intro e he
  have : e = [69] := by
    have h : some [69] = some e := he
    injection h with h; exact h.symm
  subst this
  rintro ⟨a, m, i, n, h, _⟩
  have := congrArg List.length h
  simp at this

/-- A record of type `t`. -/
def typed (t : UInt32) : Op := .write ⟨join plainSix, t, [], [], [], [1], [], [], 1, 0, 0, 0, 5, 0, 0, 0, (0, 0)⟩

/-- The conditions of C70 can be met, and what the calls of the model do. -/
theorem type_case : (∃ s ress, runs tiny.1 tiny.2 [typed 300] = some (s, ress) ∧ hecRecordType tiny.1 s (fun _ => 5) (join plainSix) = some (.type 300)) ∧
    ((runs tiny.1 tiny.2 [typed 300]).bind fun p => hecDataType tiny.1 p.1 (join plainSix) (List.replicate 129 1) 0) = some 300 ∧
    hecDataType tiny.1 tiny.2 flowPath (List.replicate 129 1) 0 = some 100 ∧ hecDataType tiny.1 tiny.2 levelPath (List.replicate 129 1) 0 = some 110 ∧
    hecDataType tiny.1 tiny.2 (join plainSix) (List.replicate 129 1) 0 = some 0 ∧ hecRecordType tiny.1 tiny.2 (fun _ => 5) (join plainSix) = some (.type (-1)) := by
  refine ⟨?_, by decide +kernel⟩
  exact ⟨_, _, rfl, by decide +kernel⟩

/-- C70 fails for hec_dss_dataType: doubles over floats are still called floats. -/
theorem C70_stale_type_violation :
    ((runs tiny.1 tiny.2 [typed 100, typed 105]).bind fun p => (hecDataType tiny.1 p.1 (join plainSix) (List.replicate 129 1) 0).bind fun t =>
      (hecRecordType tiny.1 p.1 (fun _ => 5) (join plainSix)).map fun u => (t, u)) = some (100, .type 105) := by
  decide +kernel

/-- C70 fails for the empty pathname: the status hec_dss_recordType looks at was not set. -/
theorem C70_empty_violation (c : Cfg) (s : Eng) (words : Nat → Nat) : hecRecordType c s words [] = some .unset := by
  unfold hecRecordType
  rw [if_pos (by rfl)]

/-- Both histories meet the conditions of the types of series. -/
theorem series_types : (∃ s, hecRecordType tiny.1 s (fun _ => 5) block2010 = some (.type 100)) ∧
    ∃ s, hecRecordType tiny.1 s (fun _ => 5) (join (levels.set 3 [48, 49, 74, 97, 110, 49, 57, 57, 48])) = some (.type 110) := by
  constructor
  · obtain ⟨past, s, h⟩ := flow_history
    refine ⟨s, C70_regular_type (mul := id) tiny_good floatCfg_ok (r := .period .month) trivial flow_six (by decide) flow_not_old h (a := 12 * 2019 + 10)
      (by show (100 : Int) ≤ _; decide) (by decide +kernel) (d := ⟨2019, 11, 30⟩) ⟨by unfold Date.Valid; decide, by decide, by decide +kernel⟩ (by decide +kernel)
      ⟨[48, 49, 74, 97, 110, 50, 48, 49, 48], by decide +kernel, rfl⟩ (by decide)⟩
  · obtain ⟨past, s, h⟩ := level_history
    refine ⟨s, C70_irregular_type (mul := id) tiny_good .decade levelCfg_ok levels_six (by decide) ?_ h (d := ⟨1999, 12, 31⟩) (by unfold Date.Valid; decide) (by decide)
      (t := 36524 * 86400 + 3600) (by decide +kernel) (by decide +kernel) (v := ([5], [3])) (by decide +kernel) (by decide +kernel)
      ⟨[48, 49, 74, 97, 110, 49, 57, 57, 48], by decide +kernel, rfl⟩ (by decide)⟩
    intro e he
    have : e = [73, 82, 45, 68, 69, 67, 65, 68, 69] := by
      have h : some [73, 82, 45, 68, 69, 67, 65, 68, 69] = some e := he
      injection h with h; exact h.symm
    subst this
    rintro ⟨a, m, i, n, h, _, _, _, ha⟩
    have := congrArg List.length h
    simp at this
    rcases ha with ha | ⟨x, y, ha, _⟩
    · omega
    · rw [ha] at this; simp at this

end Hec
