import Verif.Props.ItsApi
import Verif.Props.TsApiCases
/-! C67 on a file: flows at irregular times over the turn of a year, and what becomes of their quality flags. -/
namespace Hec
set_option linter.unusedSimpArgs false
set_option linter.unusedVariables false
set_option synthInstance.maxSize 1000
set_option synthInstance.maxHeartbeats 200000
open _root_.Spec (Date Block IrregStore seriesOf Increasing Op Reachable Leads GoodSizes create join SixParts IsPart IsInt DescOk readHead blockLength
  AboutSeries NamesSeries TsArrays Holds Printable TextOf SeriesName TsMemOk Ascii shown shownOpt cells ItsPathFor BaseText itsApiDesc withoutFlags)

/-- `/A/B/FLOW//~1Day/F/` -/
def spring : List Bytes := [[65], [66], [70, 76, 79, 87], [], [126, 49, 68, 97, 121], [70]]

theorem spring_name : SeriesName spring :=
  ⟨⟨rfl, by unfold IsPart; decide⟩, by decide, by unfold Printable; decide, by decide, by decide +kernel⟩

/-- `/A/B/FLOW/2019/~1DAY/F/` -/
def springPath : Bytes := join [[65], [66], [70, 76, 79, 87], [50, 48, 49, 57], [126, 49, 68, 65, 89], [70]]

theorem spring_path : ItsPathFor spring .year springPath :=
  ⟨[50, 48, 49, 57], [126, 49, 68, 65, 89], [49, 68, 97, 121], rfl, by unfold IsPart; decide, by unfold IsPart; decide, by unfold Printable; decide, by unfold Printable; decide,
    by decide, by decide, by decide, by decide +kernel, by decide, by decide⟩

/-- One o'clock on 30 November 2019, one o'clock the next day, midnight of 9 January 2020: minutes since 30 November. -/
def springs : List (Entry (List UInt32)) := [⟨60, [1, 5]⟩, ⟨1500, [2, 6]⟩, ⟨1440 * 41, [3, 7]⟩]

def springCfg : ItsCfg := ⟨samplePolicy, 2, 0⟩

theorem springCfg_ok : ItsSettings springCfg 60 := ⟨Or.inr rfl, by decide, Or.inr (Or.inl rfl)⟩

theorem springs_fit : ItsStoreFits springCfg .year 60 spring [] (itsApiDesc 60 cfs instVal []) ⟨60, julianOf ⟨2019, 11, 30⟩, withoutFlags springs⟩ := by
  refine ⟨⟨rfl, by unfold Increasing; decide, by decide +kernel, by decide +kernel, fun h => by rcases h with h | h <;> cases h⟩, by decide, by decide +kernel,
    its_desc_ok (Or.inr (Or.inl rfl)) (by unfold Ascii; decide) (by unfold Ascii; decide) (by unfold Ascii; decide) (by decide), rfl, by simp⟩

theorem spring_start : ItsHistory tiny.1 tiny.2 springCfg .year 60 spring [] tiny.2 [] := by
  refine .start ⟨trivial, [], rfl⟩ (fun p hp => ?_)
  obtain ⟨s, ress, h1, h2⟩ := C27_last_write_partial (mul := id) tiny_good [] trivial
  have : some (tiny.2, []) = some (s, ress) := h1
  injection this with this; injection this with this _; subst this
  obtain ⟨x, hx1, hx2, hx3⟩ := hp
  refine h2 p ?_
  have := (same_iff.mp hx3).length
  rw [this, block_length spring_name.six hx1]
  decide

theorem nov_base : BaseText nov30 (julianOf ⟨2019, 11, 30⟩) := Or.inr (by decide +kernel)

/-- The hypotheses of the store are met: a new file with the three flows. -/
theorem spring_history : ∃ past s, ItsHistory tiny.1 tiny.2 springCfg .year 60 spring past s
    [(itsApiDesc 60 cfs instVal [], ⟨60, julianOf ⟨2019, 11, 30⟩, withoutFlags springs⟩)] := by
  obtain ⟨s', more, _, _, _, _, h⟩ := C67_store_partial (mul := id) tiny_good .year springCfg_ok spring_name (by decide) spring_start springs_fit (by decide) aTsEnv_ok aTsMem_ok
    spring_path nov_base [3, 3, 3]
  exact ⟨_, _, h⟩

theorem nov_window : TextOf nov30 midnight (julianOf ⟨2019, 11, 30⟩, 86400) := ⟨by decide, by decide, 86400, by decide +kernel⟩
theorem feb_window : TextOf feb29 midnight (julianOf ⟨2020, 2, 29⟩, 86400) := ⟨by decide, by decide, 86400, by decide +kernel⟩

/-- And those of the retrieve. -/
theorem spring_retrieve : ∃ s out fs, hecTsRetrieveIrreg tiny.1 springCfg (fun _ => (List.replicate 700 6, List.replicate 200 8)) aTsMem (List.replicate 393 9) springPath
      nov30 midnight feb29 midnight 5 0 10 10 10 fiveBuffers [] s = some (.ok, out, fs) ∧ out.units = shownOpt (List.replicate 10 1) 10 (shown (some cfs)) := by
  obtain ⟨past, s, h⟩ := spring_history
  obtain ⟨out, fs, L, h1, _, _, _, _, _, h5, _⟩ := C67_retrieve_partial (mul := id) tiny_good .year springCfg_ok spring_name h (units := cfs) (type := instVal) (zone := [])
    (by unfold Ascii; decide) (by unfold Ascii; decide) (by unfold Ascii; decide) (by simp) (ta := (julianOf ⟨2019, 11, 30⟩, 86400)) (tb := (julianOf ⟨2020, 2, 29⟩, 86400))
    (by decide +kernel) (by decide) (fun h => by cases h) (by decide +kernel) ⟨julianOf ⟨2019, 11, 30⟩ * 86400 + 90000, ([2, 6], []), by decide +kernel, by decide +kernel, by decide +kernel⟩
    aTsMem_ok (env := fun _ => (List.replicate 700 6, List.replicate 200 8)) (fun _ => List.length_replicate) (old := List.replicate 393 9) List.length_replicate
    spring_path nov_window feb_window (by decide +kernel) (size := 5) (qualityWidth := 0) (unitsSize := 10) (typeSize := 10) (zoneSize := 10) (buf := fiveBuffers) (flags := [])
    (by decide) (by decide) (by decide) (by decide) (Or.inl (by decide))
  exact ⟨s, out, fs, h1, h5⟩

/-- What the calls of the model do: the first value is before the window; minutes since 31Dec1899. -/
theorem spring_case :
    ((hecTsStoreIregular tiny.1 samplePolicy aTsEnv aTsMem springPath nov30 springs 60 [3, 3, 3] cfs instVal [] 0 tiny.2).bind fun p =>
      hecTsRetrieveIrreg tiny.1 springCfg (fun _ => (List.replicate 700 6, List.replicate 200 8)) aTsMem (List.replicate 393 9) springPath nov30 midnight feb29 midnight 5 0 10 10 10 fiveBuffers [9, 9, 9, 9, 9] p.1) =
    some (.ok, ⟨[julianOf ⟨2019, 12, 1⟩ * 1440 + 60, julianOf ⟨2020, 1, 10⟩ * 1440, 77, 77, 77],
      [[2, 6], [3, 7], [7, 7], [7, 7], [7, 7]], 2, 0, 60, [99, 102, 115, 0, 1, 1, 1, 1, 1, 1], [73, 78, 83, 84, 45, 86, 65, 76, 0, 2], List.replicate 10 3⟩, [9, 9, 9, 9, 9]) := by
  decide +kernel

/-- C67, failing part: the quality flags given with the values are not stored (the call says that all went well), and asking
for them reads through a null pointer. -/
theorem C67_quality_violation :
    ((hecTsStoreIregular tiny.1 samplePolicy aTsEnv aTsMem springPath nov30 springs 60 [3, 3, 3] cfs instVal [] 0 tiny.2).map fun p =>
      (p.2, hecTsRetrieveIrreg tiny.1 springCfg (fun _ => (List.replicate 700 6, List.replicate 200 8)) aTsMem (List.replicate 393 9) springPath nov30 midnight feb29 midnight 5 1 10 10 10 fiveBuffers [9, 9, 9, 9, 9] p.1)) =
    some (.ok, none) ∧
    hecTsStoreIregular tiny.1 samplePolicy aTsEnv aTsMem springPath nov30 springs 60 [3, 3, 3] cfs instVal [] 0 tiny.2 =
      hecTsStoreIregular tiny.1 samplePolicy aTsEnv aTsMem springPath nov30 springs 60 [] cfs instVal [] 0 tiny.2 := by
  exact ⟨by decide +kernel, rfl⟩

/-- Two levels of the wrong order are refused. -/
example : hecTsStoreIregular tiny.1 samplePolicy aTsEnv aTsMem springPath nov30 [⟨60, [1, 5]⟩, ⟨59, [2, 6]⟩] 60 [] cfs instVal [] 0 tiny.2 = some (tiny.2, .failed) :=
  C67_not_ascending spring_name .year (Or.inr (Or.inl rfl)) (by decide) (before := []) (by decide) (base := julianOf ⟨2019, 11, 30⟩) ⟨by decide +kernel, by decide +kernel⟩ _ _ _ aTsMem_ok spring_path nov_base _ _ _ _ _ _

end Hec
