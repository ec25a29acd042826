import Verif.Props.TsApi
import Verif.Props.SeriesFileCases
/-! C66 on a file: monthly flows, and what goes wrong with tags and with quality flags. -/
namespace Hec
set_option linter.unusedSimpArgs false
set_option linter.unusedVariables false
set_option synthInstance.maxSize 1000
set_option synthInstance.maxHeartbeats 200000
open _root_.Spec (Date Block Period RegInterval RegStore regSeries SameValue Op Reachable Leads GoodSizes create join SixParts IsPart IsInt DescOk readHead blockLength
  AboutSeries NamesSeries TsArrays Holds Printable TextOf PathFor SeriesName TsMemOk Ascii apiDesc shown shownOpt cells)

/-- Doubles (two words); the missing value is -901. -/
def doubleCfg : RegCfg UInt32 := ⟨samplePolicy, 2, [0, 0xC08C2800], fun v => v = [0, 0xC08C2800], false⟩

theorem doubleCfg_ok : SeriesCfg doubleCfg 0 := ⟨⟨by decide, by decide, by decide⟩, Or.inr rfl, by omega⟩

/-- `/A/B/FLOW//1Month/F/` -/
def runoff : List Bytes := [[65], [66], [70, 76, 79, 87], [], [49, 77, 111, 110, 116, 104], [70]]

theorem runoff_name : SeriesName runoff :=
  ⟨⟨rfl, by unfold IsPart; decide⟩, by decide, by unfold Printable; decide, by decide, by decide +kernel⟩

/-- `/A/B/FLOW/2019/1mon/F/` -/
def runoffPath : Bytes := join [[65], [66], [70, 76, 79, 87], [50, 48, 49, 57], [49, 109, 111, 110], [70]]

theorem runoff_path : PathFor runoff 2592000 runoffPath :=
  ⟨[50, 48, 49, 57], [49, 109, 111, 110], rfl, by unfold IsPart; decide, by unfold IsPart; decide, by unfold Printable; decide, by unfold Printable; decide, by decide, by decide, by decide,
    by decide +kernel, by decide⟩

/-- 30Nov2019 and 29Feb2020, 2400. -/
def nov30 : Bytes := [51, 48, 78, 111, 118, 50, 48, 49, 57]
def feb29 : Bytes := [50, 57, 70, 101, 98, 50, 48, 50, 48]
def midnight : Bytes := [50, 52, 48, 48]

theorem nov_text : TextOf nov30 midnight (RegInterval.time julianOf (.period .month) (12 * 2019 + 10)) := ⟨by decide, by decide, 86400, by decide +kernel⟩
theorem feb_text : TextOf feb29 midnight (RegInterval.time julianOf (.period .month) (12 * 2020 + 1)) := ⟨by decide, by decide, 86400, by decide +kernel⟩

/-- November 2019 to January 2020. -/
def runoffs : RegStore (List UInt32) := ⟨12 * 2019 + 10, 0, [[1, 5], [2, 6], [3, 7]], [], 0⟩

/-- cfs, INST-VAL, no time zone. -/
def cfs : Bytes := [99, 102, 115]
def instVal : Bytes := [73, 78, 83, 84, 45, 86, 65, 76]

theorem runoffs_fits : StoreFits doubleCfg (.period .month) 0 runoff [] (apiDesc 2592000 cfs instVal []) runoffs := by
  refine ⟨⟨by show (100 : Int) ≤ _; decide, by decide, by decide, Or.inl rfl, by decide, by decide, by decide, ?_⟩, by decide +kernel,
    api_desc_ok (by unfold Ascii; decide) (by unfold Ascii; decide) (by unfold Ascii; decide) (by decide), by simp⟩
  exact (flows_fits [] rfl).ok.notBlank.imp id (Or.imp id fun h d hv hy h4 h5 => by
    obtain ⟨k, k1, k2, k3, _⟩ := h d hv hy h4 h5
    exact ⟨k, k1, k2, k3, (by decide : ∀ k : Nat, k < 3 → doubleCfg.isMissing (runoffs.values[k]?.getD []) = false) k k1⟩)

def aTsMem : TsMem := ⟨fun _ => 1, 2, List.replicate 129 3, List.replicate 129 4, List.replicate 129 5, fun _ => List.replicate 129 6, List.replicate 393 7, ⟨fun _ => 8, 9⟩⟩

theorem aTsMem_ok : TsMemOk aTsMem := ⟨List.length_replicate, List.length_replicate, List.length_replicate, fun _ => List.length_replicate, List.length_replicate⟩

theorem runoff_start : SeriesHistory tiny.1 tiny.2 doubleCfg (.period .month) 0 runoff [] tiny.2 [] := by
  refine .start ⟨trivial, [], rfl⟩ (fun p hp => ?_)
  obtain ⟨s, ress, h1, h2⟩ := C27_last_write_partial (mul := id) tiny_good [] trivial
  have : some (tiny.2, []) = some (s, ress) := h1
  injection this with this; injection this with this _; subst this
  obtain ⟨x, hx1, hx2, hx3⟩ := hp
  refine h2 p ?_
  have := (same_iff.mp hx3).length
  rw [this, block_length runoff_name.six hx1]
  decide

/-- The hypotheses of the store are met: a new file with the three flows. -/
theorem runoff_history : ∃ past s, SeriesHistory tiny.1 tiny.2 doubleCfg (.period .month) 0 runoff past s [(apiDesc 2592000 cfs instVal [], runoffs)] := by
  obtain ⟨s', more, _, _, _, _, h⟩ := C66_store_partial (mul := id) tiny_good doubleCfg_ok (r := .period .month) trivial runoff_name (by decide) runoff_start
    runoffs_fits ⟨rfl, rfl⟩ (by decide +kernel) aTsEnv_ok aTsMem_ok runoff_path nov_text
  exact ⟨_, _, h⟩

/-- Arrays for five values. -/
def fiveBuffers : TsBuffers := ⟨List.replicate 5 77, List.replicate 5 [7, 7], 0, 0, 0, List.replicate 10 1, List.replicate 10 2, List.replicate 10 3⟩

/-- And those of the retrieve. -/
theorem runoff_retrieve : ∃ s out, hecTsRetrieve tiny.1 doubleCfg (fun _ => (List.replicate 700 6, List.replicate 200 8)) aTsMem runoffPath nov30 midnight feb29 midnight 5 0 10 10 10 fiveBuffers s = some (.ok, out) ∧
    out.number = 4 ∧ out.units = shownOpt (List.replicate 10 1) 10 (shown (some cfs)) := by
  obtain ⟨past, s, h⟩ := runoff_history
  obtain ⟨out, h1, h2, _, _, h5, _⟩ := C66_retrieve_partial (mul := id) tiny_good doubleCfg_ok (r := .period .month) trivial runoff_name h (units := cfs) (type := instVal) (zone := [])
    (by unfold Ascii; decide) (by unfold Ascii; decide) (by unfold Ascii; decide) (by simp [RegInterval.secs, Period.secs]) (a := 12 * 2019 + 10) (b := 12 * 2020 + 1) (by show (100 : Int) ≤ _; decide) (by decide) (by decide +kernel)
    (by decide +kernel) ⟨0, by decide +kernel⟩ aTsMem_ok (env := fun _ => (List.replicate 700 6, List.replicate 200 8)) (fun _ => List.length_replicate)
    runoff_path nov_text feb_text (by decide +kernel) (size := 5) (qualityWidth := 0) (unitsSize := 10) (typeSize := 10) (zoneSize := 10) (by decide) (buf := fiveBuffers) (by decide) (by decide) (by decide) (by decide)
  exact ⟨s, out, h1, h2, h5⟩

/-- What the calls of the model do: minutes since 31Dec1899. -/
theorem runoff_case :
    ((hecTsStoreRegular tiny.1 doubleCfg aTsEnv aTsMem runoffPath nov30 midnight runoffs.values cfs instVal [] 0 tiny.2).bind fun p =>
      hecTsRetrieve tiny.1 doubleCfg (fun _ => (List.replicate 700 6, List.replicate 200 8)) aTsMem runoffPath nov30 midnight feb29 midnight 5 0 10 10 10 fiveBuffers p.1) =
    some (.ok, ⟨[julianOf ⟨2019, 12, 1⟩ * 1440, julianOf ⟨2020, 1, 1⟩ * 1440, julianOf ⟨2020, 2, 1⟩ * 1440, julianOf ⟨2020, 3, 1⟩ * 1440, 77],
      [[1, 5], [2, 6], [3, 7], [0, 0xC08C2800], [7, 7]], 4, 0, 60, [99, 102, 115, 0, 1, 1, 1, 1, 1, 1], [73, 78, 83, 84, 45, 86, 65, 76, 0, 2], List.replicate 10 3⟩) := by
  decide +kernel

/-- C66, failing part: if quality flags are asked for and the series has none, they are read through a null pointer. -/
theorem C66_quality_violation :
    ((hecTsStoreRegular tiny.1 doubleCfg aTsEnv aTsMem runoffPath nov30 midnight runoffs.values cfs instVal [] 0 tiny.2).map fun p =>
      (p.2, hecTsRetrieve tiny.1 doubleCfg (fun _ => (List.replicate 700 6, List.replicate 200 8)) aTsMem runoffPath nov30 midnight feb29 midnight 5 1 10 10 10 fiveBuffers p.1)) =
    some (.ok, none) := by
  decide +kernel

/-- `/A/B/FLOW//1Month/T:20200101-1200|N:X|F/`, and the same with the tags in the order of the library. -/
def runoffTags1 : Bytes := join [[65], [66], [70, 76, 79, 87], [], [49, 77, 111, 110, 116, 104], [84, 58, 50, 48, 50, 48, 48, 49, 48, 49, 45, 49, 50, 48, 48, 124, 78, 58, 88, 124, 70]]
def runoffTags2 : Bytes := join [[65], [66], [70, 76, 79, 87], [], [49, 77, 111, 110, 116, 104], [78, 58, 88, 124, 84, 58, 50, 48, 50, 48, 48, 49, 48, 49, 45, 49, 50, 48, 48, 124, 70]]

/-- C66, failing part: both pathnames are normalized to the second (C65), but the values stored under the first are
not found under the second. -/
theorem C66_tags_violation :
    tsNormalized aTsMem runoffTags1 = some (some runoffTags2) ∧ tsNormalized aTsMem runoffTags2 = some (some runoffTags2) ∧
    ((hecTsStoreRegular tiny.1 doubleCfg aTsEnv aTsMem runoffTags1 nov30 midnight runoffs.values cfs instVal [] 0 tiny.2).map fun p =>
      (p.2, (hecTsRetrieve tiny.1 doubleCfg (fun _ => (List.replicate 700 6, List.replicate 200 8)) aTsMem runoffTags1 nov30 midnight feb29 midnight 5 0 10 10 10 fiveBuffers p.1).map Prod.fst,
        (hecTsRetrieve tiny.1 doubleCfg (fun _ => (List.replicate 700 6, List.replicate 200 8)) aTsMem runoffTags2 nov30 midnight feb29 midnight 5 0 10 10 10 fiveBuffers p.1).map Prod.fst)) =
    some (.ok, some .ok, some .failed) := by
  decide +kernel

end Hec
