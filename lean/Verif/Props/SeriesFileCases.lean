import Verif.Props.SeriesFile
import Verif.Props.EngineCases
import Verif.Props.Records
/-! C63 on a file: monthly flows over the turn of a decade. -/
namespace Hec
set_option linter.unusedSimpArgs false
set_option linter.unusedVariables false
set_option synthInstance.maxSize 1000
set_option synthInstance.maxHeartbeats 200000
open _root_.Spec (Date Block Period RegInterval RegStore regSeries SameValue Op Reachable Leads GoodSizes create join SixParts IsPart IsInt DescOk readHead blockLength
  AboutSeries NamesSeries TsArrays Holds lastWritten)
open Hec.Spec (sameUpToCase)

/-- Floats; the missing value is -901. -/
def floatCfg : RegCfg UInt32 := ⟨samplePolicy, 1, [0xC4614000], fun v => v = [0xC4614000], false⟩

theorem floatCfg_ok : SeriesCfg floatCfg 0 := ⟨⟨by decide, by decide, by decide⟩, Or.inl rfl, by omega⟩

/-- `/A/B/FLOW/2019/1MON/F/`: the D part of the caller does not matter. -/
def mflow : List Bytes := [[65], [66], [70, 76, 79, 87], [50, 48, 49, 57], [49, 77, 79, 78], [70]]

theorem flow_six : SixParts mflow := ⟨rfl, by unfold IsPart; decide⟩

def flowPath : Bytes := join mflow

theorem flow_names : NamesSeries mflow flowPath := ⟨[50, 48, 49, 57], by unfold IsPart; decide, rfl, by decide⟩

/-- cfs, INST-VAL, no time zone. -/
def flowDesc : TsDesc := ⟨60, 0, 0, ⟨false, some [99, 102, 115], none, none, some [73, 78, 83, 84, 45, 86, 65, 76], none⟩⟩

theorem flowDesc_ok : DescOk flowDesc := ⟨by unfold IsInt; decide, rfl, by unfold _root_.Spec.NoZero; decide, by decide⟩

def aTsEnv : Int → TsEnv := fun _ => ⟨anEnv, List.replicate 300 7, List.replicate 732 9⟩

theorem aTsEnv_ok : TsArrays aTsEnv := fun _ => ⟨List.length_replicate, List.length_replicate⟩

/-- November 2019 to January 2020. -/
def flows : RegStore (List UInt32) := ⟨12 * 2019 + 10, 0, [[5], [6], [7]], [], 0⟩

theorem flows_fits (past : List Op) (h : past.flatMap Op.deletes = []) : StoreFits floatCfg (.period .month) 0 mflow past flowDesc flows := by
  refine ⟨⟨by show (100 : Int) ≤ _; decide, by decide, by decide, Or.inl rfl, by decide, by decide, by decide, ?_⟩, by decide +kernel, flowDesc_ok, by rw [h]; simp⟩
  refine Or.inr (Or.inr (fun d hv hy h4 h5 => ?_))
  exfalso
  have e : julianOf (Period.month.endDate (12 * 2019 + 10)) < julianOf (Block.decade.start d) := h4
  have e2 : julianOf (Block.decade.next d) < julianOf (Period.month.endDate (12 * 2019 + 12)) := h5
  have b1 := julian_before (endDate_facts .month (12 * 2019 + 10)).1 (Block.start_valid .decade d hv hy).1 (by simp only [endDate_year, perYear]; omega)
    (Block.start_valid .decade d hv hy).2 e
  have b2 := julian_before (jan1_valid _) (endDate_facts .month (12 * 2019 + 12)).1 (by simp only; omega) (by simp only [endDate_year, perYear]; omega) e2
  unfold Date.before at b1 b2
  have y1 := endDate_year .month (12 * 2019 + 10)
  have y2 := endDate_year .month (12 * 2019 + 12)
  simp only [perYear] at y1 y2
  rw [y1] at b1; rw [y2] at b2
  simp only [Block.start] at b1 b2
  have m1 : (Period.month.endDate (12 * 2019 + 10)).month = (12 * 2019 + 10) % 12 + 1 := rfl
  omega

/-- A new file is such a history. -/
theorem flow_start : SeriesHistory tiny.1 tiny.2 floatCfg (.period .month) 0 mflow [] tiny.2 [] := by
  refine .start ⟨trivial, [], rfl⟩ (fun p hp => ?_)
  obtain ⟨s, ress, h1, h2⟩ := C27_last_write_partial (mul := id) tiny_good [] trivial
  have : some (tiny.2, []) = some (s, ress) := h1
  injection this with this; injection this with this _; subst this
  obtain ⟨x, hx1, hx2, hx3⟩ := hp
  refine h2 p ?_
  have := (same_iff.mp hx3).length
  rw [this, block_length flow_six hx1]
  decide

/-- The flows are stored in it. -/
theorem flow_history : ∃ past s, SeriesHistory tiny.1 tiny.2 floatCfg (.period .month) 0 mflow past s [(flowDesc, flows)] := by
  obtain ⟨s', more, h1, h2, _⟩ := C63_store_partial (mul := id) tiny_good floatCfg_ok (r := .period .month) trivial flow_six (by decide) flow_start
    (flows_fits [] rfl) aTsEnv_ok ⟨fun _ => 1, 2⟩ (old := List.replicate 393 3) List.length_replicate flow_names
  exact ⟨_, _, .store flow_start (flows_fits [] rfl) aTsEnv_ok List.length_replicate flow_names h1 h2⟩

/-- What the calls of the model do: the values come back, with one missing value behind, and units and type. -/
theorem flow_case :
    ((ztsStoreReg tiny.1 floatCfg flowDesc aTsEnv ⟨fun _ => 1, 2⟩ (List.replicate 393 3) flowPath 2592000 (julianOf ⟨2019, 11, 30⟩) 86400 0 flows.values [] 0 tiny.2).bind fun p =>
      ztsRetrieveReg tiny.1 floatCfg ⟨fun _ => 4, 5⟩ (fun _ => (List.replicate 700 6, List.replicate 200 8)) (List.replicate 393 7) flowPath
        ⟨0, 0, 0, ⟨none, false⟩, ⟨none, false⟩, ⟨none, false⟩, ⟨none, false⟩, ⟨none, false⟩⟩ 2592000 (julianOf ⟨2019, 11, 30⟩) 86400 (julianOf ⟨2020, 2, 29⟩) 86400 p.1) =
    some (some ⟨[[5], [6], [7], [0xC4614000]], ⟨60, 0, 0, ⟨some [99, 102, 115], true⟩, ⟨none, false⟩, ⟨none, false⟩, ⟨some [73, 78, 83, 84, 45, 86, 65, 76], true⟩, ⟨none, false⟩⟩, true⟩) := by
  decide +kernel

end Hec
