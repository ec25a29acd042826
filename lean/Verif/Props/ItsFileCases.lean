import Verif.Props.ItsFile
import Verif.Props.SeriesFileCases
/-! C64 on a file: water levels with quality flags over the turn of a decade. -/
namespace Hec
set_option linter.unusedSimpArgs false
set_option linter.unusedVariables false
set_option synthInstance.maxSize 1000
set_option synthInstance.maxHeartbeats 200000
open _root_.Spec (Date Block IrregStore seriesOf Increasing Op Reachable Leads GoodSizes create join SixParts IsPart IsInt DescOk readHead blockLength
  AboutSeries NamesSeries TsArrays Holds lastWritten)
open Hec.Spec (sameUpToCase)

/-- Floats with one word of quality flags. -/
def levelCfg : ItsCfg := ⟨samplePolicy, 1, 1⟩

theorem levelCfg_ok : ItsSettings levelCfg 60 := ⟨Or.inl rfl, by decide, Or.inr (Or.inl rfl)⟩

/-- The series, in blocks of decades. -/
def levels : List Bytes := [[65], [66], [70, 76, 79, 87], [], [73, 82, 45, 68, 69, 67, 65, 68, 69], [70]]

theorem levels_six : SixParts levels := ⟨rfl, by unfold IsPart; decide⟩

def levelPath : Bytes := join levels

theorem level_names : NamesSeries levels levelPath := ⟨[], by unfold IsPart; decide, rfl, by decide⟩

/-- 31 December 1999 (day 36524), 01:00 and 22:00; then 24:00 and five past, and 22:00 again. -/
def levels1 : IrregStore ItsVal := ⟨60, 36524, [⟨60, ([5], [3])⟩, ⟨1320, ([6], [3])⟩]⟩
def levels2 : IrregStore ItsVal := ⟨60, 36524, [⟨1320, ([7], [4])⟩, ⟨1440, ([8], [3])⟩, ⟨1445, ([9], [3])⟩]⟩

theorem levels_fit (past : List Op) (h : past.flatMap Op.deletes = []) (x : IrregStore ItsVal) (hx : x = levels1 ∨ x = levels2) :
    ItsStoreFits levelCfg .decade 60 levels past flowDesc x := by
  rcases hx with rfl | rfl
  all_goals
    refine ⟨⟨rfl, by unfold Increasing; decide, by decide, by decide, fun _ => by decide⟩, by decide, by decide +kernel, flowDesc_ok, rfl, by rw [h]; simp⟩

/-- A new file is such a history. -/
theorem level_start : ItsHistory tiny.1 tiny.2 levelCfg .decade 60 levels [] tiny.2 [] := by
  refine .start ⟨trivial, [], rfl⟩ (fun p hp => ?_)
  obtain ⟨s, ress, h1, h2⟩ := C27_last_write_partial (mul := id) tiny_good [] trivial
  have : some (tiny.2, []) = some (s, ress) := h1
  injection this with this; injection this with this _; subst this
  obtain ⟨x, hx1, hx2, hx3⟩ := hp
  refine h2 p ?_
  have := (same_iff.mp hx3).length
  rw [this, block_length levels_six hx1]
  decide

/-- The levels are stored in it. -/
theorem level_history : ∃ past s, ItsHistory tiny.1 tiny.2 levelCfg .decade 60 levels past s [(flowDesc, levels1)] := by
  obtain ⟨s', more, h1, h2, _⟩ := C64_store_partial (mul := id) tiny_good .decade levelCfg_ok levels_six (by decide) level_start
    (levels_fit [] rfl levels1 (Or.inl rfl)) aTsEnv_ok ⟨fun _ => 1, 2⟩ (old := List.replicate 393 3) List.length_replicate level_names
  exact ⟨_, _, .store level_start (levels_fit [] rfl levels1 (Or.inl rfl)) aTsEnv_ok List.length_replicate level_names h1 h2⟩

/-- What the calls of the model do: both stores, then everything is retrieved; the value of 22:00 is the later one. -/
theorem level_case :
    (((ztsStoreIrregF tiny.1 levelCfg flowDesc aTsEnv ⟨fun _ => 1, 2⟩ (List.replicate 393 3) levelPath 4 36524 levels1.vals tiny.2).bind fun p =>
      ztsStoreIrregF tiny.1 levelCfg flowDesc aTsEnv ⟨fun _ => 1, 2⟩ (List.replicate 393 3) levelPath 4 36524 levels2.vals p.1).bind fun p =>
      ztsRetrieveIrregF tiny.1 levelCfg ⟨fun _ => 4, 5⟩ (fun _ => (List.replicate 700 6, List.replicate 200 8)) (List.replicate 393 7) (List.replicate 393 8) levelPath 4
        ⟨36524, 3600, 36525, 600⟩ 0 ⟨0, 0, 0, ⟨none, false⟩, ⟨none, false⟩, ⟨none, false⟩, ⟨none, false⟩, ⟨none, false⟩⟩ p.1).map
      (Option.map fun r => (r.entries.map fun e => (r.at e, e.val), r.head.units.val, r.found)) =
    some (some ([(36524 * 86400 + 3600, ([5], [3])), (36524 * 86400 + 22 * 3600, ([7], [4])), (36525 * 86400, ([8], [3])), (36525 * 86400 + 300, ([9], [3]))],
      some [99, 102, 115], true)) := by
  decide +kernel

end Hec
