import Verif.Props.CollectionCat
import Verif.Props.CopyCases
/-!
Cases of C79 to C81: the hypotheses are met, and where the properties fail.
-/
namespace Hec
set_option linter.unusedSimpArgs false
set_option linter.unusedVariables false
set_option synthInstance.maxSize 1000
set_option synthInstance.maxHeartbeats 200000
open _root_.Spec (Matches join IsPart Holds six IsMember Behind Op Reachable GoodSizes create runs)
open Hec.Spec (sameUpToCase)

/-- `/A/B/FLOW//1DAY/f/` with the F part `f`. -/
def flowParts (f : Bytes) : List Bytes := [[65], [66], [70, 76, 79, 87], [], [49, 68, 65, 89], f]

/-- The F parts `C:000012|RUN` and `RUN`. -/
def run12 : Bytes := [67, 58, 48, 48, 48, 48, 49, 50, 124, 82, 85, 78]
def runPlain : Bytes := [82, 85, 78]

theorem run12_member : IsMember run12 [48, 48, 48, 48, 49, 50] runPlain := ⟨Or.inl rfl, by decide⟩

theorem runPlain_behind : Behind runPlain runPlain := by
  refine Or.inr ⟨?_, rfl⟩
  rintro ⟨s, r, h, _⟩
  rcases h with h | h <;> simp [runPlain] at h

example : (flowParts runPlain).length = 6 ∧ (∀ p ∈ flowParts runPlain, IsPart p) ∧ (flowParts runPlain)[5]? = some runPlain ∧ runPlain.length ≤ 119 := by
  refine ⟨rfl, ?_, rfl, by decide⟩
  unfold IsPart; decide

/-- Member 12 made of the plain name, and member 7 made of member 12. -/
example : zsetCollectionSequence (fun _ => some 1) 0 0 (join (flowParts runPlain)) 12 = some (some (join (flowParts run12))) ∧
    zsetCollectionSequence (fun _ => some 1) 0 0 (join (flowParts run12)) 7 =
      some (some (join (flowParts [67, 58, 48, 48, 48, 48, 48, 55, 124, 82, 85, 78]))) := by
  have hp : ∀ f ∈ [runPlain, run12], ∀ p ∈ flowParts f, IsPart p := by unfold IsPart; decide
  have h1 := C79_set_partial (fun _ => 1) 0 0 (flowParts runPlain) rfl (hp _ (by simp)) runPlain runPlain rfl (by decide) runPlain_behind (by decide) 12 (by decide)
  have h2 := C79_set_partial (fun _ => 1) 0 0 (flowParts run12) rfl (hp _ (by simp)) run12 runPlain rfl (by decide) (Or.inl ⟨_, run12_member⟩) (by decide) 7 (by decide)
  exact ⟨h1.trans (by decide), h2.trans (by decide)⟩

/-- C79 fails for seven digits and for negative numbers: the terminator is written behind the new pathname. -/
theorem C79_large_number_violation :
    zsetCollectionSequence (fun _ => some 1) 0 0 (join (flowParts runPlain)) 1000000 = none ∧
    zsetCollectionSequence (fun _ => some 1) 0 0 (join (flowParts runPlain)) (-1) = none := by decide +kernel

/-- C79 fails for eight digits: the pathname is returned without a sequence number, as if it had been set. -/
theorem C79_larger_number_violation :
    zsetCollectionSequence (fun _ => some 1) 0 0 (join (flowParts runPlain)) 10000000 = some (some (join (flowParts runPlain))) ∧
    zsetCollectionSequence (fun _ => some 1) 0 0 (join (flowParts run12)) 10000000 ≠ some (some (join (flowParts run12))) := by decide +kernel

/-- C79 fails for an F part of 120 characters: its last one is lost. -/
theorem C79_long_part_violation :
    zsetCollectionSequence (fun _ => some 1) 0 0 (join (flowParts (List.replicate 119 65 ++ [66]))) 12 =
      some (some (join (flowParts ([67, 58, 48, 48, 48, 48, 49, 50, 124] ++ List.replicate 119 65)))) := by decide +kernel

/-- The hypotheses of C80 are met: member 12 as a seed finds `c:000007|run` but not `C:000012|RUNS`. -/
example : collFound (fun _ => none) 0 0 (join (flowParts run12)) (join (flowParts [99, 58, 48, 48, 48, 48, 48, 55, 124, 114, 117, 110])) = some true ∧
    collFound (fun _ => none) 0 0 (join (flowParts run12)) (join (flowParts (run12 ++ [83]))) = some false ∧
    (∀ q ∈ flowParts run12, IsPart q ∧ q.length ≤ 128) ∧ 9 ≤ run12.length ∧ run12.getLast? ≠ some 42 ∧ (∀ q ∈ flowParts run12, q.head? ≠ some 42) := by
  refine ⟨by decide +kernel, by decide +kernel, ?_, by decide, by decide, by decide⟩
  unfold IsPart; decide

example : (∀ p ∈ flowParts runPlain, IsPart p ∧ p.length ≤ 128 ∧ p.head? ≠ some 42 ∧ p.getLast? ≠ some 42) ∧ IsPart runPlain ∧ runPlain.getLast? ≠ some 42 := by
  unfold IsPart; decide

/-- C80 fails for sequences of other lengths: the seed `C:000012|RUN` does not find `C:1000000|RUN`, which the
seed `C:1000001|RUN` finds. -/
theorem C80_length_violation :
    collFound (fun _ => none) 0 0 (join (flowParts run12)) (join (flowParts [67, 58, 49, 48, 48, 48, 48, 48, 48, 124, 82, 85, 78])) = some false ∧
    collFound (fun _ => none) 0 0 (join (flowParts [67, 58, 49, 48, 48, 48, 48, 48, 49, 124, 82, 85, 78]))
      (join (flowParts [67, 58, 49, 48, 48, 48, 48, 48, 48, 124, 82, 85, 78])) = some true ∧
    IsMember [67, 58, 49, 48, 48, 48, 48, 48, 48, 124, 82, 85, 78] [49, 48, 48, 48, 48, 48, 48] runPlain := by
  refine ⟨by decide +kernel, by decide +kernel, Or.inl rfl, by decide⟩

/-- C80 fails for F parts of fewer than nine characters: the seed `C:1|RUN` finds only itself. -/
theorem C80_short_violation :
    collFound (fun _ => none) 0 0 (join (flowParts [67, 58, 49, 124, 82, 85, 78])) (join (flowParts [67, 58, 50, 124, 82, 85, 78])) = some false ∧
    collFound (fun _ => none) 0 0 (join (flowParts [67, 58, 49, 124, 82, 85, 78])) (join (flowParts [67, 58, 49, 124, 82, 85, 78])) = some true ∧
    IsMember [67, 58, 49, 124, 82, 85, 78] [49] runPlain ∧ IsMember [67, 58, 50, 124, 82, 85, 78] [50] runPlain := by
  refine ⟨by decide +kernel, by decide +kernel, ⟨Or.inl rfl, by decide⟩, Or.inl rfl, by decide⟩

/-- The hypotheses of C81 are met. -/
example : ∃ same, zpathnameCompareCollection (join (flowParts run12)) (join (flowParts [67, 58, 48, 48, 48, 48, 48, 55, 124, 114, 117, 110]))
    (join (flowParts run12)).length = some same ∧ same = true := by
  have hp : ∀ f ∈ [run12, [67, 58, 48, 48, 48, 48, 48, 55, 124, 114, 117, 110]], ∀ p ∈ flowParts f, IsPart p := by unfold IsPart; decide
  obtain ⟨b, h1, h2⟩ := C81_members_partial (flowParts run12) (flowParts [67, 58, 48, 48, 48, 48, 48, 55, 124, 114, 117, 110]) rfl rfl (hp _ (by simp)) (hp _ (by simp))
    run12 _ _ [48, 48, 48, 48, 48, 55] _ [114, 117, 110] rfl rfl run12_member ⟨Or.inl rfl, by decide⟩ rfl
  refine ⟨b, h1, h2.mpr ⟨fun i p q hi e1 e2 => ?_, same_iff.mpr (by unfold Same; decide)⟩⟩
  match i, hi with
  | 0, _ | 1, _ | 2, _ | 3, _ | 4, _ => simp [flowParts] at e1 e2; subst e1 e2; exact same_iff.mpr rfl

/-- C81 fails for a second pathname that is no member of a collection: what stands in front of its text
is not looked at.  And any letter before the colon makes a collection. -/
theorem C81_no_member_violation :
    zpathnameCompareCollection (join (flowParts run12)) (join (flowParts [90, 90, 90, 90, 90, 90, 90, 90, 90, 82, 85, 78])) (join (flowParts run12)).length = some true ∧
    zpathnameCompareCollection (join (flowParts [90, 58, 124, 82])) (join (flowParts [90, 58, 124, 82])) (join (flowParts [90, 58, 124, 82])).length = some true := by
  decide +kernel

/-- C81 fails for a second pathname that ends within the sequence of the first: memory behind it is read. -/
theorem C81_short_violation :
    zpathnameCompareCollection (join (flowParts run12)) (join (flowParts [67])) (join (flowParts run12)).length = none := by decide +kernel

end Hec
