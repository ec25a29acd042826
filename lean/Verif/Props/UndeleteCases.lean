import Verif.Props.Undelete
import Verif.Props.EngineCases
/-! Undeleting everything (C78): cases that meet the hypotheses, and what happens without them. -/
namespace Hec
set_option synthInstance.maxSize 1000
set_option synthInstance.maxHeartbeats 200000
open _root_.Spec (Op Store Step Steps run runs Allowed AllAllowed Plain Reachable GoodSizes create Linked Apart Inside WellFormed
  stored next lastWritten countWrites oddHeaders compatible)
open Hec.Spec (sameUpToCase)

/-- `/b/`. -/
def pb : Bytes := [47, 98, 47]

/-- Two records, both deleted. -/
def bothDeleted : List Op := [.write (req pA [1] [] [1, 2]), .write (req pB [] [7, 8] [3]), .delete pB, .delete pa]

theorem bothDeleted_plain : Plain [] bothDeleted := by
  simp [bothDeleted, Plain, req, oddHeaders, pA, pa, pB, Op.deletes]

/-- The hypotheses of C78_undelete_all_partial are met by that history, with two deleted records. -/
example : ∃ s rows, Reachable tiny.1 tiny.2 bothDeleted s ∧ zcatalog tiny.1 s deletedOnes = some rows ∧ rows.length = 2 ∧
    (rows.Pairwise fun a b => ¬ sameUpToCase a.path b.path) ∧ ∀ r ∈ rows, zread tiny.1 s r.path = some none := by
  obtain ⟨s, ress, h, _⟩ := C27_last_write_partial (mul := id) tiny_good bothDeleted bothDeleted_plain
  have h' : runs tiny.1 tiny.2 bothDeleted = some (s, ress) := h
  have h1 : ((runs tiny.1 tiny.2 bothDeleted).bind fun p => (zcatalog tiny.1 p.1 deletedOnes).map fun rows =>
      (rows.map (·.path), rows.map fun r => zread tiny.1 p.1 r.path)) = some ([pA, pB], [some none, some none]) := by decide +kernel
  rw [h', Option.bind_some] at h1
  obtain ⟨rows, hr, h2⟩ := Option.map_eq_some_iff.mp h1
  simp only [Prod.mk.injEq] at h2
  refine ⟨s, rows, ⟨plain_allowed (create_OK tiny_good) bothDeleted bothDeleted_plain, ress, h⟩, hr, ?_, ?_, ?_⟩
  · have := congrArg List.length h2.1
    simpa using this
  · have : (rows.map (·.path)).Pairwise fun a b => ¬ sameUpToCase a b := by
      rw [h2.1]
      refine List.pairwise_cons.mpr ⟨fun b hb => ?_, List.pairwise_cons.mpr ⟨fun b hb => (by cases hb), List.Pairwise.nil⟩⟩
      rcases List.mem_cons.mp hb with rfl | hb
      · rw [same_iff]; decide
      · cases hb
    rw [List.pairwise_map] at this
    exact this
  · intro r hr'
    have : zread tiny.1 s r.path ∈ [some none, some none] := by rw [← h2.2]; exact List.mem_map_of_mem hr'
    simpa using this

/-- What comes of it, evaluated: 2 is returned, both records are read as before, the count is 2. -/
example : (runs tiny.1 tiny.2 bothDeleted).bind (fun p => (zundeleteAll tiny.1 p.1).map fun q =>
    (q.2, q.1.hdr.numberRecords, zread tiny.1 q.1 pA, zread tiny.1 q.1 pB)) =
    some (2, 2, some (some (stored (req pA [1] [] [1, 2]) 1)), some (some (stored (req pB [] [7, 8] [3]) 1))) := by decide +kernel

/-- The hypotheses of C78_restore_partial are met: a file with two records and no deleted ones, and its two pathnames. -/
example : ∃ s, Reachable tiny.1 tiny.2 (bothDeleted.take 2) s ∧ zcatalog tiny.1 s deletedOnes = some [] ∧
    [pb, pA].Pairwise (fun a b => ¬ sameUpToCase a b) ∧ ∀ p ∈ [pb, pA], zread tiny.1 s p ≠ some none := by
  have hpl : Plain [] (bothDeleted.take 2) := by simp [bothDeleted, Plain, req, oddHeaders, pA, pB, Op.deletes]
  obtain ⟨s, ress, h, _⟩ := C27_last_write_partial (mul := id) tiny_good (bothDeleted.take 2) hpl
  have h' : runs tiny.1 tiny.2 (bothDeleted.take 2) = some (s, ress) := h
  have h1 : ((runs tiny.1 tiny.2 (bothDeleted.take 2)).map fun p => (zcatalog tiny.1 p.1 deletedOnes, decide (zread tiny.1 p.1 pA ≠ some none),
      decide (zread tiny.1 p.1 pb ≠ some none))) = some (some [], true, true) := by decide +kernel
  rw [h', Option.map_some, Option.some.injEq, Prod.mk.injEq, Prod.mk.injEq] at h1
  refine ⟨s, ⟨plain_allowed (create_OK tiny_good) _ hpl, ress, h⟩, h1.1, ?_, ?_⟩
  · refine List.pairwise_cons.mpr ⟨fun b hb => ?_, List.pairwise_cons.mpr ⟨fun b hb => (by cases hb), List.Pairwise.nil⟩⟩
    rcases List.mem_cons.mp hb with rfl | hb
    · rw [same_iff]; decide
    · cases hb
  · intro p hp
    rcases List.mem_cons.mp hp with rfl | hp
    · exact of_decide_eq_true h1.2.2
    · rcases List.mem_cons.mp hp with rfl | hp
      · exact of_decide_eq_true h1.2.1
      · cases hp

/-- C78 fails if a deleted record was written again: it is listed and undeleted all the same, and the file then has two
records of one pathname.  The count is 2, the catalog names the pathname twice, and after deleting it the older data
can be read. -/
theorem C78_written_again_violation :
    (runs tiny.1 tiny.2 [.write (req pB [] [] [9]), .write (req pA [] [] [1]), .delete pB, .delete pA, .write (req pA [] [] [3])]).bind
      (fun p => (zundeleteAll tiny.1 p.1).map fun q => (q.2, q.1.hdr.numberRecords, (zcatalog tiny.1 q.1 everything).map (·.map (·.path)),
        ((zdeleteInternal tiny.1 q.1 pA false).bind fun t => zread tiny.1 t.1 pA).map (·.map (·.v1)))) =
      some (1, 2, some [pA, pA], some (some [1])) := by decide +kernel

/-- C78 fails if one pathname was deleted twice: both of its records come back. -/
theorem C78_deleted_twice_violation :
    (runs tiny.1 tiny.2 [.write (req pB [] [] [9]), .write (req pA [] [] [1]), .delete pB, .delete pA, .write (req pA [] [] [3]), .delete pA]).bind
      (fun p => (zundeleteAll tiny.1 p.1).map fun q => (q.2, q.1.hdr.numberRecords, (zcatalog tiny.1 q.1 everything).map (·.map (·.path)),
        (zread tiny.1 q.1 pA).map (·.map (·.v1)))) =
      some (2, 2, some [pA, pA], some (some [3])) := by decide +kernel

/-- A deleted record whose entry was taken by a new record does not come back; nothing says so. -/
theorem C78_place_taken_violation :
    (runs tiny.1 tiny.2 [.write (req pA [] [] [1]), .delete pA, .write (req pB [] [] [2])]).bind
      (fun p => (zundeleteAll tiny.1 p.1).map fun q => (q.2, p.1.hdr.numberDeletes, zread tiny.1 q.1 pA)) = some (0, 1, some none) := by decide +kernel

end Hec
