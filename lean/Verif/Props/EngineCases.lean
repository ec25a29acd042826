import Verif.Props.Engine
/-!
The record engine on concrete histories: cases that meet the hypotheses of the theorems of
Props/Engine.lean, and what happens without them.  The theorems named `..._violation` are evaluations
of the model on one history, which is all that is needed to refute a general claim.
-/
namespace Hec
set_option synthInstance.maxSize 1000
set_option synthInstance.maxHeartbeats 200000
open _root_.Spec (Op Store Step Steps run runs Allowed AllAllowed Plain Reachable GoodSizes create Linked Apart Inside WellFormed
  stored next lastWritten countWrites oddHeaders compatible)
open Hec.Spec (sameUpToCase)

/-- A small file: a hash table of two entries, bins of 58 words. -/
def tiny : Cfg × Eng := create 12 2 58 id

theorem tiny_good : GoodSizes 12 2 58 := ⟨by omega, by omega, by omega, by omega⟩

/-- Pathnames: `/A/`, `/a/`, `/B/`, and two of the greatest length. -/
def pA : Bytes := [47, 65, 47]
def pa : Bytes := [47, 97, 47]
def pB : Bytes := [47, 66, 47]
def longA : Bytes := 47 :: List.replicate 390 65 ++ [47]
def longB : Bytes := 47 :: List.replicate 390 66 ++ [47]

/-- A record: internal header, user header, values. -/
def req (p : Bytes) (ih uh v : List UInt32) : Req :=
  ⟨p, 100, ih, [], uh, v, [], [], v.length, 0, 0, 0, 5, 0, 0, 0, (0, 0)⟩

/-- A history that satisfies the static conditions: two records in one file, one overwritten with more
data under another spelling, one deleted, written again. -/
def sample : List Op :=
  [.write (req pA [1, 2] [] [3]), .write (req pB [] [4, 5] [6, 7, 8]), .write (req pa [1, 2] [] [9, 10, 11, 12]), .delete pB,
    .write (req pB [] [] [13])]

theorem sample_plain : Plain [] sample := by
  simp [sample, Plain, req, oddHeaders, pA, pa, pB, Op.deletes]

/-- The theorems speak about this history. -/
example : ∃ s ress, runs tiny.1 tiny.2 sample = some (s, ress) ∧
    ∀ q : Bytes, q.length ≤ 392 → zread tiny.1 s q = some (lastWritten q sample) :=
  C27_last_write_partial tiny_good sample sample_plain

theorem sample_reachable : ∃ s, Reachable tiny.1 tiny.2 sample s := by
  obtain ⟨s, ress, h, _⟩ := C27_last_write_partial (mul := id) tiny_good sample sample_plain
  exact ⟨s, plain_allowed (create_OK tiny_good) sample sample_plain, ress, h⟩

/-- The results of this history, evaluated: the records read back, with their versions, under both
spellings; the record count is 2. -/
example :
    (runs tiny.1 tiny.2 sample).map (fun p => (p.2, p.1.hdr.numberRecords)) = some ([.ok, .ok, .ok, .ok, .ok], 2) ∧
    (runs tiny.1 tiny.2 sample).bind (fun p => zread tiny.1 p.1 pA) = some (some (stored (req pa [1, 2] [] [9, 10, 11, 12]) 2)) ∧
    (runs tiny.1 tiny.2 sample).bind (fun p => zread tiny.1 p.1 pa) = some (some (stored (req pa [1, 2] [] [9, 10, 11, 12]) 2)) ∧
    (runs tiny.1 tiny.2 sample).bind (fun p => zread tiny.1 p.1 pB) = some (some (stored (req pB [] [] [13]) 1)) := by decide +kernel

/-- An undelete is allowed after that history's deletion. -/
example : ∀ s ress, runs tiny.1 tiny.2 (sample.take 4) = some (s, ress) → Allowed tiny.1 (sample.take 4) s (.undelete pB) := by
  intro s ress h
  refine ⟨by decide, ?_⟩
  have hp : Plain [] (sample.take 4) := by simp [sample, Plain, req, oddHeaders, pA, pa, pB, Op.deletes]
  obtain ⟨s1, r1, h1, h2⟩ := C27_last_write_partial (mul := id) tiny_good (sample.take 4) hp
  have : some (s1, r1) = some (s, ress) := h1.symm.trans h
  injection this with this
  injection this with e _
  subst e
  have e1 : ¬ sameUpToCase pA pB := by rw [same_iff]; decide
  have e2 : sameUpToCase pB pB := by rw [same_iff]; decide
  have e3 : ¬ sameUpToCase pa pB := by rw [same_iff]; decide
  have := h2 pB (by decide)
  rw [show tiny.1 = (create 12 2 58 id).1 from rfl, this]
  simp [lastWritten, sample, next, req, e1, e2, e3]

/-- C27 fails in general: a bin that is left without room by a deleted longer pathname is taken for
the new record, the pointer to the next bin is overwritten, and the records of that bin are lost.
Here `longB` was written and never deleted, every call succeeded, and it cannot be read any more. -/
theorem C27_lost_record_violation :
    (runs tiny.1 tiny.2 [.write (req longA [] [] [1]), .write (req longB [] [] [2, 3]), .delete longA, .write (req pB [] [] [4])]).bind
      (fun p => (zread tiny.1 p.1 longB).map fun r => (p.2, r)) = some ([.ok, .ok, .ok, .ok], none) := by decide +kernel

/-- Before the last write of that history the record is there. -/
theorem C27_lost_record_before :
    (runs tiny.1 tiny.2 [.write (req longA [] [] [1]), .write (req longB [] [] [2, 3]), .delete longA]).bind
      (fun p => (zread tiny.1 p.1 longB).map fun r => (p.2, r.map (·.v1))) = some ([.ok, .ok, .ok], some [2, 3]) := by decide +kernel

/-- C28 fails in general: a record is rewritten in place with headers of odd length and then reaches
one word over its space; writing another record destroys its last values. -/
theorem C28_overlap_violation :
    (runs tiny.1 tiny.2 [.write (req pA [1, 2] [] [3, 4]), .write (req pA [1] [2] [3, 4])]).bind
      (fun p => (zread tiny.1 p.1 pA).map fun r => (p.2, r.map (·.v1))) = some ([.ok, .ok], some [3, 4]) ∧
    (runs tiny.1 tiny.2 [.write (req pA [1, 2] [] [3, 4]), .write (req pA [1] [2] [3, 4]), .write (req pB [] [] [5])]).bind
      (fun p => (zread tiny.1 p.1 pA).map fun r => (p.2, r.map (·.v1))) =
        some ([.ok, .ok, .ok], some [4294869762, 4294967295]) := by decide +kernel

/-- C33 fails in general: the same rewriting, in terms of sizes. -/
theorem C33_overflow_violation : ∃ (info : Nat → Nat) (r : Req), newSize r ≤ originalSize info ∧ wordsOf r = wordsAllocated info + 1 := by
  refine ⟨newInfo tiny.1 (req pA [1, 2] [] [3, 4]) 0 2, req pA [1] [2] [3, 4], ?_, ?_⟩ <;> decide +kernel

/-- The condition of C33_fits_partial is met by a rewriting with less data. -/
example : newSize (req pA [1] [] [3]) ≤ originalSize (newInfo tiny.1 (req pA [1, 2, 3] [] [3, 4]) 0 2) ∧
    oddHeaders [1] [] [] ≤ newInfo tiny.1 (req pA [1, 2, 3] [] [3, 4]) 0 2 kinfoInternalHeadNumber % 2 := by decide +kernel

/-- C29, C32 fail if a record is undeleted while a record of that name is there: the count becomes 2
with one pathname that can be read, and after deleting it a record of that name is still found. -/
theorem C32_undelete_violation :
    (runs tiny.1 tiny.2 [.write (req pB [] [] [9]), .write (req pA [] [] [1]), .delete pB, .delete pA, .write (req pA [] [] [3]),
      .undelete pA]).map (fun p => (p.2, p.1.hdr.numberRecords, zread tiny.1 p.1 pB)) =
      some ([.ok, .ok, .ok, .ok, .ok, .ok], 2, some none) ∧
    (runs tiny.1 tiny.2 [.write (req pB [] [] [9]), .write (req pA [] [] [1]), .delete pB, .delete pA, .write (req pA [] [] [3]),
      .undelete pA, .delete pA]).map (fun p => (p.2, (zread tiny.1 p.1 pA).map (·.map (·.v1)))) =
      some ([.ok, .ok, .ok, .ok, .ok, .ok, .ok], some (some [1])) := by decide +kernel

/-- C41 fails for the record that is being written: if the process stops in the middle of writing over
it, it is read as a mixture, here the new header with the old values. -/
theorem C41_torn_record_violation :
    (runs tiny.1 tiny.2 [.write (req pA [8, 8] [] [1, 2]), .write (req pA [9, 9] [] [3, 4])]).map
      (fun p => (p.1.log.length - tiny.2.log.length,
        (zread tiny.1 ⟨applyLog tiny.2.disk ((p.1.log.drop tiny.2.log.length).take 10), p.1.hdr, []⟩ pA).map
          (·.map fun r => (r.version, r.ih, r.v1)))) = some (12, some (some (2, [9, 9], [1, 2]))) := by decide +kernel

end Hec
