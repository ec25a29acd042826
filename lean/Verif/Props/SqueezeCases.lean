import Verif.Props.Squeeze
import Verif.Props.CopyCases
/-! Squeezing: a case that meets the hypotheses of Props/Squeeze.lean, and what happens without them (C71, C72). -/
namespace Hec
set_option synthInstance.maxSize 1000
set_option synthInstance.maxHeartbeats 200000
open _root_.Spec (Op Store Step Steps run runs Allowed AllAllowed Plain Reachable GoodSizes create join SixParts IsPart
  NoLookAlikes FullNames NewHeaders GoodWrite stored oddHeaders ReadsLike NoEndFlags FileName TempFile OneName sessions SessionsAllowed)

/-- `/data` and `/old`: directories. -/
def dirData : Bytes := [47, 100, 97, 116, 97]
def dirOld : Bytes := [47, 111, 108, 100]
/-- `flow` -/
def nameFlow : Bytes := [102, 108, 111, 119]

/-- `NoEndFlags`, evaluated. -/
def noEndFlags (s : Eng) : Bool := (List.range s.hdr.fileSize).all fun x => decide (s.disk x ≠ 2 ^ 64 - 97532)

theorem noEndFlags_ok {s : Eng} (h : noEndFlags s = true) : NoEndFlags s := fun x hx => by
  simpa using List.all_eq_true.mp h x (List.mem_range.mpr hx)

theorem full_flags : ((runs tiny.1 tiny.2 full).bind fun p => (zcopyFile other.1 someEnv p.1 other.2).map noEndFlags) = some true := by decide +kernel

/-- A directory with one file. -/
def oneFile (n : Bytes) (f : WFile) : Dir := fun m => if m = n then some f else none

/-- The theorems speak about this file: after the squeeze it has the same records, and the temporary file is gone. -/
example : ∃ s last w, Reachable tiny.1 tiny.2 full s ∧
    (zsqueeze other.1 other.2 someEnv (fun _ => 0) (FileName dirData nameFlow) (oneFile (FileName dirData nameFlow) s.image)).states.getLast? = some last ∧
    last (FileName dirData nameFlow) = some w ∧ ReadsLike other.1 w tiny.1 s ∧ last (TempFile nameFlow) = none := by
  obtain ⟨s, h⟩ := full_reachable
  obtain ⟨n1, n2⟩ := names_written (mul := id) tiny_good h full_good
  have h4 : ∀ t, zcopyFile other.1 someEnv s other.2 = some t → NoEndFlags t := by
    intro t ht
    have hf := full_flags
    obtain ⟨_, ress, hr⟩ := h
    rw [hr] at hf
    simp only [Option.bind_some] at hf
    rw [ht] at hf
    exact noEndFlags_ok (by simpa using hf)
  obtain ⟨q, last, w, k1, k2, k3, k4, k5, _, k6, _⟩ := C71_squeeze_partial (mul := id) (mul' := id) tiny_good other_good h
    (full_no_look_alikes h) n1 n2 someEnv h4 (fun _ => 0) (oneFile (FileName dirData nameFlow) s.image) dirData nameFlow (by unfold OneName; decide)
    (if_pos rfl)
  refine ⟨s, last, w, h, ?_, k4, k5, k6⟩
  rw [← k3, ← k1]
  rfl

/-- The sizes, evaluated: the space of the deleted and of the moved record is gone. -/
example : ((runs tiny.1 tiny.2 full).bind fun p => (zcopyFile tiny.1 someEnv p.1 tiny.2).map fun t => decide (t.image.size < p.1.image.size)) = some true := by
  decide +kernel

/-- Three sessions: the history is cut behind the second and the fourth call. -/
def threeSessions : List (List Op) := [full.take 2, (full.drop 2).take 2, full.drop 4]

example : Plain [] threeSessions.flatten := full_plain

/-- The records after the three sessions, evaluated. -/
example : (sessions tiny.1 tiny.2.image threeSessions).map (fun p => (p.2, p.1.open.hdr.numberRecords)) = some ([.ok, .ok, .ok, .ok, .ok], 2) ∧
    (sessions tiny.1 tiny.2.image threeSessions).bind (fun p => zread tiny.1 p.1.open nA) = some (some (stored (req na [1, 2] [] [9, 10, 11, 12]) 2)) := by
  decide +kernel

/-- C71: two files of one name in different directories share the temporary file.  If the squeeze of one is cut off when its
only copy is the temporary file, a squeeze of the other removes that copy. -/
theorem C71_shared_temp_violation (name : Bytes) (hn : OneName name) (dirs dirs' : Bytes) :
    tempName (FileName dirs name) = tempName (FileName dirs' name) := by
  rw [temp_name dirs hn, temp_name dirs' hn]

/-- Values, the bits of which are the end flag (-97532) as a word, and two more. -/
def flagValues : List UInt32 := [0xFFFE8304, 0xFFFFFFFF, 7, 8]

/-- C71 is false for some values: if two neighbouring 32 bit values are the bits of -97532, the file that is copied back ends
there.  The squeeze succeeds, and the temporary file, which had all of it, is removed: the values behind are lost. -/
theorem C71_end_flag_violation :
    ((runs tiny.1 tiny.2 [.write (req nA [] [] flagValues)]).map fun p =>
      let q := zsqueeze tiny.1 tiny.2 someEnv (fun _ => 0) (FileName dirData nameFlow) (oneFile (FileName dirData nameFlow) p.1.image)
      (p.2, q.ok, (zread tiny.1 p.1 nA).map (·.map (·.v1)),
        (q.states.getLast?.bind fun d => d (FileName dirData nameFlow)).map fun w => (decide (w.size < p.1.image.size), (zread tiny.1 w.open nA).map (·.map (·.v1))),
        (q.states.getLast?.bind fun d => d (TempFile nameFlow)).isSome)) =
    some ([.ok], true, some (some flagValues), some (true, some (some [0xFFFE8304, 0xFFFFFFFF, 0, 0])), false) := by decide +kernel

end Hec
