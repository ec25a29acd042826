import Verif.Props.Copy
import Verif.Props.EngineCases
/-! Copying files: a case that meets the hypotheses of Props/Copy.lean, and what happens without them (C52). -/
namespace Hec
set_option synthInstance.maxSize 1000
set_option synthInstance.maxHeartbeats 200000
open _root_.Spec (Op Store Step Steps run runs Allowed AllAllowed Plain Reachable GoodSizes create join SixParts IsPart
  NoLookAlikes FullNames NewHeaders GoodWrite stored oddHeaders)
open Hec.Spec (sameUpToCase)

/-- `/A//////`, `/a//////`, `/B//////`, `/C//////`. -/
def nA : Bytes := join [[65], [], [], [], [], []]
def na : Bytes := join [[97], [], [], [], [], []]
def nB : Bytes := join [[66], [], [], [], [], []]
def nC : Bytes := join [[67], [], [], [], [], []]

/-- A history: three records, one overwritten with more data under another spelling, one deleted. -/
def full : List Op :=
  [.write (req nA [1, 2] [] [3]), .write (req nB [] [4, 5] [6, 7, 8]), .write (req na [1, 2] [] [9, 10, 11, 12]), .delete nB,
    .write (req nC [] [] [13])]

/-- The program that copies. -/
def someEnv : CopyEnv := ⟨fun _ => false, fun _ => 99, (1, 2), List.replicate 200 0, fun _ => (3, 4)⟩

/-- Another file, with bins of 100 words and a hash table of five entries. -/
def other : Cfg × Eng := create 12 5 100 id

theorem other_good : GoodSizes 12 5 100 := ⟨by omega, by omega, by omega, by omega⟩

/-- `NoLookAlikes`, evaluated: every start of a record belongs to one of the pathnames `ps`. -/
def noLookAlikes (c : Cfg) (s : Eng) (ps : List Bytes) : Bool :=
  (List.range s.hdr.fileSize).all fun x =>
    !(decide (s.disk x = 2 ^ 64 - 97534) && decide (s.disk (x + 1) % 2 ^ 32 ≤ 2 ∨ 2 ^ 31 ≤ s.disk (x + 1) % 2 ^ 32) &&
      decide (0 < s.disk (x + 2) % 2 ^ 32) && decide (s.disk (x + 2) % 2 ^ 32 ≤ 392)) ||
    ps.any fun p => decide (p.length ≤ 392) && (match zcheck c s p 0 with | some k => k.found && decide (k.infoAdd = x) | none => false)

theorem noLookAlikes_ok {c : Cfg} {s : Eng} {ps : List Bytes} (h : noLookAlikes c s ps = true) : NoLookAlikes c s := by
  intro x hx h1 h2 h3 h4
  have := List.all_eq_true.mp h x (List.mem_range.mpr hx)
  simp only [h1, h2, h3, h4, decide_true, Bool.and_self, Bool.not_true, Bool.false_or, List.any_eq_true, Bool.and_eq_true, decide_eq_true_eq] at this
  obtain ⟨p, _, hp, hk⟩ := this
  split at hk
  · next k hk' => exact ⟨p, k, hp, hk', by simpa using hk⟩
  · cases hk

theorem full_plain : Plain [] full := by
  simp [full, Plain, req, oddHeaders, nA, na, nB, nC, Op.deletes, join]

theorem full_reachable : ∃ s, Reachable tiny.1 tiny.2 full s := by
  obtain ⟨s, ress, h, _⟩ := C27_last_write_partial (mul := id) tiny_good full full_plain
  exact ⟨s, plain_allowed (create_OK tiny_good) full full_plain, ress, h⟩

theorem full_good : ∀ op ∈ full, GoodWrite op := by
  have h : ∀ c : UInt8, c ≠ 47 ∧ c ≠ 0 → ∃ ps : List Bytes, SixParts ps ∧ join [[c], [], [], [], [], []] = join ps :=
    fun c hc => ⟨_, ⟨rfl, by simpa [IsPart] using hc⟩, rfl⟩
  intro op hop
  simp only [full, List.mem_cons, List.not_mem_nil, or_false] at hop
  rcases hop with rfl | rfl | rfl | rfl | rfl
  · exact ⟨h 65 (by decide), by simp [req]⟩
  · exact ⟨h 66 (by decide), by simp [req]⟩
  · exact ⟨h 97 (by decide), by simp [req]⟩
  · trivial
  · exact ⟨h 67 (by decide), by simp [req]⟩

theorem full_alike : ((runs tiny.1 tiny.2 full).map fun p => noLookAlikes tiny.1 p.1 [nA, nC]) = some true := by decide +kernel

theorem full_no_look_alikes {s : Eng} (h : Reachable tiny.1 tiny.2 full s) : NoLookAlikes tiny.1 s := by
  obtain ⟨_, ress, hr⟩ := h
  have := full_alike
  rw [hr] at this
  exact noLookAlikes_ok (by simpa using this)

/-- The theorems speak about this history, and a new file with a hash table and bins of another size. -/
example : ∃ s t, Reachable tiny.1 tiny.2 full s ∧ zcopyFile other.1 someEnv s other.2 = some t ∧
    ∀ q : Bytes, q.length ≤ 392 → zread other.1 t q = zread tiny.1 s q := by
  obtain ⟨s, h⟩ := full_reachable
  obtain ⟨t, h1, _, h3⟩ := C52_copy_written_partial (mul := id) (mul' := id) tiny_good other_good h full_good (full_no_look_alikes h) someEnv
  exact ⟨s, t, h, h1, h3⟩

/-- The copy, evaluated. -/
example : ((runs tiny.1 tiny.2 full).bind fun p => (zcopyFile other.1 someEnv p.1 other.2).map fun t =>
      (t.hdr.numberRecords, (zread other.1 t nA).map (·.map fun r => (r.version, r.lastWrite, r.ih, r.v1)), (zread other.1 t nC).map (·.map (·.v1)),
        (zread other.1 t nB).map (·.map (·.v1)))) =
    some (2, some (some (2, 5, [1, 2], [9, 10, 11, 12])), some (some [13]), some none) := by decide +kernel

/-- Values, the bits of which are those of the info block of a record `/C//////` of type 100. -/
def fakeRecord : List UInt32 :=
  [0xFFFE8302, 0xFFFFFFFF, 0, 0, 8, 0, 0, 0, 100, 0] ++ List.replicate 50 0 ++ [0x2F2F432F, 0x2F2F2F2F]

/-- C52 fails if values look like the start of a record: the copy has a record that the original does not have. -/
theorem C52_extra_record_violation :
    ((runs tiny.1 tiny.2 [.write (req nA [] [] fakeRecord)]).bind fun p => (zcopyFile tiny.1 someEnv p.1 tiny.2).map fun t =>
      (p.2, p.1.hdr.numberRecords, t.hdr.numberRecords, (zread tiny.1 p.1 nC).map (·.map (·.v1)), (zread tiny.1 t nC).map (·.map (·.v1)))) =
    some ([.ok], 1, 2, some none, some (some [])) := by decide +kernel

/-- C52 fails if values look like the start of a record: the copy has lost the values of another record. -/
theorem C52_lost_values_violation :
    ((runs tiny.1 tiny.2 [.write (req nC [] [] [7, 8]), .write (req nA [] [] fakeRecord)]).bind fun p =>
      (zcopyFile tiny.1 someEnv p.1 tiny.2).map fun t =>
        (p.2, t.hdr.numberRecords, (zread tiny.1 p.1 nC).map (·.map (·.v1)), (zread tiny.1 t nC).map (·.map (·.v1)))) =
    some ([.ok, .ok], 2, some (some [7, 8]), some (some [])) := by decide +kernel

/-- C52 fails for pathnames without six parts: they are completed, and the record cannot be read under its old pathname
any more. -/
theorem C52_short_name_violation :
    ((runs tiny.1 tiny.2 [.write (req pA [] [] [7, 8])]).bind fun p => (zcopyFile tiny.1 someEnv p.1 tiny.2).map fun t =>
      ((zread tiny.1 p.1 pA).map (·.map (·.v1)), (zread tiny.1 t pA).map (·.map (·.v1)), (zread tiny.1 t nA).map (·.map (·.v1)))) =
    some (some (some [7, 8]), some none, some (some [7, 8])) := by decide +kernel

/-- C52 fails for the catalog: reading a record of the copy gives the time of the last write of the original, the
catalog shows the time of the copying. -/
theorem C52_catalog_time_violation :
    ((runs tiny.1 tiny.2 full).bind fun p => (zcopyFile other.1 someEnv p.1 other.2).bind fun t => (zcatalog tiny.1 p.1 everything).bind fun r1 =>
      (zcatalog other.1 t everything).map fun r2 => (r1.map (·.lastWrite), r2.map (·.lastWrite), (zread other.1 t nA).map (·.map (·.lastWrite)))) =
    some ([5, 5], [99, 99], some (some 5)) := by decide +kernel

end Hec
