import Verif.Props.CopyRecord
import Verif.Props.CopyCases
/-! Copying one record: cases that meet the hypotheses of Props/CopyRecord.lean, and what happens without them (C88, C89). -/
namespace Hec
set_option synthInstance.maxSize 1000
set_option synthInstance.maxHeartbeats 200000
open _root_.Spec (Op Store Step Steps run runs Allowed AllAllowed Plain Reachable GoodSizes create join SixParts IsPart stored oddHeaders compatible
  NoElev CopyNames SameDates NewHeader MayReceive MayDuplicate MayCopy InUse OldMinute)
open Hec.Spec (sameUpToCase)

/-- A local array. -/
def someBuf : Bytes := List.replicate 129 1

theorem simple_six (x : UInt8) (h : x ≠ 47 ∧ x ≠ 0) : SixParts [[x], [], [], [], [], []] := by
  refine ⟨rfl, fun p hp => ?_⟩
  simp only [List.mem_cons, List.not_mem_nil, or_false, or_self] at hp
  rcases hp with hp | hp <;> subst hp <;> intro c hc <;> simp at hc
  subst hc; exact h

theorem simple_names (x y : UInt8) (hx : x ≠ 47 ∧ x ≠ 0) (hy : y ≠ 47 ∧ y ≠ 0) : CopyNames [[x], [], [], [], [], []] [[y], [], [], [], [], []] where
  six := simple_six x hx
  six' := simple_six y hy
  short := by simp [join]
  short' := by simp [join]
  old := by
    intro e he ho
    simp at he; subst he
    obtain ⟨a, m, i, n, h, _⟩ := ho
    simp at h
  old' := by
    intro e he ho
    simp at he; subst he
    obtain ⟨a, m, i, n, h, _⟩ := ho
    simp at h
  elev := by
    left
    intro a m b h hm
    have h0 : ([] : Bytes) = a ++ m ++ b := h
    have : m = [] := by
      have := congrArg List.length h0
      simp at this
      exact List.eq_nil_of_length_eq_zero (by omega)
    subst this
    simp at hm

theorem full_reads {s : Eng} (h : Reachable tiny.1 tiny.2 full s) :
    zread tiny.1 s nA = some (some (stored (req na [1, 2] [] [9, 10, 11, 12]) 2)) ∧ zread tiny.1 s nB = some none ∧ zread tiny.1 s nC = some (some (stored (req nC [] [] [13]) 1)) := by
  obtain ⟨_, ress, hr⟩ := h
  have : ((runs tiny.1 tiny.2 full).map fun p => (zread tiny.1 p.1 nA, zread tiny.1 p.1 nB, zread tiny.1 p.1 nC)) =
      some (some (some (stored (req na [1, 2] [] [9, 10, 11, 12]) 2)), some none, some (some (stored (req nC [] [] [13]) 1))) := by decide +kernel
  rw [hr] at this
  simp only [Option.map_some, Option.some.injEq, Prod.mk.injEq] at this
  exact this

/-- C88 speaks about the history `full`, and the record `/A//////` duplicated as `/B//////`, which was deleted before. -/
example : ∃ s, InUse tiny.1 full s ∧ MayDuplicate tiny.1 full s [[65], [], [], [], [], []] [[66], [], [], [], [], []] ∧
    ∃ s' res, zduplicateRecord tiny.1 s someEnv nA nB someBuf 0 none = some (s', res) ∧ InUse tiny.1 full s' ∧
      zread tiny.1 s' nB = some (some { stored (req na [1, 2] [] [9, 10, 11, 12]) 1 with lastWrite := 99 }) ∧ zread tiny.1 s' nA = zread tiny.1 s nA := by
  obtain ⟨s, h⟩ := full_reachable
  obtain ⟨r1, r2, r3⟩ := full_reads h
  have hU := in_use_reachable (mul := id) tiny_good h
  have hm : MayDuplicate tiny.1 full s [[65], [], [], [], [], []] [[66], [], [], [], [], []] := by
    refine ⟨simple_names 65 66 (by decide) (by decide), fun R hR => ?_⟩
    have hR' : zread tiny.1 s nA = some (some R) := hR
    rw [r1] at hR'
    injection hR' with hR'
    injection hR' with hR'
    subst hR'
    refine ⟨fun _ _ h => by simp [stored, req] at h, fun R' _ => Or.inl (by simp [stored, req, oddHeaders]), fun _ p hp => ?_⟩
    simp only [full, List.flatMap_cons, List.flatMap_nil, Op.deletes, List.nil_append, List.append_nil, List.mem_singleton] at hp
    subst hp
    decide
  obtain ⟨s', res, k1, k2⟩ := C88_duplicate_partial hU hm r1 (buf := someBuf) (by simp [someBuf]) (e := someEnv) (fun _ => rfl) 0 none
  rcases k2 with ⟨_, _, k2⟩ | ⟨R', k2, _⟩
  · refine ⟨s, hU, hm, s', res, k1, InUse.duplicate hU hm (by simp [someBuf]) k1, ?_, ?_⟩
    · exact (k2 nB (by decide)).1 (same_iff.mpr rfl)
    · exact (k2 nA (by decide)).2 (fun h => by have := same_iff.mp h; revert this; unfold Same; decide)
  · have k2' : zread tiny.1 s nB = some (some R') := k2
    rw [r2] at k2'; cases k2'

/-- C89 speaks about the history `full`, and its record `/A//////` copied to a file with bins of another size, as `/B//////`. -/
example : ∃ f, InUse tiny.1 full f ∧ MayCopy tiny.1 f other.1 [] other.2 [[65], [], [], [], [], []] [[66], [], [], [], [], []] ∧
    ∃ s' res, zcopyRecord tiny.1 f other.1 other.2 false someEnv nA nB someBuf 0 none = some (s', res) ∧ InUse other.1 [] s' ∧
      zread other.1 s' nB = zread tiny.1 f nA := by
  obtain ⟨f, h⟩ := full_reachable
  obtain ⟨r1, _, _⟩ := full_reads h
  have hU := in_use_reachable (mul := id) tiny_good h
  have hO : InUse other.1 [] other.2 := InUse.new (mul := id) other_good
  have r0 : zread other.1 other.2 nB = some none := by decide +kernel
  have hm : MayCopy tiny.1 f other.1 [] other.2 [[65], [], [], [], [], []] [[66], [], [], [], [], []] := by
    refine ⟨simple_names 65 66 (by decide) (by decide), ⟨_, r1⟩, fun R hR => ?_⟩
    have hR' : zread tiny.1 f nA = some (some R) := hR
    rw [r1] at hR'
    injection hR' with hR'
    injection hR' with hR'
    subst hR'
    refine ⟨fun _ _ h => by simp [stored, req] at h, by decide, fun h1 h2 => ?_, fun R' _ => Or.inl (by simp [stored, req, oddHeaders]), fun _ p hp => by simp at hp⟩
    refine ⟨rfl, fun a h => ?_, rfl⟩
    simp at h
  obtain ⟨s', res, k1, k2, _⟩ := C89_copy_partial hU hO hm r1 (buf := someBuf) (by simp [someBuf]) someEnv 0 none
  obtain ⟨_, k3⟩ := k2 (fun R' hR' => by
    have hR'' : zread other.1 other.2 nB = some (some R') := hR'
    rw [r0] at hR''; cases hR'')
  refine ⟨f, hU, hm, s', res, k1, InUse.copy hU hO hm (by simp [someBuf]) k1, ?_⟩
  rw [r1]
  exact (k3 nB (by decide)).1 (same_iff.mpr rfl)

/-- C88 fails for the version and the time of the last write: the duplicate does not have those of the original
(zcopyRecordInternal.c:284-292 are there to keep them), the copy to another file does. -/
theorem C88_time_violation :
    ((runs tiny.1 tiny.2 full).bind fun p => (zduplicateRecord tiny.1 p.1 someEnv nA nB someBuf 0 none).bind fun d => (zcopyRecord tiny.1 p.1 other.1 other.2 false someEnv nA nB someBuf 0 none).map fun k =>
      ((zread tiny.1 p.1 nA).map (·.map fun R => (R.version, R.lastWrite)), (zread tiny.1 d.1 nB).map (·.map fun R => (R.version, R.lastWrite)),
        (zread other.1 k.1 nB).map (·.map fun R => (R.version, R.lastWrite)))) =
    some (some (some (2, 5)), some (some (1, 99)), some (some (2, 5))) := by decide +kernel

/-- `XXXXXXXXXXXXXXXXXXX`, 01JAN2000, 01FEB2000, 1Hour. -/
def manyX : Bytes := List.replicate 19 88
def janD : Bytes := [48, 49, 74, 65, 78, 50, 48, 48, 48]
def febD : Bytes := [48, 49, 70, 69, 66, 50, 48, 48, 48]
def hourE : Bytes := [49, 72, 111, 117, 114]

/-- `/A/B/C/01JAN2000/1Hour/XXXXXXXXXXXXXXXXXXX/`, `/A/B/XXXXXXXXXXXXXXXXXXX/01FEB2000/1Hour/F/`. -/
def januaryX : Bytes := join [[65], [66], [67], janD, hourE, manyX]
def februaryX : Bytes := join [[65], [66], manyX, febD, hourE, [70]]

/-- C89 fails for the dates: zcopyRecord.c:127 looks for the D and E parts of each pathname where they are in the other
one.  These two have different D parts; what is compared is the F part of the one and the C part of the other, and the
values of January are stored as those of February. -/
theorem C89_wrong_month_violation :
    ((run tiny.1 tiny.2 (.write { req januaryX [] [] [1, 2, 3] with dataType := 100 })).bind fun p =>
      (zcopyRecord tiny.1 p.1 other.1 other.2 false someEnv januaryX februaryX someBuf 0 none).map fun k =>
        (k.2, (zread tiny.1 p.1 januaryX).map (·.map (·.v1)), (zread other.1 k.1 februaryX).map (·.map (·.v1)))) =
    some (.ok, some (some [1, 2, 3]), some (some [1, 2, 3])) := by decide +kernel

/-- C89 fails for pathnames with A, B and C parts of other lengths: the D and E parts are the same, and found to be
different; or the comparison starts behind the end of a pathname. -/
theorem C89_lengths_violation :
    sameDE (join [[65], [66], [67], janD, hourE, [70]]) (join [[65], [66], [67, 67], janD, hourE, [70]]) 0 = some false ∧
    sameDE (join [[65], [66], [67], janD, hourE, [70]]) (join [[65], [66], List.replicate 30 67, janD, hourE, [70]]) 0 = none := by decide +kernel

end Hec
