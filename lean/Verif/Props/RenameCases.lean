import Verif.Props.Rename
/-!
Renaming on concrete histories: cases that meet the hypotheses of the theorems of Props/Rename.lean, and what
happens without them.
-/
namespace Hec
set_option synthInstance.maxSize 1000
set_option synthInstance.maxHeartbeats 200000
open _root_.Spec (Op run runs Allowed AllAllowed Plain Reachable create join keepDates renamed SixParts IsPart stored oddHeaders)
open Hec.Spec (sameUpToCase)

def env0 : RenEnv := ⟨0, (fun _ => 0), [84, 50], (fun _ => some 1)⟩

/-- `/A//FLOW/D1/1DAY/F/`, `/B//FLOW/D1/1DAY/F/`, `/B//FLOW/D2/1DAY/F/`, `/C//FLOW/D1/1DAY/F/`, `/B//FLOW///F/`,
`/a//FLOW/D1/1DAY/F/`. -/
def flow : Bytes := [70, 76, 79, 87]
def day : Bytes := [49, 68, 65, 89]
def psA1 : List Bytes := [[65], [], flow, [68, 49], day, [70]]
def psB1 : List Bytes := [[66], [], flow, [68, 49], day, [70]]
def psB2 : List Bytes := [[66], [], flow, [68, 50], day, [70]]
def psC1 : List Bytes := [[67], [], flow, [68, 49], day, [70]]
def psB0 : List Bytes := [[66], [], flow, [], [], [70]]
def psLow : List Bytes := [[97], [], flow, [68, 49], day, [70]]

def first : List Op := [.write (req (join psA1) [1, 2] [] [3, 4])]

theorem first_read : (runs tiny.1 tiny.2 first).bind (fun p => zread tiny.1 p.1 (join psA1)) =
    some (some (stored (req (join psA1) [1, 2] [] [3, 4]) 1)) ∧
    (runs tiny.1 tiny.2 first).bind (fun p => zread tiny.1 p.1 (join psB1)) = some none := by decide +kernel

theorem first_plain : Plain [] first := by
  simp [first, Plain, req, oddHeaders, psA1, join, flow, day]

theorem first_reachable : ∃ s, Reachable tiny.1 tiny.2 first s := by
  obtain ⟨s, ress, h, _⟩ := C27_last_write_partial (mul := id) tiny_good first first_plain
  exact ⟨s, plain_allowed (create_OK tiny_good) first first_plain, ress, h⟩

theorem parts_ok {ps : List Bytes} (h : ps.length = 6) (h2 : ps.all (fun p => p.all fun b => b != 0 && b != 47) = true) : SixParts ps := by
  refine ⟨h, fun p hp => ?_⟩
  have := List.all_eq_true.mp h2 p hp
  refine fun b hb => ?_
  have := List.all_eq_true.mp this b hb
  simp at this
  exact ⟨this.2, this.1⟩

/-- The hypotheses of C50_rename_partial: after this history the record may be renamed from `/A/...` to `/B/...`. -/
theorem first_allowed : ∃ s, Reachable tiny.1 tiny.2 first s ∧ Allowed tiny.1 first s (.rename psA1 psB1 env0) ∧
    zread tiny.1 s (join psA1) = some (some (stored (req (join psA1) [1, 2] [] [3, 4]) 1)) := by
  obtain ⟨s, h1, ress, h2⟩ := first_reachable
  have e := first_read
  rw [h2] at e
  simp only [Option.bind_some] at e
  refine ⟨s, ⟨h1, ress, h2⟩, ⟨parts_ok rfl (by decide +kernel), parts_ok rfl (by decide +kernel), by decide +kernel, by decide +kernel,
    by rw [same_iff]; decide +kernel, ?_⟩, e.1⟩
  intro R hR
  rw [e.1] at hR
  injection hR with hR
  injection hR with hR
  subst hR
  have hk : renamed (stored (req (join psA1) [1, 2] [] [3, 4]) 1).dataType psA1 psB1 = join psB1 := by decide +kernel
  rw [hk]
  refine ⟨by decide +kernel, Nat.le_refl _, Or.inr (Or.inl (by rw [same_iff]; exact Same.refl _)), ?_, Or.inr (Nat.le_refl _)⟩
  intro p hp
  simp [first, Op.deletes] at hp

/-- A record is renamed, then renamed back, then only the case of its letters is changed; evaluated. -/
example :
    (runs tiny.1 tiny.2 (first ++ [.rename psA1 psB1 env0])).map (fun p => (p.2, p.1.hdr.numberRecords, p.1.hdr.numberRenames)) = some ([.ok, .ok], 1, 1) ∧
    (runs tiny.1 tiny.2 (first ++ [.rename psA1 psB1 env0])).bind (fun p => zread tiny.1 p.1 (join psB1)) =
      some (some (stored (req (join psA1) [1, 2] [] [3, 4]) 1)) ∧
    (runs tiny.1 tiny.2 (first ++ [.rename psA1 psB1 env0])).bind (fun p => zread tiny.1 p.1 (join psA1)) = some none ∧
    (runs tiny.1 tiny.2 (first ++ [.rename psA1 psB1 env0, .rename psB1 psA1 env0, .rename psA1 psLow env0])).bind
        (fun p => (zread tiny.1 p.1 (join psA1)).map fun r => (p.2, r)) =
      some ([.ok, .ok, .ok, .ok], some (stored (req (join psA1) [1, 2] [] [3, 4]) 1)) := by decide +kernel

/-- A time series keeps its D and E parts: `/A//FLOW/D1/1DAY/F/` renamed to `/B//FLOW/D2/1DAY/F/` is `/B//FLOW/D1/1DAY/F/`. -/
example :
    (runs tiny.1 tiny.2 (first ++ [.rename psA1 psB2 env0])).bind (fun p => (zread tiny.1 p.1 (join psB1)).map (·.map (·.v1))) = some (some [3, 4]) ∧
    (runs tiny.1 tiny.2 (first ++ [.rename psA1 psB2 env0])).bind (fun p => zread tiny.1 p.1 (join psB2)) = some none := by decide +kernel

/-- Renaming a record that does not exist deletes the record under the new pathname: the call reports that
nothing was found, and `/A/...` is gone. -/
theorem C50_missing_violation :
    (runs tiny.1 tiny.2 (first ++ [.rename psB1 psA1 env0])).bind (fun p => (zread tiny.1 p.1 (join psA1)).map fun r => (p.2, r)) =
      some ([.ok, .notFound], none) := by decide +kernel

/-- For time series the record that is deleted first is the one under the pathname given, although the renamed record
gets another one: `/B//FLOW/D2/...` is lost, and nothing takes its place. -/
theorem C50_other_block_violation :
    (runs tiny.1 tiny.2 (first ++ [.write (req (join psB2) [] [] [7]), .rename psA1 psB2 env0])).bind
      (fun p => (zread tiny.1 p.1 (join psB2)).map fun r => (p.2, r)) = some ([.ok, .ok, .ok], none) := by decide +kernel

/-- And the one that is in the way is not deleted: if a record exists under the pathname the renamed record gets, its
entry is taken over.  It cannot be brought back, and the number of records in the file is wrong: 2 instead of 1, and
1 when everything has been deleted. -/
theorem C50_in_the_way_violation :
    (runs tiny.1 tiny.2 (first ++ [.write (req (join psB1) [] [] [7]), .rename psA1 psB2 env0])).map
      (fun p => (p.2, p.1.hdr.numberRecords, (zread tiny.1 p.1 (join psA1)).map (·.map (·.v1)), (zread tiny.1 p.1 (join psB1)).map (·.map (·.v1)),
        (zread tiny.1 p.1 (join psB2)).map (·.map (·.v1)))) = some ([.ok, .ok, .ok], 2, some none, some (some [3, 4]), some none) ∧
    (runs tiny.1 tiny.2 (first ++ [.write (req (join psB1) [] [] [7]), .rename psA1 psB2 env0, .delete (join psB1)])).map
      (fun p => (p.2, p.1.hdr.numberRecords, (zread tiny.1 p.1 (join psA1)).map (·.map (·.v1)), (zread tiny.1 p.1 (join psB1)).map (·.map (·.v1)),
        (zread tiny.1 p.1 (join psB2)).map (·.map (·.v1)))) = some ([.ok, .ok, .ok, .ok], 1, some none, some none, some none) := by decide +kernel

/-- `/A//FLOW/AAAAAAAA/AAAAAAAAAAAAAAAAAA/F/`. -/
def psLong : List Bytes := [[65], [], flow, List.replicate 8 65, List.replicate 18 65, [70]]

/-- If the D and E parts taken from the old pathname are longer than those given by more than 11 characters, the pathname is
cut off: renamed to `/B//FLOW///F/`, the record is called `/B//FLOW/AAAAAAAA/AAAAAA` in the catalog, and is not found under
`/B//FLOW/AAAAAAAA/AAAAAAAAAAAAAAAAAA/F/`. -/
theorem C50_truncated_violation :
    (runs tiny.1 tiny.2 [.write (req (join psLong) [1, 2] [] [3, 4]), .rename psLong psB0 env0]).map
      (fun p => (p.2, (zread tiny.1 p.1 (join psLong)).map (·.map (·.v1)), (zread tiny.1 p.1 (keepDates psLong psB0)).map (·.map (·.v1)),
        (zcatalog tiny.1 p.1 ⟨1, 0, 10000, 0, 0, 0, (fun _ => true)⟩).map (·.map (·.path)))) =
      some ([.ok, .ok], some none, some none, some [[47, 66, 47, 47, 70, 76, 79, 87, 47] ++ List.replicate 8 65 ++ [47] ++ List.replicate 6 65]) := by
  decide +kernel

/-- If the process stops after the old entry was marked and before the new one is written, the record is gone. -/
theorem C50_crash_violation :
    (runs tiny.1 tiny.2 (first ++ [.rename psA1 psB1 env0])).map
      (fun p => (p.1.log.length - tiny.2.log.length,
        (List.range 5).map fun n =>
          let s : Eng := ⟨applyLog tiny.2.disk ((p.1.log.drop tiny.2.log.length).take (p.1.log.length - tiny.2.log.length - 4 + n)), p.1.hdr, []⟩
          ((zread tiny.1 s (join psA1)).map (·.map (·.v1)), (zread tiny.1 s (join psB1)).map (·.map (·.v1))))) =
      some (11, [(some (some [3, 4]), some none), (some none, some none), (some none, some none), (some none, some (some [3, 4])),
        (some none, some (some [3, 4]))]) := by decide +kernel

/-- The catalog may show a wrong time of last write after a rename: if the new pathname was in use before, and that record was
renamed, its time (77) is shown, although the record itself has another one (5). -/
theorem C50_last_write_violation :
    (runs tiny.1 tiny.2 ([.write { req (join psB1) [] [] [9] with now := 77 }, .rename psB1 psC1 env0] ++ first ++ [.rename psA1 psB1 env0])).map
      (fun p => (p.2, (zread tiny.1 p.1 (join psB1)).map (·.map (fun r => (r.v1, r.lastWrite))),
        (zcatalog tiny.1 p.1 ⟨1, 0, 10000, 0, 0, 0, (fun _ => true)⟩).map (·.map (fun r => (r.path, r.lastWrite))))) =
      some ([.ok, .ok, .ok, .ok], some (some ([3, 4], 5)), some [(join psB1, 77), (join psC1, 77)]) := by decide +kernel

end Hec
