import Verif.Proofs.Check
import Verif.Props.CopyCases
/-!
C73: a file made by the library passes the library's own check (zcheckFile).
-/
namespace Hec
set_option linter.unusedVariables false
set_option synthInstance.maxSize 1000
set_option synthInstance.maxHeartbeats 200000
open _root_.Spec (Op Reachable GoodSizes create run runs Sound AllSound NoLookAlikes NoUndelete AllAllowed stored SoundCall Plain oddHeaders join)

section
variable {hdrSize maxHash binSize : Nat} {mul : Nat → Nat}

/-- C73.  After every history of writes, deletes and renames of a new file, the check of the file finds nothing: no link, no
pathname, no bin and no entry of the hash table is wrong.  (The messages of the check are off; `grid` is what the check of the
contents of a grid says.) -/
theorem C73_check_partial (g : GoodSizes hdrSize maxHash binSize) {past : List Op} {s : Eng}
    (R : Reachable (create hdrSize maxHash binSize mul).1 (create hdrSize maxHash binSize mul).2 past s) (hn : NoUndelete past)
    (h1 : NoLookAlikes (create hdrSize maxHash binSize mul).1 s) (h2 : s.disk (s.hdr.fileSize - 1) ≠ 2 ^ 64 - 97534) (h3 : s.hdr.fileSize < 2 ^ 62)
    (h4 : AllSound (create hdrSize maxHash binSize mul).1 s) (grid : Bytes → Int)
    (h5 : ∀ p rec, p.length ≤ 391 → zread (create hdrSize maxHash binSize mul).1 s p = some (some rec) → grid p = 0) :
    zcheckFile (create hdrSize maxHash binSize mul).1 s grid false = some 0 := by
  have hc := create_OK (mul := mul) g
  obtain ⟨ha, ress, hr⟩ := R
  obtain ⟨G, s', ress', k1, H, hz⟩ := prim_runs hc past (newFile_inv (by have := g.bin; omega)) (by intro h _ e he; simp [newGhost] at he) ha hn
  have : some (s', ress') = some (s, ress) := k1.symm.trans hr
  injection this with this
  injection this with this _
  subst this
  unfold zcheckFile
  rw [links_right hc H h1 h2, Option.bind_some, if_neg (by decide), pathnames_right hc H h3 h4 grid h5, Option.bind_some, if_neg (by decide),
    bins_right hc H.inv hz, Option.bind_some, if_neg (by decide)]
  exact hashTable_right hc H h3 h4 grid h5

/-- C73.  After every history, undeletes included, and with or without messages: the links, the pathnames and the hash table
are right, and the check says what the check of the bins says. -/
theorem C73_parts_partial (g : GoodSizes hdrSize maxHash binSize) {past : List Op} {s : Eng}
    (R : Reachable (create hdrSize maxHash binSize mul).1 (create hdrSize maxHash binSize mul).2 past s)
    (h1 : NoLookAlikes (create hdrSize maxHash binSize mul).1 s) (h2 : s.disk (s.hdr.fileSize - 1) ≠ 2 ^ 64 - 97534) (h3 : s.hdr.fileSize < 2 ^ 62)
    (h4 : AllSound (create hdrSize maxHash binSize mul).1 s) (grid : Bytes → Int)
    (h5 : ∀ p rec, p.length ≤ 391 → zread (create hdrSize maxHash binSize mul).1 s p = some (some rec) → grid p = 0) :
    zcheckLinks (create hdrSize maxHash binSize mul).1 s = some 0 ∧ zcheckPathnames (create hdrSize maxHash binSize mul).1 s grid = some 0 ∧
      zcheckHashTable (create hdrSize maxHash binSize mul).1 s grid = some 0 ∧
      ∀ msg, zcheckFile (create hdrSize maxHash binSize mul).1 s grid msg = zcheckPathnameBins (create hdrSize maxHash binSize mul).1 s msg := by
  have hc := create_OK (mul := mul) g
  obtain ⟨G, H⟩ := reach g R
  have a1 := links_right hc H h1 h2
  have a2 := pathnames_right hc H h3 h4 grid h5
  have a3 := hashTable_right hc H h3 h4 grid h5
  refine ⟨a1, a2, a3, fun msg => ?_⟩
  unfold zcheckFile
  rw [a1, Option.bind_some, if_neg (by decide), a2, Option.bind_some, if_neg (by decide), a3]
  cases zcheckPathnameBins (create hdrSize maxHash binSize mul).1 s msg with
  | none => rfl
  | some n =>
    show (if n ≠ 0 then some n else some 0) = some n
    split
    · rfl
    · next h => rw [Decidable.not_not.mp h]

/-- C73.  The same, with the conditions in terms of the calls that made the file: the arrays written are not all empty, and so
on (see `SoundCall`). -/
theorem C73_check_written_partial (g : GoodSizes hdrSize maxHash binSize) {past : List Op} {s : Eng}
    (R : Reachable (create hdrSize maxHash binSize mul).1 (create hdrSize maxHash binSize mul).2 past s) (hn : NoUndelete past)
    (hw : ∀ op ∈ past, SoundCall op) (hlen : past.length < 2 ^ 31)
    (h1 : NoLookAlikes (create hdrSize maxHash binSize mul).1 s) (h2 : s.disk (s.hdr.fileSize - 1) ≠ 2 ^ 64 - 97534) (h3 : s.hdr.fileSize < 2 ^ 62) :
    zcheckFile (create hdrSize maxHash binSize mul).1 s (fun _ => 0) false = some 0 :=
  C73_check_partial g R hn h1 h2 h3 (sound_written g R hw hlen) _ (fun _ _ _ _ => rfl)

end

/-! ### A case -/

/-- A history: three records, one of them a time series, one overwritten with more data under another spelling, one deleted. -/
def checked : List Op :=
  [.write (reqT nA 300 1), .write { reqT nB 105 2 with ih := List.replicate 20 0 }, .write { reqT na 300 3 with v1 := [1, 2, 3, 4, 5] },
    .write (reqT nC 10 4), .delete nC]

theorem checked_plain : Plain [] checked := by
  simp [checked, Plain, reqT, oddHeaders, nA, na, nB, nC, Op.deletes, join]

theorem checked_sound : ∀ op ∈ checked, SoundCall op := by
  intro op hop
  simp only [checked, List.mem_cons, List.not_mem_nil, or_false] at hop
  rcases hop with rfl | rfl | rfl | rfl | rfl
  · exact ⟨by decide, ⟨by decide, by decide, by decide, by decide, by decide, by decide⟩⟩
  · exact ⟨by decide, ⟨by decide, by decide, by decide, by decide, by decide, by decide⟩⟩
  · exact ⟨by decide, ⟨by decide, by decide, by decide, by decide, by decide, by decide⟩⟩
  · exact ⟨by decide, ⟨by decide, by decide, by decide, by decide, by decide, by decide⟩⟩
  · trivial

theorem checked_eval : ((runs tiny.1 tiny.2 checked).map fun p =>
    noLookAlikes tiny.1 p.1 [nA, nB] && decide (p.1.hdr.fileSize < 2 ^ 62 ∧ p.1.disk (p.1.hdr.fileSize - 1) ≠ 2 ^ 64 - 97534)) = some true := by
  decide +kernel

/-- The theorem speaks about this history. -/
theorem checked_passes : ∃ s, Reachable tiny.1 tiny.2 checked s ∧ zcheckFile tiny.1 s (fun _ => 0) false = some 0 ∧ s.hdr.numberRecords = 2 := by
  obtain ⟨s, ress, h, _⟩ := C27_last_write_partial (mul := id) tiny_good checked checked_plain
  have hr : Reachable tiny.1 tiny.2 checked s := ⟨plain_allowed (create_OK tiny_good) checked checked_plain, ress, h⟩
  have he := checked_eval
  have h' : runs tiny.1 tiny.2 checked = some (s, ress) := h
  rw [h'] at he
  simp only [Option.map_some, Option.some.injEq, Bool.and_eq_true, decide_eq_true_eq] at he
  refine ⟨s, hr, C73_check_written_partial (mul := id) tiny_good hr ?_ checked_sound (by decide) (noLookAlikes_ok he.1) he.2.2 he.2.1, ?_⟩
  · intro op hop p
    simp only [checked, List.mem_cons, List.not_mem_nil, or_false] at hop
    rcases hop with rfl | rfl | rfl | rfl | rfl <;> simp
  · have : ((runs tiny.1 tiny.2 checked).map fun p => p.1.hdr.numberRecords) = some 2 := by decide +kernel
    rw [h'] at this
    simpa using this

/-! ### Where the check is wrong -/

/-- C73 fails after an undelete: the status of the record in its bin is 0 then, and the check reports an error. -/
theorem C73_undelete_violation :
    ((runs tiny.1 tiny.2 [.write (reqT nA 300 1), .delete nA, .undelete nA]).map fun p =>
      (zcheckFile tiny.1 p.1 (fun _ => 0) false, (zread tiny.1 p.1 nA).map (·.isSome))) = some (some 1, some true) := by
  decide +kernel

/-- C73 fails for a type above 1000; the error is found only if messages are shown. -/
theorem C73_messages_violation :
    ((runs tiny.1 tiny.2 [.write (reqT nA 1001 1)]).map fun p =>
      (zcheckFile tiny.1 p.1 (fun _ => 0) true, zcheckFile tiny.1 p.1 (fun _ => 0) false)) = some (some 1, some 0) := by
  decide +kernel

/-- C73 fails for a pathname of 392 characters: it is stored and read, but the check says that the record is wrong. -/
theorem C73_long_name_violation :
    ((runs tiny.1 tiny.2 [.write (reqT (List.replicate 392 65) 300 1)]).map fun p =>
      (zcheckFile tiny.1 p.1 (fun _ => 0) false, (zread tiny.1 p.1 (List.replicate 392 65)).map (·.isSome))) = some (some 1, some true) := by
  decide +kernel

/-- C73 fails for values that look like the start of a record. -/
theorem C73_look_alike_violation :
    ((runs tiny.1 tiny.2 [.write { reqT nA 300 1 with v1 := [4294869762, 4294967295, 1, 0, 1, 0] }]).map fun p =>
      (zcheckFile tiny.1 p.1 (fun _ => 0) false, zcheckPathnames tiny.1 p.1 (fun _ => 0))) = some (some 1, some 0) := by
  decide +kernel

/-- C73 fails for a time series with a short header: the check reads behind the end of the file. -/
theorem C73_short_header_violation :
    ((runs tiny.1 tiny.2 [.write (reqT nA 105 1)]).map fun p =>
      (zcheckFile tiny.1 p.1 (fun _ => 0) false, (zread tiny.1 p.1 nA).map (·.isSome))) = some (none, some true) := by
  decide +kernel

/-- The last time series header may be short if eight words are there up to the end of the file. -/
theorem C73_short_header :
    ((runs tiny.1 tiny.2 [.write { reqT nA 105 1 with ih := [1, 2], v1 := List.replicate 14 7 }]).map fun p =>
      (zcheckFile tiny.1 p.1 (fun _ => 0) false, (zread tiny.1 p.1 nA).map (·.isSome))) = some (some 0, some true) := by
  decide +kernel

/-- The characters of a pathname are checked only if messages are shown: blanks are right, the character DEL is not, and neither is a line end. -/
theorem C73_characters :
    ([[65, 32, 66], [65, 127], [65, 10], [65, 31], [126, 128]].map fun a => (runs tiny.1 tiny.2 [.write (reqT (_root_.Spec.join [a, [], [], [], [], []]) 300 1)]).map fun p =>
      (zcheckFile tiny.1 p.1 (fun _ => 0) true, zcheckFile tiny.1 p.1 (fun _ => 0) false)) =
    [some (some 0, some 0), some (some 1, some 0), some (some 1, some 0), some (some 1, some 0), some (some 0, some 0)] := by
  decide +kernel

/-- The types 0 to 1000 are right, also if messages are shown. -/
theorem C73_types :
    ([0, 1, 300, 999, 1000].map fun t => (runs tiny.1 tiny.2 [.write (reqT nA t 1)]).map fun p =>
      (zcheckFile tiny.1 p.1 (fun _ => 0) true, zcheckFile tiny.1 p.1 (fun _ => 0) false)) =
    List.replicate 5 (some (some 0, some 0)) := by
  decide +kernel

end Hec
