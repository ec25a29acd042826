import Verif.Proofs.EngineCopy4
import Verif.Props.Rename
import Verif.Props.Catalog
/-!
Copying all records into a new file, as zsqueeze does (C52).  The source is any file in use; the new file may have a
hash table and bins of another size.
-/
namespace Hec
set_option linter.unusedSimpArgs false
set_option linter.unusedVariables false
set_option synthInstance.maxSize 1000
set_option synthInstance.maxHeartbeats 200000
open _root_.Spec (Op Store Step Steps run runs Allowed AllAllowed Plain Reachable GoodSizes create join SixParts IsPart
  NoLookAlikes FullNames NewHeaders GoodWrite stored)
open Hec.Spec (sameUpToCase)

section
variable {hdrSize maxHash binSize hdrSize' maxHash' binSize' : Nat} {mul mul' : Nat → Nat}

theorem copied (g : GoodSizes hdrSize maxHash binSize) (g' : GoodSizes hdrSize' maxHash' binSize') {past : List Op} {s : Eng}
    (hs : Reachable (create hdrSize maxHash binSize mul).1 (create hdrSize maxHash binSize mul).2 past s)
    (h1 : NoLookAlikes (create hdrSize maxHash binSize mul).1 s) (h2 : FullNames (create hdrSize maxHash binSize mul).1 s)
    (h3 : NewHeaders (create hdrSize maxHash binSize mul).1 s) (env : CopyEnv) :
    ∃ Gd t, zcopyFile (create hdrSize' maxHash' binSize' mul').1 env s (create hdrSize' maxHash' binSize' mul').2 = some t ∧
      HInv (create hdrSize' maxHash' binSize' mul').1 Gd t [] ∧ t.hdr.numberRecords = s.hdr.numberRecords ∧
      ∀ q, q.length ≤ 392 → zread (create hdrSize maxHash binSize mul).1 s q = some ((abs (create hdrSize' maxHash' binSize' mul').1 Gd t.disk).live q) := by
  have hc := create_OK (mul := mul) g
  have hcd := create_OK (mul := mul') g'
  obtain ⟨ha, ress, hr⟩ := hs
  obtain ⟨G, s', ress', k1, k2, H⟩ := HInv.runs hc past (newFile_inv (by have := g.bin; omega)) ha
  have : some (s', ress') = some (s, ress) := k1.symm.trans hr
  injection this with this
  injection this with this _
  subst this
  have hlog : LogOK (abs (create hdrSize maxHash binSize mul).1 G s'.disk) := by
    refine LogOK.steps k2 ?_
    rw [newFile_abs]
    intro q R h
    simp [Store.empty] at h
  obtain ⟨Gd, t, hcp, C⟩ := copyFrom_ok hc hcd H hlog h1 h2 h3 env s'.hdr.fileSize 0 (newGhost hdrSize' maxHash' binSize') (create hdrSize' maxHash' binSize' mul').2
    (by omega) ⟨newFile_inv (by have := g'.bin; omega), fun _ _ _ _ _ h => by omega, fun q _ => by rw [newFile_abs]; rfl, by
      unfold below
      have : ∀ l : List Nat, (l.map fun h => (centries (G.chain h)).countP fun e => decide (live e ∧ e.infoAdd < 0)).sum = 0 := by
        intro l
        induction l with
        | nil => rfl
        | cons a l ih => simpa using ih
      rw [this]; rfl⟩
  obtain ⟨HF, hlive⟩ := permWrite_HInv hcd C.inv
  refine ⟨Gd, _, by unfold zcopyFile; rw [hcp]; rfl, HF, ?_, fun q hq => ?_⟩
  · show t.hdr.numberRecords = _
    rw [C.number, below_all H.inv, H.count]
  · rw [zread_abs hc H.inv hq, hlive]
    congr 1
    cases hR : (abs (create hdrSize maxHash binSize mul).1 G s'.disk).live q with
    | none =>
      symm
      apply C.only
      intro h hh e he hl hs'
      rw [entry_live hc H.inv hh he hl hs'] at hR
      cases hR
    | some R =>
      obtain ⟨A, B, e, T, hm, hl, hA, hB⟩ := live_entry hc H.inv hq hR
      have hh := hc.tHash_lt q hq
      have hmem : e ∈ centries (G.chain ((create hdrSize maxHash binSize mul).1.tHash q)) := by rw [T.ents]; simp
      have hlt : e.infoAdd < s'.hdr.fileSize := by
        refine Decidable.byContradiction fun hx => ?_
        have k1 := H.inv.h.beyond e.infoAdd (by omega)
        have k2 := ((H.inv.w.chains _ hh).rcd e hmem (live_not_gone hl)).info (i := 0) (by omega)
        rw [Nat.add_zero, k1] at k2
        cases k2
      rw [C.there _ hh e hmem hl hlt q T.same, ← T.rcd.eq]
      rfl

/-- C52.  Copying into a new file succeeds; the new file has the same number of records, and every read of it gives
what it gives in the original: data, headers, version, time of the last write. -/
theorem C52_copy_partial (g : GoodSizes hdrSize maxHash binSize) (g' : GoodSizes hdrSize' maxHash' binSize') {past : List Op} {s : Eng}
    (hs : Reachable (create hdrSize maxHash binSize mul).1 (create hdrSize maxHash binSize mul).2 past s)
    (h1 : NoLookAlikes (create hdrSize maxHash binSize mul).1 s) (h2 : FullNames (create hdrSize maxHash binSize mul).1 s)
    (h3 : NewHeaders (create hdrSize maxHash binSize mul).1 s) (env : CopyEnv) :
    ∃ t, zcopyFile (create hdrSize' maxHash' binSize' mul').1 env s (create hdrSize' maxHash' binSize' mul').2 = some t ∧
      t.hdr.numberRecords = s.hdr.numberRecords ∧
      ∀ q, q.length ≤ 392 → zread (create hdrSize' maxHash' binSize' mul').1 t q = zread (create hdrSize maxHash binSize mul).1 s q := by
  obtain ⟨Gd, t, k1, k2, k3, k4⟩ := copied (mul' := mul') g g' hs h1 h2 h3 env
  exact ⟨t, k1, k3, fun q hq => by rw [k4 q hq, zread_abs (create_OK g') k2.inv hq]⟩

/-- C52.  The new file can be used like any other: histories on it behave as on a store that has the records of the
original, and no deleted ones. -/
theorem C52_goes_on_partial (g : GoodSizes hdrSize maxHash binSize) (g' : GoodSizes hdrSize' maxHash' binSize') {past : List Op} {s t : Eng}
    (hs : Reachable (create hdrSize maxHash binSize mul).1 (create hdrSize maxHash binSize mul).2 past s)
    (h1 : NoLookAlikes (create hdrSize maxHash binSize mul).1 s) (h2 : FullNames (create hdrSize maxHash binSize mul).1 s)
    (h3 : NewHeaders (create hdrSize maxHash binSize mul).1 s) (env : CopyEnv)
    (ht : zcopyFile (create hdrSize' maxHash' binSize' mul').1 env s (create hdrSize' maxHash' binSize' mul').2 = some t)
    (ops : List Op) (ha : AllAllowed (create hdrSize' maxHash' binSize' mul').1 [] t ops) :
    ∃ st st' t' ress, (∀ q, q.length ≤ 392 → zread (create hdrSize maxHash binSize mul).1 s q = some (st.live q)) ∧ (∀ q, st.trash q = []) ∧
      runs (create hdrSize' maxHash' binSize' mul').1 t ops = some (t', ress) ∧ Steps st ops ress st' ∧
      ∀ q, q.length ≤ 392 → zread (create hdrSize' maxHash' binSize' mul').1 t' q = some (st'.live q) := by
  have hcd := create_OK (mul := mul') g'
  obtain ⟨Gd, t0, k1, k2, k3, k4⟩ := copied (mul' := mul') g g' hs h1 h2 h3 env
  rw [ht] at k1
  injection k1 with k1
  subst k1
  obtain ⟨G', t', ress, j1, j2, j3⟩ := HInv.runs hcd ops k2 ha
  refine ⟨_, _, t', ress, k4, fun q => ?_, j1, j2, fun q hq => zread_abs hcd j3.inv hq⟩
  simp only [abs]
  split
  · next hq =>
    rw [List.map_eq_nil_iff, List.filter_eq_nil_iff]
    intro e he hm
    have hm := EMatch_deleted.mp (by simpa using hm)
    obtain ⟨p, hp, _⟩ := k2.trash _ (hcd.tHash_lt q hq) e he hm.2
    simp at hp
  · rfl

/-- If all writes and renames were given pathnames with six parts, and the time series headers were of the new form, so
are the records of the file. -/
theorem names_written (g : GoodSizes hdrSize maxHash binSize) {past : List Op} {s : Eng}
    (hs : Reachable (create hdrSize maxHash binSize mul).1 (create hdrSize maxHash binSize mul).2 past s) (hw : ∀ op ∈ past, GoodWrite op) :
    FullNames (create hdrSize maxHash binSize mul).1 s ∧ NewHeaders (create hdrSize maxHash binSize mul).1 s := by
  have hc := create_OK (mul := mul) g
  obtain ⟨ha, ress, hr⟩ := hs
  obtain ⟨G, s', ress', k1, k2, H⟩ := HInv.runs hc past (newFile_inv (by have := g.bin; omega)) ha
  have : some (s', ress') = some (s, ress) := k1.symm.trans hr
  injection this with this
  injection this with this _
  subst this
  have N : NamesOK (abs (create hdrSize maxHash binSize mul).1 G s'.disk) := by
    refine NamesOK.steps k2 hw ?_
    rw [newFile_abs]
    intro q R h
    simp [Store.empty] at h
  constructor
  · intro q R hq hR
    rw [zread_abs hc H.inv hq] at hR
    injection hR with hR
    exact (N q R (Or.inl hR)).1
  · intro q R hq hR
    rw [zread_abs hc H.inv hq] at hR
    injection hR with hR
    exact (N q R (Or.inl hR)).2

/-- C52.  The same, with the condition on pathnames and headers in terms of the calls that made the original. -/
theorem C52_copy_written_partial (g : GoodSizes hdrSize maxHash binSize) (g' : GoodSizes hdrSize' maxHash' binSize') {past : List Op} {s : Eng}
    (hs : Reachable (create hdrSize maxHash binSize mul).1 (create hdrSize maxHash binSize mul).2 past s)
    (hw : ∀ op ∈ past, GoodWrite op) (h1 : NoLookAlikes (create hdrSize maxHash binSize mul).1 s) (env : CopyEnv) :
    ∃ t, zcopyFile (create hdrSize' maxHash' binSize' mul').1 env s (create hdrSize' maxHash' binSize' mul').2 = some t ∧
      t.hdr.numberRecords = s.hdr.numberRecords ∧
      ∀ q, q.length ≤ 392 → zread (create hdrSize' maxHash' binSize' mul').1 t q = zread (create hdrSize maxHash binSize mul).1 s q :=
  C52_copy_partial g g' hs h1 (names_written g hs hw).1 (names_written g hs hw).2 env

end

end Hec
