import Verif.Proofs.Squeeze
import Verif.Props.Copy
/-!
Squeezing a file (C71), and opening a file again (C72).
-/
namespace Hec
set_option linter.unusedSimpArgs false
set_option linter.unusedVariables false
open _root_.Spec (Op Store Step Steps run runs Allowed AllAllowed Plain Reachable GoodSizes create join SixParts IsPart
  NoLookAlikes FullNames NewHeaders GoodWrite stored ReadsLike NoEndFlags FileName TempFile OneName sessions SessionsAllowed lastWritten)

section
variable {hdrSize maxHash binSize hdrSize' maxHash' binSize' : Nat} {mul mul' : Nat → Nat}

theorem saved_runs {c : Cfg} (hc : c.OK) (ops : List Op) : ∀ {G : Ghost} {s s' : Eng} {past : List Op} {ress : List Res},
    HInv c G s past → AllAllowed c past s ops → HdrSaved s → runs c s ops = some (s', ress) → HdrSaved s' := by
  induction ops with
  | nil =>
    intro G s s' past ress H ha h hr
    simp only [runs] at hr
    injection hr with hr
    injection hr with h1 _
    subst h1
    exact h
  | cons op ops ih =>
    intro G s s' past ress H ha h hr
    obtain ⟨ha1, ha2⟩ := ha
    obtain ⟨G1, s1, res, h1, _, H1⟩ := HInv.step hc H ha1
    simp only [runs, h1, Option.bind_some] at hr
    rw [Option.map_eq_some_iff] at hr
    obtain ⟨x, hx, hr⟩ := hr
    obtain ⟨x1, x2⟩ := x
    injection hr with h2 h3
    simp only at h2
    subst h2
    exact ih H1 (ha2 _ _ h1) (saved_run hc H ha1 h1 h) hx

/-- C72.  After every history of calls, the file opened again is the same: its words, and the header that is read. -/
theorem C72_reopen (g : GoodSizes hdrSize maxHash binSize) {past : List Op} {s : Eng}
    (hs : Reachable (create hdrSize maxHash binSize mul).1 (create hdrSize maxHash binSize mul).2 past s) :
    s.image.open.disk = s.disk ∧ s.image.open.hdr = s.hdr := by
  have hc := create_OK (mul := mul) g
  obtain ⟨ha, ress, hr⟩ := hs
  refine ⟨rfl, ?_⟩
  exact saved_runs hc past (newFile_inv (by have := g.bin; omega)) ha (saved_perm hc _) hr

theorem sessions_ok {c : Cfg} (hc : c.OK) (rest : List (List Op)) : ∀ {G : Ghost} {f : WFile} {past : List Op},
    HInv c G f.open past → HdrSaved f.open → SessionsAllowed c past f rest →
    ∃ G' f' ress, sessions c f rest = some (f', ress) ∧ Steps (abs c G f.words) rest.flatten ress (abs c G' f'.words) ∧
      HInv c G' f'.open (past ++ rest.flatten) := by
  induction rest with
  | nil => intro G f past H _ _; exact ⟨G, f, [], rfl, .nil _, by simpa using H⟩
  | cons ops rest ih =>
    intro G f past H hs ha
    obtain ⟨G1, s1, r1, k1, k2, k3⟩ := HInv.runs hc ops H ha.1
    have hs1 := saved_runs hc ops H ha.1 hs k1
    obtain ⟨H2, A2⟩ := k3.quiet hc s1.image.open hs1 (fun _ _ _ => rfl)
    obtain ⟨G', f', r2, j1, j2, j3⟩ := ih (f := s1.image) H2 (by
      show readHdr s1.disk = readHdr s1.disk; rfl) (ha.2 _ _ k1)
    refine ⟨G', f', r1 ++ r2, ?_, ?_, ?_⟩
    · simp only [sessions, k1, Option.bind_some, j1, Option.map_some]
    · rw [List.flatten_cons]
      exact Steps.append k2 j2
    · rw [List.flatten_cons, ← List.append_assoc]; exact j3

/-- C72.  A history may be cut into sessions at any place: the file is closed and opened again, by the same or another
program, and all calls behave as if it had stayed open: their results and what is read are those of one store that
started empty. -/
theorem C72_sessions_partial (g : GoodSizes hdrSize maxHash binSize) (rest : List (List Op))
    (ha : SessionsAllowed (create hdrSize maxHash binSize mul).1 [] (create hdrSize maxHash binSize mul).2.image rest) :
    ∃ f ress st, sessions (create hdrSize maxHash binSize mul).1 (create hdrSize maxHash binSize mul).2.image rest = some (f, ress) ∧
      Steps Store.empty rest.flatten ress st ∧
      ∀ q : Bytes, q.length ≤ 392 → zread (create hdrSize maxHash binSize mul).1 f.open q = some (st.live q) := by
  have hc := create_OK (mul := mul) g
  have H0 := newFile_inv (hdrSize := hdrSize) (maxHash := maxHash) (isize := binSize) (tH := (create hdrSize maxHash binSize mul).1.tHash)
    (pH := (create hdrSize maxHash binSize mul).1.pHash) (mul := mul) (by have := g.bin; omega)
  have hs0 : HdrSaved (create hdrSize maxHash binSize mul).2 := saved_perm hc _
  obtain ⟨H1, A1⟩ := H0.quiet hc (create hdrSize maxHash binSize mul).2.image.open hs0 (fun _ _ _ => rfl)
  obtain ⟨G', f', ress, k1, k2, k3⟩ := sessions_ok hc rest (f := (create hdrSize maxHash binSize mul).2.image) H1 rfl ha
  have k2' := k2
  rw [newFile_abs] at k2'
  exact ⟨f', ress, _, k1, k2', fun q hq => zread_abs hc k3.inv hq⟩

theorem plain_append (a : List Op) : ∀ {past b : List Op}, Plain past (a ++ b) → Plain past a ∧ Plain (past ++ a) b := by
  induction a with
  | nil => intro past b h; exact ⟨trivial, by simpa using h⟩
  | cons op a ih =>
    intro past b h
    obtain ⟨k1, k2⟩ := ih h.2
    exact ⟨⟨h.1, k1⟩, by simpa using k2⟩

theorem plain_sessions {c : Cfg} (hc : c.OK) (rest : List (List Op)) : ∀ {past : List Op} {f : WFile}, Plain past rest.flatten → SessionsAllowed c past f rest := by
  induction rest with
  | nil => intros; trivial
  | cons ops rest ih =>
    intro past f h
    rw [List.flatten_cons] at h
    obtain ⟨k1, k2⟩ := plain_append ops h
    exact ⟨plain_allowed hc ops k1, fun _ _ _ => ih k2⟩

/-- C72.  In particular, if there are only writes and deletes: however the history is cut into sessions, what is read in the
end is what was written last. -/
theorem C72_last_write_partial (g : GoodSizes hdrSize maxHash binSize) (rest : List (List Op)) (hp : Plain [] rest.flatten) :
    ∃ f ress, sessions (create hdrSize maxHash binSize mul).1 (create hdrSize maxHash binSize mul).2.image rest = some (f, ress) ∧
      ∀ q : Bytes, q.length ≤ 392 → zread (create hdrSize maxHash binSize mul).1 f.open q = some (lastWritten q rest.flatten) := by
  obtain ⟨f, ress, st, h1, h2, h3⟩ := C72_sessions_partial (mul := mul) g rest (plain_sessions (create_OK g) rest hp)
  refine ⟨f, ress, h1, fun q hq => ?_⟩
  rw [h3 q hq, steps_fold h2 (plain_simple _ hp) (fun _ _ _ => rfl) q]
  rfl

end

/-! ### Copying a file -/

theorem untilEnd_spec (space : Nat → Nat) : ∀ n j, j ≤ untilEnd space n j ∧
    (untilEnd space n j < j + n → ∃ i, untilEnd space n j = i + 1 ∧ j ≤ i ∧ space i = DSS_END_FILE_FLAG)  := by
  intro n
  induction n with
  | zero => intro j; unfold untilEnd; exact ⟨Nat.le_refl _, fun h => by omega⟩
  | succ n ih =>
    intro j
    unfold untilEnd
    split
    · next h => exact ⟨by omega, fun _ => ⟨j, rfl, Nat.le_refl _, h⟩⟩
    · obtain ⟨h1, h2⟩ := ih (j + 1)
      refine ⟨by omega, fun h => ?_⟩
      obtain ⟨i, k1, k2, k3⟩ := h2 (by omega)
      exact ⟨i, k1, by omega, k3⟩

/-- The last state of the copy has all words of the file. -/
theorem copyPieces_last (src : WFile) (fs : Nat) (hs : fs ≤ src.size) (hno : ∀ x, x < fs → src.words x ≠ DSS_END_FILE_FLAG) :
    ∀ n a space to, (∀ x, x < a → x < fs → to.words x = src.words x ∧ x < to.size) → fs ≤ a + (n + 1) * PIECE →
      ∃ g, (copyPieces src (n + 1) a space to).getLast? = some g ∧ ∀ x, x < fs → g.words x = src.words x ∧ x < g.size := by
  intro n
  induction n with
  | zero =>
    intro a space to h1 h2
    unfold copyPieces
    simp only [if_true]
    refine ⟨to.write a (untilEnd (readPiece src a space) PIECE 0) (readPiece src a space), rfl, fun x hx => ?_⟩
    obtain ⟨k1, k2⟩ := untilEnd_spec (readPiece src a space) PIECE 0
    unfold WFile.write Wr.apply
    simp only
    split
    · next h =>
      refine ⟨?_, Nat.lt_of_lt_of_le (by omega) (Nat.le_max_right _ _)⟩
      unfold readPiece
      rw [if_pos (by omega), show a + (x - a) = x by omega]
    · next h =>
      by_cases hxa : x < a
      · exact ⟨(h1 x hxa hx).1, Nat.lt_of_lt_of_le (h1 x hxa hx).2 (Nat.le_max_left _ _)⟩
      · exfalso
        obtain ⟨i, k3, k4, k5⟩ := k2 (by omega)
        by_cases hi : a + i < fs
        · refine hno (a + i) hi ?_
          rw [← k5]
          unfold readPiece
          rw [if_pos (by omega)]
        · omega
  | succ n ih =>
    intro a space to h1 h2
    unfold copyPieces
    simp only [show ¬ n + 1 = 0 by omega, if_false]
    obtain ⟨g, k1, k2⟩ := ih (a + PIECE) (readPiece src a space) (to.write a PIECE (readPiece src a space)) (by
      intro x hx hf
      unfold WFile.write Wr.apply
      simp only
      split
      · next h =>
        refine ⟨?_, Nat.lt_of_lt_of_le (by omega) (Nat.le_max_right _ _)⟩
        unfold readPiece
        rw [if_pos (by omega), show a + (x - a) = x by omega]
      · next h => exact ⟨(h1 x (by omega) hf).1, Nat.lt_of_lt_of_le (h1 x (by omega) hf).2 (Nat.le_max_left _ _)⟩) (by rw [Nat.add_mul] at h2; omega)
    refine ⟨g, ?_, k2⟩
    cases hl : copyPieces src (n + 1) (a + PIECE) (readPiece src a space) (to.write a PIECE (readPiece src a space)) with
    | nil => rw [hl] at k1; cases k1
    | cons y l => rw [hl] at k1; rw [List.getLast?_cons_cons]; exact k1

theorem behindLast_append (b : UInt8) (x y : Bytes) (hy : ∀ z ∈ y, z ≠ b) : behindLast b (x ++ b :: y) = y := by
  unfold behindLast
  simp only [List.reverse_append, List.reverse_cons, List.append_assoc]
  rw [List.takeWhile_append_of_pos (by intro z hz; simp only [bne_iff_ne]; exact hy z (List.mem_reverse.mp hz))]
  simp

theorem behindLast_none (b : UInt8) (y : Bytes) (hy : ∀ z ∈ y, z ≠ b) : behindLast b y = y := by
  unfold behindLast
  have : (y.reverse).takeWhile (fun x => x != b) = y.reverse := by
    have h := List.takeWhile_append_of_pos (l₂ := []) (l₁ := y.reverse) (p := fun x => x != b) (by intro z hz; simp only [bne_iff_ne]; exact hy z (List.mem_reverse.mp hz))
    simpa using h
  rw [this, List.reverse_reverse]

/-- The name of the temporary file. -/
theorem temp_name (dirs : Bytes) {name : Bytes} (hn : OneName name) : tempName (FileName dirs name) = TempFile name := by
  have hn' : ∀ b ∈ name ++ [46, 100, 115, 115], b ≠ 47 ∧ b ≠ 92 := by
    intro b hb
    rcases List.mem_append.mp hb with h | h
    · exact hn b h
    · simp only [List.mem_cons, List.mem_nil_iff, or_false] at h
      rcases h with h | h | h | h <;> (subst h; decide)
  have hf : getFileFromPath (FileName dirs name) = name ++ [46, 100, 115, 115] := by
    unfold getFileFromPath FileName
    rw [behindLast_append _ _ _ (fun z hz => (hn' z hz).1), behindLast_none _ _ (fun z hz => (hn' z hz).2)]
  unfold tempName
  simp only [hf]
  unfold TEMP_DIR TEMP_SUFFIX TempFile
  rw [show ([47, 116, 109, 112, 47] ++ (name ++ [46, 100, 115, 115]) : Bytes) = ([47, 116, 109, 112, 47] ++ name) ++ [46, 100, 115, 115] by simp]
  rw [List.take_append_of_le_length (by simp), List.take_of_length_le (by simp)]

theorem temp_ne (dirs : Bytes) {name : Bytes} (hn : OneName name) : TempFile name ≠ FileName dirs name := by
  intro h
  have h1 := congrArg (behindLast 47) h
  unfold TempFile FileName at h1
  rw [show ([47, 116, 109, 112, 47] ++ name ++ [95, 115, 113, 117, 46, 100, 115, 115] : Bytes) =
    [47, 116, 109, 112] ++ 47 :: (name ++ [95, 115, 113, 117, 46, 100, 115, 115]) by simp] at h1
  have hd : ∀ l : Bytes, (∀ z ∈ l, z ≠ 47) → ∀ z ∈ name ++ l, z ≠ 47 := by
    intro l hl z hz
    rcases List.mem_append.mp hz with h | h
    · exact (hn z h).1
    · exact hl z h
  rw [behindLast_append _ _ _ (hd _ (by decide)), behindLast_append _ _ _ (hd _ (by decide))] at h1
  have h2 := congrArg List.length h1
  simp at h2

section
variable {hdrSize maxHash binSize hdrSize' maxHash' binSize' : Nat} {mul mul' : Nat → Nat}

theorem dir_same (d : Dir) (n : Bytes) (f : Option WFile) : d.set n f n = f := if_pos rfl
theorem dir_other (d : Dir) {n m : Bytes} (f : Option WFile) (h : m ≠ n) : d.set n f m = d m := if_neg h

/-- The facts about the two files: the copy and the file copied back. -/
theorem squeezed (g : GoodSizes hdrSize maxHash binSize) (g' : GoodSizes hdrSize' maxHash' binSize') {past : List Op} {s : Eng}
    (hs : Reachable (create hdrSize maxHash binSize mul).1 (create hdrSize maxHash binSize mul).2 past s)
    (h1 : NoLookAlikes (create hdrSize maxHash binSize mul).1 s) (h2 : FullNames (create hdrSize maxHash binSize mul).1 s)
    (h3 : NewHeaders (create hdrSize maxHash binSize mul).1 s) (env : CopyEnv)
    (h4 : ∀ t, zcopyFile (create hdrSize' maxHash' binSize' mul').1 env s (create hdrSize' maxHash' binSize' mul').2 = some t → NoEndFlags t) (space : Nat → Nat) :
    ∃ t w, zcopyFile (create hdrSize' maxHash' binSize' mul').1 env s (create hdrSize' maxHash' binSize' mul').2 = some t ∧
      ReadsLike (create hdrSize' maxHash' binSize' mul').1 t.image (create hdrSize maxHash binSize mul).1 s ∧
      (copyFile t.image t.hdr.fileSize space EMPTY_FILE).getLast? = some w ∧
      ReadsLike (create hdrSize' maxHash' binSize' mul').1 w (create hdrSize maxHash binSize mul).1 s ∧
      w.open.hdr.fileSize ≤ w.size ∧ ∃ Gd, HInv (create hdrSize' maxHash' binSize' mul').1 Gd w.open [] ∧
        ∀ q, q.length ≤ 392 → zread (create hdrSize maxHash binSize mul).1 s q = some ((abs (create hdrSize' maxHash' binSize' mul').1 Gd w.open.disk).live q) := by
  have hcd := create_OK (mul := mul') g'
  obtain ⟨Gd, t, k1, k2, k3, k4⟩ := copied (mul' := mul') g g' hs h1 h2 h3 env
  have hsv : HdrSaved t := by
    unfold zcopyFile at k1
    rw [Option.map_eq_some_iff] at k1
    obtain ⟨t1, _, k1⟩ := k1
    subst k1
    exact saved_perm hcd _
  have hno := h4 t k1
  obtain ⟨w, w1, w3⟩ := copyPieces_last t.image t.hdr.fileSize (by simp [Eng.image]) hno (t.hdr.fileSize / PIECE) 0 space EMPTY_FILE
    (fun x hx _ => by omega) (by have := Nat.lt_div_mul_add (a := t.hdr.fileSize) (b := PIECE) (by decide); rw [Nat.add_mul]; omega)
  have w2 := fun x hx => (w3 x hx).1
  have hfs : 9 ≤ t.hdr.fileSize := by
    refine Decidable.byContradiction fun hx => ?_
    have e1 := k2.inv.h.beyond t.hdr.fileSize (Nat.le_refl _)
    have e2 := k2.inv.w.sys t.hdr.fileSize (by have := hcd.hdr; omega)
    rw [e1] at e2
    cases e2
  have hwh : w.open.hdr = t.hdr := by
    rw [← hsv]
    show readHdr w.words = readHdr t.disk
    have hx : ∀ x, x < 9 → w.words x = t.disk x := fun x hx => w2 x (by omega)
    unfold readHdr
    rw [hx 0 (by omega), hx 1 (by omega), hx 2 (by omega), hx 3 (by omega), hx 4 (by omega), hx 5 (by omega), hx 6 (by omega), hx 7 (by omega), hx 8 (by omega)]
  obtain ⟨Hw, Aw⟩ := k2.quiet hcd w.open hwh (fun x hx _ => w2 x (by
    refine Decidable.byContradiction fun hh => hx (k2.inv.h.beyond x (by omega))))
  obtain ⟨Ht, At⟩ := k2.quiet hcd t.image.open hsv (fun x _ _ => rfl)
  refine ⟨t, w, k1, ⟨?_, fun q hq => ?_⟩, w1, ⟨?_, fun q hq => ?_⟩, ?_, Gd, Hw, fun q hq => ?_⟩
  · rw [← k3]; exact congrArg Hdr.numberRecords hsv
  · rw [zread_abs hcd Ht.inv hq, At, k4 q hq]
  · rw [← k3]; exact congrArg Hdr.numberRecords hwh
  · rw [zread_abs hcd Hw.inv hq, Aw, k4 q hq]
  · rw [hwh]
    have := (w3 (t.hdr.fileSize - 1) (by omega)).2
    omega
  · rw [k4 q hq, Aw]

theorem image_reads (g : GoodSizes hdrSize maxHash binSize) {past : List Op} {s : Eng}
    (hs : Reachable (create hdrSize maxHash binSize mul).1 (create hdrSize maxHash binSize mul).2 past s) :
    ReadsLike (create hdrSize maxHash binSize mul).1 s.image (create hdrSize maxHash binSize mul).1 s := by
  have hc := create_OK (mul := mul) g
  obtain ⟨_, e2⟩ := C72_reopen g hs
  obtain ⟨ha, ress, hr⟩ := hs
  obtain ⟨G, s', ress', k1, k2, H⟩ := HInv.runs hc past (newFile_inv (by have := g.bin; omega)) ha
  have : some (s', ress') = some (s, ress) := k1.symm.trans hr
  injection this with this
  injection this with this _
  subst this
  obtain ⟨Hi, Ai⟩ := H.quiet hc s'.image.open e2 (fun x _ _ => rfl)
  exact ⟨congrArg Hdr.numberRecords e2, fun q hq => by rw [zread_abs hc Hi.inv hq, zread_abs hc H.inv hq, Ai]⟩

/-- C71.  A squeeze succeeds; then the file has the same records as before, the temporary file is gone, and no other
file has changed.  The file is as long as its header says, and can be used like any other: histories on it behave as on a store that has these records
and no deleted ones. -/
theorem C71_squeeze_partial (g : GoodSizes hdrSize maxHash binSize) (g' : GoodSizes hdrSize' maxHash' binSize') {past : List Op} {s : Eng}
    (hs : Reachable (create hdrSize maxHash binSize mul).1 (create hdrSize maxHash binSize mul).2 past s)
    (h1 : NoLookAlikes (create hdrSize maxHash binSize mul).1 s) (h2 : FullNames (create hdrSize maxHash binSize mul).1 s)
    (h3 : NewHeaders (create hdrSize maxHash binSize mul).1 s) (env : CopyEnv)
    (h4 : ∀ t, zcopyFile (create hdrSize' maxHash' binSize' mul').1 env s (create hdrSize' maxHash' binSize' mul').2 = some t → NoEndFlags t)
    (space : Nat → Nat) (dir : Dir) (dirs name : Bytes) (hn : OneName name) (hf : dir (FileName dirs name) = some s.image) :
    ∃ q last w, zsqueeze (create hdrSize' maxHash' binSize' mul').1 (create hdrSize' maxHash' binSize' mul').2 env space (FileName dirs name) dir = q ∧
      q.ok = true ∧ q.states.getLast? = some last ∧ last (FileName dirs name) = some w ∧
      ReadsLike (create hdrSize' maxHash' binSize' mul').1 w (create hdrSize maxHash binSize mul).1 s ∧
      w.open.hdr.fileSize ≤ w.size ∧ last (TempFile name) = none ∧ (∀ n, n ≠ FileName dirs name → n ≠ TempFile name → last n = dir n) ∧
      ∀ ops, AllAllowed (create hdrSize' maxHash' binSize' mul').1 [] w.open ops →
        ∃ st st' t' ress, (∀ q, q.length ≤ 392 → zread (create hdrSize maxHash binSize mul).1 s q = some (st.live q)) ∧ (∀ q, st.trash q = []) ∧
          runs (create hdrSize' maxHash' binSize' mul').1 w.open ops = some (t', ress) ∧ Steps st ops ress st' ∧
          ∀ q, q.length ≤ 392 → zread (create hdrSize' maxHash' binSize' mul').1 t' q = some (st'.live q) := by
  have hcd := create_OK (mul := mul') g'
  obtain ⟨t, w, k1, k2, k3, k4, k7, Gd, k5, k6⟩ := squeezed (mul' := mul') g g' hs h1 h2 h3 env h4 space
  have e0 := C72_reopen g hs
  have hcp : zcopyFile (create hdrSize' maxHash' binSize' mul').1 env s.image.open (create hdrSize' maxHash' binSize' mul').2 = some t := by
    rw [← k1]; unfold zcopyFile; rw [e0.1, e0.2]
  have hne := temp_ne dirs hn
  unfold zsqueeze
  simp only [hf, hcp, temp_name dirs hn]
  refine ⟨_, _, w, rfl, rfl, List.getLast?_concat, ?_, k4, k7, ?_, ?_, ?_⟩
  · rw [dir_other _ _ hne.symm, List.getLast?_map, k3]
    simp only [Option.map_some, Option.getD_some]
    exact dir_same _ _ _
  · exact dir_same _ _ _
  · intro n e1 e2
    rw [dir_other _ _ e2, List.getLast?_map, k3]
    simp only [Option.map_some, Option.getD_some]
    rw [dir_other _ _ e1, dir_other _ _ e2, dir_other _ _ e2]
  · intro ops ha
    obtain ⟨G', t', ress, j1, j2, j3⟩ := HInv.runs hcd ops k5 ha
    refine ⟨_, _, t', ress, k6, fun q => ?_, j1, j2, fun q hq => zread_abs hcd j3.inv hq⟩
    simp only [abs]
    split
    · next hq =>
      rw [List.map_eq_nil_iff, List.filter_eq_nil_iff]
      intro e he hm
      have hm := EMatch_deleted.mp (by simpa using hm)
      obtain ⟨p, hp, _⟩ := k5.trash _ (hcd.tHash_lt q hq) e he hm.2
      simp at hp
    · rfl

/-- C71.  Wherever a squeeze is cut off, all records are in one of two files: the file itself, or the temporary one; and
no other file has changed. -/
theorem C71_crash_partial (g : GoodSizes hdrSize maxHash binSize) (g' : GoodSizes hdrSize' maxHash' binSize') {past : List Op} {s : Eng}
    (hs : Reachable (create hdrSize maxHash binSize mul).1 (create hdrSize maxHash binSize mul).2 past s)
    (h1 : NoLookAlikes (create hdrSize maxHash binSize mul).1 s) (h2 : FullNames (create hdrSize maxHash binSize mul).1 s)
    (h3 : NewHeaders (create hdrSize maxHash binSize mul).1 s) (env : CopyEnv)
    (h4 : ∀ t, zcopyFile (create hdrSize' maxHash' binSize' mul').1 env s (create hdrSize' maxHash' binSize' mul').2 = some t → NoEndFlags t)
    (space : Nat → Nat) (dir : Dir) (dirs name : Bytes) (hn : OneName name) (hf : dir (FileName dirs name) = some s.image) :
    ∀ d ∈ (zsqueeze (create hdrSize' maxHash' binSize' mul').1 (create hdrSize' maxHash' binSize' mul').2 env space (FileName dirs name) dir).states,
      ((∃ f, d (FileName dirs name) = some f ∧ (ReadsLike (create hdrSize maxHash binSize mul).1 f (create hdrSize maxHash binSize mul).1 s ∨
          ReadsLike (create hdrSize' maxHash' binSize' mul').1 f (create hdrSize maxHash binSize mul).1 s)) ∨
        (∃ f, d (TempFile name) = some f ∧ ReadsLike (create hdrSize' maxHash' binSize' mul').1 f (create hdrSize maxHash binSize mul).1 s)) ∧
      ∀ n, n ≠ FileName dirs name → n ≠ TempFile name → d n = dir n := by
  have hcd := create_OK (mul := mul') g'
  obtain ⟨t, w, k1, k2, k3, k4, k7, Gd, k5, k6⟩ := squeezed (mul' := mul') g g' hs h1 h2 h3 env h4 space
  have e0 := C72_reopen g hs
  have hcp : zcopyFile (create hdrSize' maxHash' binSize' mul').1 env s.image.open (create hdrSize' maxHash' binSize' mul').2 = some t := by
    rw [← k1]; unfold zcopyFile; rw [e0.1, e0.2]
  have hne := temp_ne dirs hn
  have hI := image_reads g hs
  unfold zsqueeze
  simp only [hf, hcp, temp_name dirs hn]
  intro d hd
  simp only [List.cons_append, List.mem_cons, List.mem_append, List.mem_map, List.mem_range, List.mem_nil_iff, or_false] at hd
  rcases hd with hd | hd | (((⟨k, _, hd⟩ | hd | hd) | ⟨x, _, hd⟩) | hd)
  · subst hd
    exact ⟨Or.inl ⟨_, hf, Or.inl hI⟩, fun _ _ _ => rfl⟩
  · subst hd
    exact ⟨Or.inl ⟨_, by rw [dir_other _ _ hne.symm]; exact hf, Or.inl hI⟩, fun n _ h => dir_other _ _ h⟩
  · subst hd
    exact ⟨Or.inl ⟨_, by rw [dir_other _ _ hne.symm, dir_other _ _ hne.symm]; exact hf, Or.inl hI⟩, fun n _ h => by rw [dir_other _ _ h, dir_other _ _ h]⟩
  · subst hd
    exact ⟨Or.inl ⟨_, by rw [dir_other _ _ hne.symm, dir_other _ _ hne.symm]; exact hf, Or.inl hI⟩, fun n _ h => by rw [dir_other _ _ h, dir_other _ _ h]⟩
  · subst hd
    exact ⟨Or.inr ⟨_, by rw [dir_other _ _ hne]; exact dir_same _ _ _, k2⟩, fun n h' h => by rw [dir_other _ _ h', dir_other _ _ h, dir_other _ _ h]⟩
  · subst hd
    exact ⟨Or.inr ⟨_, by rw [dir_other _ _ hne]; exact dir_same _ _ _, k2⟩, fun n h' h => by rw [dir_other _ _ h', dir_other _ _ h, dir_other _ _ h]⟩
  · subst hd
    refine ⟨Or.inl ⟨w, ?_, Or.inr k4⟩, fun n e1 e2 => ?_⟩
    · rw [dir_other _ _ hne.symm, List.getLast?_map, k3]
      simp only [Option.map_some, Option.getD_some]
      exact dir_same _ _ _
    · rw [dir_other _ _ e2, List.getLast?_map, k3]
      simp only [Option.map_some, Option.getD_some]
      rw [dir_other _ _ e1, dir_other _ _ e2, dir_other _ _ e2]

/-- C71 is false if the file itself is expected to be usable after a crash: every squeeze that succeeds passes through a
state in which the file is empty. -/
theorem C71_empty_violation (cd : Cfg) (t0 : Eng) (env : CopyEnv) (space : Nat → Nat) (main : Bytes) (dir : Dir)
    (h : (zsqueeze cd t0 env space main dir).ok = true) :
    ∃ d ∈ (zsqueeze cd t0 env space main dir).states, ∃ f, d main = some f ∧ f.size = 0 := by
  unfold zsqueeze at h ⊢
  cases hm : dir main with
  | none => rw [hm] at h; cases h
  | some f =>
    rw [hm] at h
    simp only at h ⊢
    cases hz : zcopyFile cd env f.open t0 with
    | none => rw [hz] at h; cases h
    | some t =>
      simp only
      exact ⟨_, by simp only [List.cons_append, List.mem_cons, List.mem_append]; exact Or.inr (Or.inr (Or.inl (Or.inl (Or.inr (Or.inr (Or.inl rfl)))))),
        EMPTY_FILE, dir_same _ _ _, rfl⟩

/-- C71 is false for other files: a file with the name of the temporary one is removed, whatever it is, even if the squeeze
fails. -/
theorem C71_other_file_violation (cd : Cfg) (t0 : Eng) (env : CopyEnv) (space : Nat → Nat) (dirs name : Bytes) (hn : OneName name) (dir : Dir)
    (f : WFile) (hf : dir (FileName dirs name) = some f) :
    ∃ last, (zsqueeze cd t0 env space (FileName dirs name) dir).states.getLast? = some last ∧ last (TempFile name) = none := by
  unfold zsqueeze
  simp only [hf, temp_name dirs hn]
  cases hz : zcopyFile cd env f.open t0 with
  | none => exact ⟨_, rfl, dir_same _ _ _⟩
  | some t => exact ⟨_, List.getLast?_concat, dir_same _ _ _⟩

end

end Hec
