import Verif.Proofs.EngineRename2
/-! Histories. -/
namespace Hec
set_option linter.unusedSimpArgs false
set_option linter.unusedVariables false
open _root_.Spec (Op Store Step Steps run runs Allowed AllAllowed Plain Reachable)

variable {c : Cfg}

/-- The invariant of a file in use, together with the deletions so far. -/
structure HInv (c : Cfg) (G : Ghost) (s : Eng) (past : List Op) : Prop where
  inv : Inv c G s
  count : s.hdr.numberRecords = liveCount c G
  heads : Heads c G s.disk
  trash : ∀ h, h < c.maxHash → ∀ e ∈ centries (G.chain h), e.st = REC_STATUS_DELETED → ∃ p ∈ past.flatMap Op.deletes, Same p e.path

theorem HInv.guard (hc : c.OK) {G : Ghost} {s : Eng} {past : List Op} (H : HInv c G s past) {op : Op} (ha : Allowed c past s op) :
    Guard c G s op := by
  cases op with
  | write r =>
    obtain ⟨h1, h2, h3, h4⟩ := ha
    have hz := zread_abs hc H.inv h2
    refine ⟨h1, h2, fun R hR => h3 R (by rw [hz, hR]), fun hn f hf hd => ?_⟩
    obtain ⟨p, hp, hs⟩ := H.trash _ (hc.tHash_lt _ h2) f hf hd
    have := h4 (by rw [hz, hn]) p hp
    rw [hs.length] at this
    exact this
  | delete p => exact ha
  | undelete p =>
    refine ⟨ha.1, ?_⟩
    have := ha.2
    rw [zread_abs hc H.inv ha.1] at this
    simpa using this
  | rename o n v =>
    obtain ⟨h1, h2, h3, h4, h5, h6⟩ := ha
    refine ⟨h1, h2, h3, h4, fun h => h5 (same_iff.mpr h), fun R hR => ?_⟩
    obtain ⟨k1, k2, k3, k4, k5⟩ := h6 R (by rw [zread_abs hc H.inv h3, hR])
    refine ⟨k1, k2, ?_, ?_, ?_⟩
    · rcases k3 with h | h | h
      · exact Or.inl (same_iff.mp h)
      · exact Or.inr (Or.inl (same_iff.mp h))
      · right; right
        rw [zread_abs hc H.inv k1] at h
        simpa using h
    · intro f hf hd
      obtain ⟨p, hp, hs⟩ := H.trash _ (hc.tHash_lt _ k1) f hf hd
      have := k4 p hp
      rw [hs.length] at this
      exact this
    · rw [zread_abs hc H.inv h4] at k5
      simpa [nLongsB] using k5

theorem HInv.step (hc : c.OK) {G : Ghost} {s : Eng} {past : List Op} (H : HInv c G s past) {op : Op} (ha : Allowed c past s op) :
    ∃ G' s' res, run c s op = some (s', res) ∧ Stepped c op G s res G' s' ∧ HInv c G' s' (past ++ [op]) := by
  obtain ⟨G', s', res, hr, S⟩ := step_ok hc H.inv op (H.guard hc ha)
  refine ⟨G', s', res, hr, S, ?_, S.count H.count, S.heads H.heads, ?_⟩
  · exact S.inv
  · intro h hh e he hd
    rcases S.trash h hh e he hd with ⟨e0, h0, hd0, hp0⟩ | ⟨p, hp, hs⟩
    · obtain ⟨p, hp, hs⟩ := H.trash h hh e0 h0 hd0
      exact ⟨p, by rw [List.flatMap_append]; exact List.mem_append_left _ hp, by rw [← hp0]; exact hs⟩
    · exact ⟨p, by rw [List.flatMap_append]; exact List.mem_append_right _ (by simpa using hp), hs⟩

theorem HInv.runs (hc : c.OK) (ops : List Op) : ∀ {G : Ghost} {s : Eng} {past : List Op}, HInv c G s past → AllAllowed c past s ops →
    ∃ G' s' ress, runs c s ops = some (s', ress) ∧ Steps (abs c G s.disk) ops ress (abs c G' s'.disk) ∧ HInv c G' s' (past ++ ops) := by
  induction ops with
  | nil => intro G s past H _; exact ⟨G, s, [], rfl, .nil _, by simpa using H⟩
  | cons op ops ih =>
    intro G s past H ha
    obtain ⟨G1, s1, res, hr, S, H1⟩ := H.step hc ha.1
    obtain ⟨G2, s2, ress, hr2, S2, H2⟩ := ih H1 (ha.2 s1 res hr)
    refine ⟨G2, s2, res :: ress, ?_, .cons S.step S2, by simpa using H2⟩
    simp [_root_.Spec.runs, hr, hr2]

/-! ### A new file -/

theorem newFile_OK {hdrSize maxHash isize : Nat} {tH pH : Bytes → Nat} {mul : Nat → Nat} (h1 : 12 ≤ hdrSize) (h2 : 58 ≤ isize)
    (h3 : ∀ p : Bytes, p.length ≤ 392 → tH p < maxHash) (h4 : ∀ p q, Same p q → tH p = tH q) (h5 : ∀ p q, Same p q → pH p = pH q)
    (h6 : ∀ p, pH p ≠ 0) : (newFile hdrSize maxHash isize tH pH mul).1.OK :=
  ⟨h2, by simp [newFile], h1, h3, h4, h5, h6⟩

def newGhost (hdrSize maxHash isize : Nat) : Ghost where
  own x :=
    let hashStart := hdrSize + 78
    let firstBin := hashStart + maxHash + 1002
    if hashStart ≤ x ∧ x < hashStart + maxHash then .tab (x - hashStart)
    else if firstBin ≤ x ∧ x < firstBin + 32 * isize then .free
    else if x = firstBin + 32 * isize then .link
    else if x < firstBin then .sys
    else .none
  chain _ := []
  last _ := 0
  room _ := ⟨0, 0⟩
  blocks := [hdrSize + 78 + maxHash + 1002]
  tail := 0

theorem newFile_inv {hdrSize maxHash isize : Nat} {tH pH : Bytes → Nat} {mul : Nat → Nat} (hi0 : 0 < isize) :
    HInv (newFile hdrSize maxHash isize tH pH mul).1 (newGhost hdrSize maxHash isize) (newFile hdrSize maxHash isize tH pH mul).2 [] := by
  have hd : ∀ x, hdrSize ≤ x → x < hdrSize + 78 + maxHash + 1002 + (isize * 32 + 1) → (newFile hdrSize maxHash isize tH pH mul).2.disk x = 0 := by
    intro x h1 h2
    show Wr.apply _ _ x = 0
    rw [apply_out (by simp only; omega)]
    simp only
    rw [if_neg (by omega)]
  have hfree : ∀ x, (newGhost hdrSize maxHash isize).own x = .free → hdrSize + 78 + maxHash + 1002 ≤ x ∧ x < hdrSize + 78 + maxHash + 1002 + 32 * isize := by
    intro x hx
    simp only [newGhost] at hx
    split at hx
    · cases hx
    · split at hx
      · omega
      · split at hx
        · cases hx
        · split at hx <;> cases hx
  have hnb : ∀ x h b, (newGhost hdrSize maxHash isize).own x ≠ .bin h b := by
    intro x h b hx
    simp only [newGhost] at hx
    split at hx
    · cases hx
    · split at hx
      · cases hx
      · split at hx
        · cases hx
        · split at hx <;> cases hx
  have hlink : (newGhost hdrSize maxHash isize).own (hdrSize + 78 + maxHash + 1002 + 32 * isize) = .link := by
    simp only [newGhost]
    rw [if_neg (by omega), if_neg (by omega)]
    simp
  refine ⟨⟨⟨?_, ?_, ?_, ?_, ⟨?_, ?_, ?_, ?_, ?_, ?_, ?_, ?_⟩⟩, ⟨?_, ?_, ?_, ?_, ⟨rfl, hfree, [], hdrSize + 78 + maxHash + 1002, 0, rfl, ?_, ?_⟩⟩, fun _ _ => rfl⟩, ?_, by intro h hh e he; simp [newGhost] at he, ?_⟩
  · intro x hx
    have hx : x < hdrSize := hx
    simp only [newGhost]
    rw [if_neg (by omega), if_neg (by omega), if_neg (by omega), if_pos (by omega)]
  · intro h hh
    have hh : h < maxHash := hh
    show (newGhost hdrSize maxHash isize).own (hdrSize + 3 + 25 + 25 + 25 + h) = _
    simp only [newGhost]
    rw [if_pos (by omega)]
    congr 1; omega
  · intro x hx
    have := hfree x hx
    exact hd x (by omega) (by omega)
  · intro h hh
    have hh : h < maxHash := hh
    refine ⟨?_, by simp [newGhost], by simp [newGhost], by simp [newGhost], by simp [newGhost], by simp [newGhost], by simp [newGhost], by simp [newGhost]⟩
    show (newFile hdrSize maxHash isize tH pH mul).2.disk (hdrSize + 3 + 25 + 25 + 25 + h) = 0
    exact hd _ (by omega) (by omega)
  · rfl
  · intro pre b post h
    have h1 : [hdrSize + 78 + maxHash + 1002] = pre ++ b :: post := h
    have h2 : pre = [] ∧ post = [] := by
      have := congrArg List.length h1
      simp at this
      exact ⟨List.eq_nil_of_length_eq_zero (by omega), List.eq_nil_of_length_eq_zero (by omega)⟩
    rw [h2.1, h2.2] at h1
    have h3 : hdrSize + 78 + maxHash + 1002 = b := by simpa using h1
    rw [← h3, h2.2]
    show (newFile hdrSize maxHash isize tH pH mul).2.disk (hdrSize + 78 + maxHash + 1002 + 32 * isize) = 0
    exact hd _ (by omega) (by omega)
  · intro b h
    have h : b = hdrSize + 78 + maxHash + 1002 := by simpa [newGhost] using h
    rw [h]; exact hlink
  · intro b h i hi
    have h : b = hdrSize + 78 + maxHash + 1002 := by simpa [newGhost] using h
    have hi : i < 32 := hi
    left
    rw [h]
    show (newGhost hdrSize maxHash isize).own (hdrSize + 78 + maxHash + 1002 + i * isize) = _
    have h3 : (i + 1) * isize ≤ 32 * isize := Nat.mul_le_mul_right _ (by omega)
    rw [Nat.add_mul] at h3
    simp only [newGhost]
    rw [if_neg (by omega), if_pos (by omega)]
  · intro x h b hx; exact absurd hx (hnb x h b)
  · intro h hh be hbe; simp [newGhost] at hbe
  · simp [newGhost]
  · intro x y h b _ hx; exact absurd hx (hnb y h b)
  · intro x hx
    have hx : hdrSize + 3 + 25 + 25 + 25 + maxHash + 1002 + (isize * 32 + 1) ≤ x := hx
    simp only [newGhost]
    rw [if_neg (by omega), if_neg (by omega), if_neg (by omega), if_neg (by omega)]
  · intro i hi
    have hi : i < 32 * isize := hi
    show (newGhost hdrSize maxHash isize).own (hdrSize + 3 + 25 + 25 + 25 + maxHash + 1002 + i) = _
    simp only [newGhost]
    rw [if_neg (by omega), if_pos (by omega)]
  · exact hlink
  · intro x hx; simp [newGhost]
  · show hdrSize + 3 + 25 + 25 + 25 + maxHash + 1002 = _; omega
  · rfl
  · show 0 = liveCount _ _
    have : ∀ l : List Nat, (l.map fun _ => 0).sum = 0 := by
      intro l; induction l with
      | nil => rfl
      | cons a l ih => simpa using ih
    simp only [liveCount, newGhost, centries_nil, List.countP_nil]
    exact (this _).symm
  · intro h hh e he; simp [newGhost] at he

theorem newFile_abs (cc : Cfg) (hdrSize maxHash isize : Nat) (d : Disk) :
    abs cc (newGhost hdrSize maxHash isize) d = Store.empty := by
  unfold abs newGhost Store.empty
  simp

end Hec
