import Verif.Spec.Buffer
namespace Hec
open _root_.Spec (BOp bStep rStep bRun rRun clear bOK bAllOK)

/-- The array `m` is what the disk and the buffer represent. -/
structure BInv (s : BufState) (m : Nat → Int) : Prop where
  /-- outside the part held dirty, the disk is the array -/
  out : ∀ i, ¬(s.stat = .dirty ∧ 2 * s.addr ≤ i ∧ i < 2 * s.addr + s.used) → s.disk i = m i
  /-- what the buffer holds is the array -/
  held : s.stat ≠ .unused → ∀ j, j < s.used → s.buf j = m (2 * s.addr + j)

theorem wordsAt_length (m p n) : (wordsAt m p n).length = n := by simp [wordsAt]

theorem wordsAt_getD (m : Nat → Int) (p n i : Nat) (h : i < n) : (wordsAt m p n).getD i 0 = m (p + i) := by
  rw [List.getD_eq_getElem?_getD, List.getElem?_eq_getElem (by rw [wordsAt_length]; exact h)]
  simp [wordsAt]

theorem copyAt_in (m p l i) (h : p ≤ i ∧ i < p + l.length) : copyAt m p l i = l.getD (i - p) 0 := if_pos h
theorem copyAt_out (m p l i) (h : ¬(p ≤ i ∧ i < p + l.length)) : copyAt m p l i = m i := if_neg h

theorem wordsAt_congr {m m' : Nat → Int} {p q n : Nat} (h : ∀ i, i < n → m (p + i) = m' (q + i)) :
    wordsAt m p n = wordsAt m' q n := by
  unfold wordsAt
  apply List.map_congr_left
  intro i hi
  exact h i (List.mem_range.mp hi)

theorem BInv.dump {s m} (h : BInv s m) (hd : s.stat = .dirty) : BInv s.dump m ∧ ∀ i, s.dump.disk i = m i := by
  have key : ∀ i, s.dump.disk i = m i := by
    intro i
    show copyAt s.disk (2 * s.addr) (wordsAt s.buf 0 s.used) i = m i
    by_cases hi : 2 * s.addr ≤ i ∧ i < 2 * s.addr + (wordsAt s.buf 0 s.used).length
    · rw [copyAt_in _ _ _ _ hi]
      rw [wordsAt_length] at hi
      rw [wordsAt_getD _ _ _ _ (by omega), h.held (by rw [hd]; simp) _ (by omega)]
      congr 1; omega
    · rw [copyAt_out _ _ _ _ hi]
      rw [wordsAt_length] at hi
      exact h.out i (by intro hx; exact hi hx.2)
  refine ⟨⟨fun i _ => key i, fun _ j hj => ?_⟩, key⟩
  exact h.held (by rw [hd]; simp) j hj

/-- The reference write. -/
theorem rWrite_in (m : Nat → Int) (a : Nat) (l : List Int) (i : Nat) (h : 2 * a ≤ i ∧ i < 2 * a + l.length) :
    copyAt m (2 * a) l i = l.getD (i - 2 * a) 0 := if_pos h

theorem BInv.direct {s m} (h : BInv s m) (a : Nat) (l : List Int)
    (hc : s.stat ≠ .unused → clear (2 * a) l.length (2 * s.addr) s.used) :
    BInv (s.zput a l) (copyAt m (2 * a) l) := by
  refine ⟨fun i hi => ?_, fun hu j hj => ?_⟩
  · show copyAt s.disk (2 * a) l i = _
    by_cases hx : 2 * a ≤ i ∧ i < 2 * a + l.length
    · rw [copyAt_in _ _ _ _ hx, copyAt_in _ _ _ _ hx]
    · rw [copyAt_out _ _ _ _ hx, copyAt_out _ _ _ _ hx]; exact h.out i hi
  · show s.buf j = _
    have hj : j < s.used := hj
    have := hc hu
    rw [copyAt_out]
    · exact h.held hu j hj
    · unfold clear at this; show ¬(2 * a ≤ 2 * s.addr + j ∧ 2 * s.addr + j < 2 * a + l.length); omega

theorem putFirst_out {s m} (h : BInv s m) (a : Nat) (l : List Int)
    (hr : ¬(a ≥ s.addr ∧ a + bufLongs l.length ≤ s.addr + bufLongs s.size)) :
    BInv (putFirst s a l) m ∧ (putFirst s a l).stat ≠ .dirty ∧ (putFirst s a l).size = s.size ∧
    (∀ i, (putFirst s a l).disk i = m i) ∧
    ((putFirst s a l).stat ≠ .unused → s.stat ≠ .unused ∧ (putFirst s a l).addr = s.addr ∧ (putFirst s a l).used = s.used) := by
  unfold putFirst
  by_cases hu : s.stat = .unused
  · rw [if_pos hu]
    exact ⟨h, by rw [hu]; simp, rfl, fun i => h.out i (by rw [hu]; simp), fun hx => absurd hu hx⟩
  rw [if_neg hu, if_neg hr]
  by_cases hd : s.stat = .dirty
  · rw [if_pos hd]
    obtain ⟨d1, d2⟩ := h.dump hd
    exact ⟨⟨fun i _ => d2 i, fun _ j hj => d1.held (by simp [BufState.dump]) j hj⟩, by simp, rfl, d2, fun _ => ⟨hu, rfl, rfl⟩⟩
  · rw [if_neg hd]
    have d2 : ∀ i, s.disk i = m i := fun i => h.out i (by intro hx; exact hd hx.1)
    exact ⟨⟨fun i _ => d2 i, fun _ j hj => h.held hu j hj⟩, by simp, rfl, d2, fun _ => ⟨hu, rfl, rfl⟩⟩

theorem putBuff_inv {s m} (h : BInv s m) (a : Nat) (l : List Int) (flush : Bool)
    (hok : bOK s (.put a l flush)) : BInv (putBuff s a l flush) (copyAt m (2 * a) l) := by
  have fin : ∀ s2 : BufState, BInv s2 (copyAt m (2 * a) l) →
      BInv (if flush = true ∧ s2.stat = .dirty then s2.dump else s2) (copyAt m (2 * a) l) := by
    intro s2 h2
    split
    · rename_i hx; exact (h2.dump hx.2).1
    · exact h2
  by_cases hin : s.stat ≠ .unused ∧ a ≥ s.addr ∧ a + bufLongs l.length ≤ s.addr + bufLongs s.size
  · have hg := ((hok hin.1).1 hin.2)
    have e : putFirst s a l = { s with buf := copyAt s.buf (2 * (a - s.addr)) l, stat := .dirty, used := max s.used (2 * (a - s.addr) + l.length) } := by
      unfold putFirst; rw [if_neg hin.1, if_pos hin.2]
    have hst : (putFirst s a l).stat = .dirty := by rw [e]
    unfold putBuff
    simp only
    rw [if_neg (fun hx => hx.1 hst)]
    apply fin
    rw [if_neg (fun hx => hx hst), e]
    have ha := hin.2.1
    refine ⟨fun i hi => ?_, fun _ j hj => ?_⟩
    · simp only [true_and] at hi
      show s.disk i = _
      rw [copyAt_out]
      · apply h.out; intro hx; apply hi; constructor
        · exact hx.2.1
        · have := Nat.le_max_left s.used (2 * (a - s.addr) + l.length); omega
      · intro hx; apply hi
        have := Nat.le_max_right s.used (2 * (a - s.addr) + l.length); omega
    · show copyAt s.buf (2 * (a - s.addr)) l j = copyAt m (2 * a) l (2 * s.addr + j)
      have hj : j < max s.used (2 * (a - s.addr) + l.length) := hj
      by_cases hx : 2 * (a - s.addr) ≤ j ∧ j < 2 * (a - s.addr) + l.length
      · rw [copyAt_in _ _ _ _ hx, copyAt_in _ _ _ _ (by omega)]
        congr 1; omega
      · rw [copyAt_out _ _ _ _ hx, copyAt_out _ _ _ _ (by omega)]
        apply h.held hin.1
        rcases Nat.le_total s.used (2 * (a - s.addr) + l.length) with hm | hm
        · rw [Nat.max_eq_right hm] at hj; omega
        · rw [Nat.max_eq_left hm] at hj; exact hj
  · have hout : BInv (putFirst s a l) m ∧ (putFirst s a l).stat ≠ .dirty ∧ (putFirst s a l).size = s.size ∧
        (∀ i, (putFirst s a l).disk i = m i) ∧
        ((putFirst s a l).stat ≠ .unused → s.stat ≠ .unused ∧ (putFirst s a l).addr = s.addr ∧ (putFirst s a l).used = s.used) := by
      by_cases hu : s.stat = .unused
      · have e : putFirst s a l = s := by unfold putFirst; rw [if_pos hu]
        rw [e]
        exact ⟨h, by rw [hu]; simp, rfl, fun i => h.out i (by rw [hu]; simp), fun hx => absurd hu hx⟩
      · exact putFirst_out h a l (fun hx => hin ⟨hu, hx⟩)
    obtain ⟨i1, i2, i3, i4, i5⟩ := hout
    unfold putBuff
    simp only
    by_cases hb : (putFirst s a l).stat ≠ .dirty ∧ l.length ≥ (putFirst s a l).size
    · rw [if_pos hb]
      apply i1.direct
      intro hu
      obtain ⟨j1, j2, j3⟩ := i5 hu
      rw [j2, j3]
      exact (hok j1).2 (fun hx => hin ⟨j1, hx⟩) (by rw [← i3]; exact hb.2)
    · rw [if_neg hb, if_pos i2]
      apply fin
      refine ⟨fun i hi => ?_, fun _ j hj => ?_⟩
      · simp only [true_and] at hi
        show (putFirst s a l).disk i = _
        rw [copyAt_out _ _ _ _ hi]; exact i4 i
      · have hj : j < l.length := hj
        show copyAt (putFirst s a l).buf 0 l j = copyAt m (2 * a) l (2 * a + j)
        rw [copyAt_in _ _ _ _ (by omega), copyAt_in _ _ _ _ (by omega)]
        congr 1; omega

theorem copyAt_nil (m : Nat → Int) (p : Nat) : copyAt m p [] = m := by
  funext i; exact copyAt_out _ _ _ _ (by simp)

theorem flush_inv {s m} (h : BInv s m) : BInv (flushBuffers s) m ∧ ∀ i, (flushBuffers s).disk i = m i := by
  have h1 : BInv (flushBuffers s) m := by
    have := putBuff_inv h 0 [] true (fun _ => ⟨fun _ => by simp, fun _ _ => Or.inr (Or.inr (Or.inl rfl))⟩)
    rwa [copyAt_nil] at this
  refine ⟨h1, fun i => h1.out i ?_⟩
  have : (flushBuffers s).stat ≠ .dirty := by
    unfold flushBuffers putBuff
    simp only
    split
    · rename_i hx; exact hx.1
    · generalize (if (putFirst s 0 []).stat ≠ BufStat.dirty then _ else putFirst s 0 [] : BufState) = s2
      by_cases hx : True ∧ s2.stat = .dirty
      · rw [if_pos hx]; simp [BufState.dump]
      · rw [if_neg hx]; intro he; exact hx ⟨trivial, he⟩
  exact fun hx => this hx.1

theorem load_inv {s m} (h : BInv s m) (a n : Nat) : BInv (loadBuff s a n) m := by
  unfold loadBuff
  have key : ∀ s1 : BufState, BInv s1 m → s1.stat ≠ .dirty → BInv (if s1.stat = .unused ∨ s1.addr ≠ a ∨ s1.used < n then
    if s1.size = 0 then s1
    else
      let n1 := min n s1.size
      let n2 := if a + bufLongs n1 > s1.fileSize then 2 * (a + bufLongs n1 - s1.fileSize) else n1
      { s1 with stat := .notDirty, addr := a, used := n2, buf := copyAt s1.buf 0 (wordsAt s1.disk (2 * a) n2) }
  else s1) m := by
    intro s1 h1 hd
    split
    · split
      · exact h1
      · simp only
        generalize (if a + bufLongs (min n s1.size) > s1.fileSize then 2 * (a + bufLongs (min n s1.size) - s1.fileSize) else min n s1.size) = n2
        have d2 : ∀ i, s1.disk i = m i := fun i => h1.out i (by intro hx; exact hd hx.1)
        refine ⟨fun i _ => d2 i, fun _ j hj => ?_⟩
        have hj : j < n2 := hj
        show copyAt s1.buf 0 (wordsAt s1.disk (2 * a) n2) j = m (2 * a + j)
        rw [copyAt_in _ _ _ _ (by rw [wordsAt_length]; omega), wordsAt_getD _ _ _ _ (by omega), d2]
        rfl
    · exact h1
  by_cases hd : s.stat = .dirty
  · simp only [if_pos hd]
    exact key s.dump (h.dump hd).1 (by simp [BufState.dump])
  · simp only [if_neg hd]
    exact key s h hd

theorem read_inv {s m} (h : BInv s m) (a n : Nat) (hok : bOK s (.read a n)) :
    BInv (readBuff s a n).1 m ∧ (readBuff s a n).2 = wordsAt m (2 * a) n := by
  unfold readBuff
  by_cases hu : s.stat = .unused
  · rw [if_pos hu]
    exact ⟨h, wordsAt_congr fun i _ => h.out _ (by rw [hu]; simp)⟩
  rw [if_neg hu]
  by_cases hn : n > s.size
  · rw [if_pos hn]
    by_cases hd : s.stat = .dirty
    · simp only [if_pos hd]
      exact ⟨(h.dump hd).1, wordsAt_congr fun i _ => (h.dump hd).2 _⟩
    · simp only [if_neg hd]
      exact ⟨h, wordsAt_congr fun i _ => h.out _ (by intro hx; exact hd hx.1)⟩
  rw [if_neg hn]
  by_cases hin : a ≥ s.addr ∧ a + bufLongs n ≤ s.addr + bufLongs s.used
  · rw [if_pos hin]
    refine ⟨h, wordsAt_congr fun i hi => ?_⟩
    have := hok hu (by omega) hin
    have ha := hin.1
    rw [h.held hu _ (by omega)]
    congr 1; omega
  · rw [if_neg hin]
    by_cases hd : s.stat = .dirty ∧ ¬(a > s.addr + bufLongs s.used ∨ a + bufLongs n < s.addr)
    · simp only [if_pos hd]
      exact ⟨(h.dump hd.1).1, wordsAt_congr fun i _ => (h.dump hd.1).2 _⟩
    · simp only [if_neg hd]
      refine ⟨h, wordsAt_congr fun i hi => h.out _ ?_⟩
      intro hx
      apply hd
      refine ⟨hx.1, ?_⟩
      have hx := hx.2
      unfold bufLongs
      omega

theorem bStep_inv {s m} (h : BInv s m) (o : BOp) (hok : bOK s o) :
    BInv (bStep s o).1 (rStep m o).1 ∧ (bStep s o).2 = (rStep m o).2 := by
  cases o with
  | put a l f => exact ⟨putBuff_inv h a l f hok, rfl⟩
  | direct a l => exact ⟨h.direct a l hok, rfl⟩
  | read a n => exact read_inv h a n hok
  | readDirect a n =>
    refine ⟨h, ?_⟩
    show wordsAt s.disk (2 * a) n = wordsAt m (2 * a) n
    refine wordsAt_congr fun i hi => h.out _ ?_
    intro hx
    have := hok hx.1
    have hx := hx.2
    unfold clear at this
    omega
  | load a n => exact ⟨load_inv h a n, rfl⟩
  | flush => exact ⟨(flush_inv h).1, rfl⟩

theorem bRun_inv : ∀ (ops : List BOp) {s : BufState} {m : Nat → Int}, BInv s m → bAllOK s ops →
    BInv (bRun s ops).1 (rRun m ops).1 ∧ (bRun s ops).2 = (rRun m ops).2
  | [], s, m, h, _ => ⟨h, rfl⟩
  | o :: os, s, m, h, hok => by
    obtain ⟨i1, i2⟩ := bStep_inv h o hok.1
    obtain ⟨j1, j2⟩ := bRun_inv os i1 hok.2
    refine ⟨j1, ?_⟩
    show (bStep s o).2 :: _ = (rStep m o).2 :: _
    rw [i2, j2]

end Hec
