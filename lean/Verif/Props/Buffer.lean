import Verif.Proofs.Buffer
/-! C26: write buffering is invisible. -/
namespace Hec
open _root_.Spec (BOp bStep rStep bRun rRun clear bOK bAllOK)

/-- A file with an empty buffer of `size` 32-bit words. -/
def newBuffer (disk : Nat → Int) (fileSize size : Nat) : BufState :=
  { disk := disk, fileSize := fileSize, size := size, stat := .unused, addr := 0, used := 0, buf := fun _ => 0 }

/-- C26 (partial: requests that keep to `bAllOK`). Whatever the buffer size, the contents of the file and
the sequence of writes, reads, loads and flushes, every read returns what it would without a buffer; and
after a final flush the disk is what it would be. -/
theorem C26_invisible_partial (disk : Nat → Int) (fileSize size : Nat) (ops : List BOp)
    (hok : bAllOK (newBuffer disk fileSize size) ops) :
    (bRun (newBuffer disk fileSize size) ops).2 = (rRun disk ops).2 ∧
    (flushBuffers (bRun (newBuffer disk fileSize size) ops).1).disk = (rRun disk ops).1 := by
  have h0 : BInv (newBuffer disk fileSize size) disk := ⟨fun i _ => rfl, fun hx => absurd rfl hx⟩
  obtain ⟨h1, h2⟩ := bRun_inv ops h0 hok
  exact ⟨h2, funext (flush_inv h1).2⟩

/-- C26, no buffer: with a buffer of size 0, which is what the library's time series and generic record
calls use, every sequence of requests is as without a buffer, without any condition. -/
theorem C26_no_buffer (disk : Nat → Int) (fileSize : Nat) (ops : List BOp) :
    (bRun (newBuffer disk fileSize 0) ops).2 = (rRun disk ops).2 ∧
    (bRun (newBuffer disk fileSize 0) ops).1.disk = (rRun disk ops).1 := by
  suffices h : ∀ (ops : List BOp) (s : BufState) (m : Nat → Int),
      s.size = 0 → s.stat = .unused → s.disk = m →
      (bRun s ops).2 = (rRun m ops).2 ∧ (bRun s ops).1.disk = (rRun m ops).1 from
    h ops _ disk rfl rfl rfl
  intro ops
  induction ops with
  | nil => intro s m _ _ h; exact ⟨rfl, h⟩
  | cons o os ih =>
    intro s m hs hu hd
    have step : (bStep s o).1.size = 0 ∧ (bStep s o).1.stat = .unused ∧ (bStep s o).1.disk = (rStep m o).1 ∧
        (bStep s o).2 = (rStep m o).2 := by
      have pf : ∀ a l, putFirst s a l = s := fun a l => by unfold putFirst; rw [if_pos hu]
      have pb : ∀ a l f, putBuff s a l f = s.zput a l := fun a l f => by
        unfold putBuff; simp only [pf]; rw [if_pos ⟨by rw [hu]; simp, by omega⟩]
      cases o with
      | put a l f =>
        show (putBuff s a l f).size = 0 ∧ _
        simp only [bStep, pb]
        exact ⟨hs, hu, by subst hd; rfl, rfl⟩
      | direct a l => exact ⟨hs, hu, by subst hd; rfl, rfl⟩
      | read a n =>
        have : readBuff s a n = (s, wordsAt s.disk (2 * a) n) := by unfold readBuff; rw [if_pos hu]
        simp only [bStep, this]
        exact ⟨hs, hu, hd, by subst hd; rfl⟩
      | readDirect a n => exact ⟨hs, hu, hd, by subst hd; rfl⟩
      | load a n =>
        have : loadBuff s a n = s := by
          unfold loadBuff
          rw [if_neg (by rw [hu]; simp : ¬ s.stat = .dirty)]
          simp only
          rw [if_pos (Or.inl hu), if_pos hs]
        simp only [bStep, this]
        exact ⟨hs, hu, hd, rfl⟩
      | flush =>
        simp only [bStep, flushBuffers, pb]
        refine ⟨hs, hu, ?_, rfl⟩
        show copyAt s.disk 0 [] = m
        rw [copyAt_nil]; exact hd
    obtain ⟨j1, j2⟩ := ih _ (rStep m o).1 step.1 step.2.1 step.2.2.1
    refine ⟨?_, j2⟩
    show (bStep s o).2 :: _ = (rStep m o).2 :: _
    rw [step.2.2.2, j1]

/-- A history that meets the conditions: contiguous writes, a read of them before they are on disk, a
write elsewhere, and reads of both. -/
def sampleBufOps : List BOp :=
  [.put 10 [1, 2, 3, 4] false, .put 12 [5, 6] false, .read 11 4, .put 50 [7, 8] true, .read 10 6, .read 50 2]

example : (bRun (newBuffer (fun i => i) 1000 20) sampleBufOps).2 = [[], [], [3, 4, 5, 6], [], [1, 2, 3, 4, 5, 6], [7, 8]] := by
  decide +kernel

example : bAllOK (newBuffer (fun i => i) 1000 20) sampleBufOps := by
  simp [sampleBufOps, bAllOK, bOK, bStep, newBuffer, putBuff, putFirst, readBuff, bufLongs, BufState.dump,
    BufState.zput, clear]

/-- C26 fails for a write that lands in the buffer after a gap: the words in the gap, which nothing asked
to change, are overwritten by what the buffer held. -/
theorem C26_gap_violation :
    ∃ ops : List BOp, (flushBuffers (bRun (newBuffer (fun i => i) 1000 20) ops).1).disk 24 ≠ (rRun (fun i => i) ops).1 24 :=
  ⟨[.put 10 [1, 2, 3, 4] false, .put 13 [5, 6] false], by decide +kernel⟩

/-- C26 fails after a write too large for the buffer: a later read is served from the buffer's old contents. -/
theorem C26_stale_violation :
    ∃ ops : List BOp, (bRun (newBuffer (fun i => i) 1000 4) ops).2 ≠ (rRun (fun i => i) ops).2 :=
  ⟨[.put 10 [1, 2] true, .put 10 [3, 4, 5, 6, 7, 8] false, .read 10 2], by decide +kernel⟩

/-- C26 fails for an odd number of words: a read of one word more gets a word of the buffer instead of
the one on disk. -/
theorem C26_odd_violation :
    ∃ ops : List BOp, (bRun (newBuffer (fun i => i) 1000 20) ops).2 ≠ (rRun (fun i => i) ops).2 :=
  ⟨[.put 10 [1, 2, 3] false, .read 10 4], by decide +kernel⟩

/-- The buffer can be overrun: with a buffer of an odd number of words, a write that the range check
accepts puts a word past its end. -/
theorem C26_overrun_violation :
    ∃ (s : BufState) (a : Nat) (l : List Int), s.stat ≠ .unused ∧
      (a ≥ s.addr ∧ a + bufLongs l.length ≤ s.addr + bufLongs s.size) ∧ s.size < (putBuff s a l false).used :=
  ⟨putBuff (newBuffer (fun i => i) 1000 5) 10 [1, 2] false, 10, [1, 2, 3, 4, 5, 6], by decide +kernel,
    by decide +kernel, by decide +kernel⟩

end Hec
