import Verif.Proofs.LocksHeader
/-!
C35, C43, C44: concurrent writers.
-/
namespace Hec
open _root_.Spec (WriterMode WithFlush CanWrite)

/-- **C35**, mutual exclusion.  Any number of processes, one handle each, any interleaving of their
steps, any access modes other than read-only, any processes dying at any moment: at no moment can
two handles write to the file.  (Partial: one handle per process, no read-only mode, see the
counterexamples below.) -/
theorem C35_exclusion_partial (pr : Nat → Nat) (hinj : ∀ a b, pr a = pr b → a = b) (n : Nat)
    (t : List LEv) (s : LSys) (hrun : lrun pr (lstart n) t = some s) (hm : ∀ e ∈ t, WriterMode e)
    (i j : Nat) (hi : CanWrite pr s i) (hj : CanWrite pr s j) : i = j := by
  have o := owns_run hinj t _ s hm (owns_start pr n) hrun
  have a := (o i).own ((canWrite_iff pr s i).1 hi).2.2
  have b := (o j).own ((canWrite_iff pr s j).1 hj).2.2
  rw [a] at b
  exact hinj _ _ (Option.some.inj b)

/-- **C43**, header updates are never undone: when every lock and unlock is made with the flush
flag, what is in the file header on disk at some moment of a run is still in it later. -/
theorem C43_header_grows_partial (pr : Nat → Nat) (hinj : ∀ a b, pr a = pr b → a = b) (n : Nat)
    (t1 t2 : List LEv) (s1 s2 : LSys) (h1 : lrun pr (lstart n) t1 = some s1) (h2 : lrun pr s1 t2 = some s2)
    (hm : ∀ e ∈ t1 ++ t2, WriterMode e) (hf : ∀ e ∈ t1 ++ t2, WithFlush e) : s1.disk <+: s2.disk := by
  have a := (linv_run hinj t1 _ s1 (fun e he => hm e (List.mem_append_left _ he))
    (fun e he => hf e (List.mem_append_left _ he)) (linv_start pr n) h1).1
  obtain ⟨-, own, e⟩ := linv_run hinj t2 s1 s2 (fun e he => hm e (List.mem_append_right _ he))
    (fun e he => hf e (List.mem_append_right _ he)) a h2
  exact ⟨own, e.symm⟩

/-- **C43**, no update is lost: when every lock and unlock is made with the flush flag, an update
made by a handle is in the file header on disk once the handle has unlocked at the level it locked
with, whatever the other processes did meanwhile, unless the process itself ended in between. -/
theorem C43_no_lost_update_partial (pr : Nat → Nat) (hinj : ∀ a b, pr a = pr b → a = b) (n : Nat)
    (t1 t2 : List LEv) (i u lvl : Nat) (s1 s2 : LSys)
    (h1 : lrun pr (lstart n) (t1 ++ .write i u :: t2) = some s1)
    (h2 : lrun pr s1 [.lockOff i lvl true] = some s2) (hlvl : (s1.h i).level ≤ lvl)
    (hm : ∀ e ∈ t1 ++ .write i u :: t2, WriterMode e) (hf : ∀ e ∈ t1 ++ .write i u :: t2, WithFlush e)
    (hd : LEv.die i ∉ t2) : u ∈ s2.disk := by
  obtain ⟨a, ha, hb⟩ := lrun_append pr t1 _ _ _ h1
  have ia := (linv_run hinj t1 _ a (fun e he => hm e (List.mem_append_left _ he))
    (fun e he => hf e (List.mem_append_left _ he)) (linv_start pr n) ha).1
  simp only [lrun] at hb
  split at hb
  · exact absurd hb (by simp)
  · rename_i b hw
    obtain ⟨ib, -⟩ := linv_step hinj (e := .write i u) trivial trivial ia hw
    have pb : Pending b i u := by
      simp only [lstep] at hw
      split at hw
      · rename_i hc
        injection hw with hw; subst hw
        exact Or.inr ⟨by rw [set_same]; exact List.mem_append_right _ List.mem_cons_self, by rw [set_same]; exact hc.2.2, by rw [set_same]⟩
      · exact absurd hw (by simp)
    have hm2 : ∀ e ∈ t2, WriterMode e := fun e he => hm e (List.mem_append_right _ (List.mem_cons_of_mem _ he))
    have hf2 : ∀ e ∈ t2, WithFlush e := fun e he => hf e (List.mem_append_right _ (List.mem_cons_of_mem _ he))
    have p1 := pending_run hinj t2 i u b s1 hm2 hf2 hd ib hb pb
    have i1 := (linv_run hinj t2 b s1 hm2 hf2 ib hb).1
    simp only [lrun] at h2
    split at h2
    · exact absurd h2 (by simp)
    · rename_i m hoff
      injection h2 with h2; subst h2
      have p2 := pending_step hinj (e := .lockOff i lvl true) trivial rfl i1 hoff (by simp) p1
      rcases p2 with p2 | ⟨-, -, p2⟩
      · exact p2
      · simp only [lstep] at hoff
        split at hoff
        · rename_i hc
          injection hoff with hoff; subst hoff
          have := (eff_off (i1.clean i) hc.2 ((i1.owns i).acc hc.1) lvl).2 hlvl
          rw [this] at p2
          exact absurd p2 (by simp)
        · exact absurd hoff (by simp)

/-- A scan that finds another user: some position other than ours is held by another process. -/
theorem otherFrom_iff (p : Nat) (mine : Option Nat) : ∀ (a : List (Option Nat)) (i : Nat),
    otherFrom p mine i a = true ↔ ∃ k, k < a.length ∧ mine ≠ some (i + k) ∧ ∃ q, a[k]? = some (some q) ∧ q ≠ p := by
  intro a
  induction a with
  | nil => intro i; simp [otherFrom]
  | cons o os ih =>
    intro i
    simp only [otherFrom, Bool.or_eq_true, Bool.and_eq_true, decide_eq_true_eq, ih (i + 1)]
    constructor
    · rintro (⟨h1, h2⟩ | ⟨k, hk, h1, q, h2, h3⟩)
      · cases o with
        | none => simp [heldByOther] at h2
        | some q =>
          simp [heldByOther] at h2
          exact ⟨0, by simp, by simpa using h1, q, by simp, h2⟩
      · exact ⟨k + 1, by simpa using hk, by rw [show i + (k + 1) = i + 1 + k by omega]; exact h1, q, by simpa using h2, h3⟩
    · rintro ⟨k, hk, h1, q, h2, h3⟩
      cases k with
      | zero =>
        left
        simp only [List.getElem?_cons_zero, Option.some.injEq] at h2
        subst h2
        exact ⟨by simpa using h1, by simpa [heldByOther] using h3⟩
      | succ k =>
        right
        exact ⟨k, by simpa using hk, by rw [show i + 1 + k = i + (k + 1) by omega]; exact h1, q, by simpa using h2, h3⟩

/-- The scan of the passive locks finds every other user, except one in the last word of the array
if our own word is the first. -/
theorem passiveTest_true (p m : Nat) (a : List (Option Nat)) (k q : Nat) (hq : a[k]? = some (some q)) (hp : q ≠ p)
    (hk : k ≠ m) (hlast : m = 0 → k + 1 < a.length) : passiveTest p (some m) a = true := by
  have hlt : k < a.length := by
    rcases Nat.lt_or_ge k a.length with h | h
    · exact h
    · rw [List.getElem?_eq_none h] at hq; exact absurd hq (by simp)
  unfold passiveTest
  by_cases hm : m = 0
  · subst hm
    have hl := hlast rfl
    rw [if_pos rfl, Bool.and_eq_true]
    constructor
    · rw [List.any_eq_true]
      refine ⟨some q, ?_, by simpa [heldByOther] using hp⟩
      refine List.mem_of_getElem? (i := k - 1) ?_
      rw [List.getElem?_drop, show 1 + (k - 1) = k by omega]; exact hq
    · rw [otherFrom_iff]
      refine ⟨k, by rw [List.length_take]; omega, by simp; omega, q, ?_, hp⟩
      rw [List.getElem?_take, if_pos (by omega)]; exact hq
  · rw [if_neg (by simpa using hm), if_neg (by simp), otherFrom_iff]
    exact ⟨k, hlt, by simp; omega, q, hq, hp⟩

/-- **C44**, a single user gives way: a handle in the advisory mode that keeps the file locked,
and finds another process that announced itself as a writer, releases the lock at the end of its
next operation.  (Not found: an announcement in the last of the words, if ours is the first.) -/
theorem C44_gives_way (pr : Nat → Nat) (s : LSys) (i lvl m k q : Nat) (fl : Bool)
    (ho : (s.h i).isOpen = true) (hidle : (s.h i).pc = .idle) (hadv : (s.h i).access = accAdvisory)
    (hlock : (s.h i).locked = true) (hown : s.word = some (pr i)) (hlvl : (s.h i).level ≤ lvl)
    (hm : (s.h i).wslot = some m) (hk : s.wslots[k]? = some (some q)) (hq : q ≠ pr i) (hkm : k ≠ m)
    (hlast : m = 0 → k + 1 < s.wslots.length) :
    ∃ s', lrun pr s [.lockOn i lvl fl, .adv i, .adv i, .adv i, .lockOff i lvl true, .adv i] = some s' ∧
      s'.word = none ∧ ¬ CanWrite pr s' i := by
  have ht := passiveTest_true (pr i) m s.wslots k q hk hq hkm hlast
  have e1 : lstep pr s (.lockOn i lvl fl) = some (s.set i { s.h i with pc := .slot lvl fl }) := by
    simp only [lstep]; rw [if_pos ⟨ho, hidle⟩]
    unfold startOn
    simp only []
    rw [if_neg (by omega), if_pos (by rw [hadv]; decide)]
  generalize hs1 : s.set i { s.h i with pc := .slot lvl fl } = s1 at e1
  have g1 : s1.h i = { s.h i with pc := .slot lvl fl } := by rw [← hs1, set_same]
  have e2 : lstep pr s1 (.adv i) = some (s1.set i { s1.h i with pc := .look lvl fl }) := by
    simp only [lstep]; rw [if_pos (by rw [g1]; exact ho)]
    unfold advance
    simp only [g1, hm]
    simp
  generalize hs2 : s1.set i { s1.h i with pc := .look lvl fl } = s2 at e2
  have g2 : s2.h i = { s.h i with pc := .look lvl fl } := by rw [← hs2, set_same, g1]
  have w2 : s2.wslots = s.wslots := by rw [← hs2, ← hs1]; rfl
  have e3 : lstep pr s2 (.adv i) = some (s2.set i { s.h i with pc := .record, access := accMulti }) := by
    simp only [lstep]; rw [if_pos (by rw [g2]; exact ho)]
    unfold advance
    simp only [g2, w2, hm, ht, hadv, hlock]
    simp
  generalize hs3 : s2.set i { s.h i with pc := .record, access := accMulti } = s3 at e3
  have g3 : s3.h i = { s.h i with pc := .record, access := accMulti } := by rw [← hs3, set_same]
  obtain ⟨s4, e4, g4, w4⟩ : ∃ s4, lstep pr s3 (.adv i) = some s4 ∧
      (∃ pd wr, s4.h i = { s.h i with access := accMulti, pid := pd, writing := wr }) ∧ s4.word = s.word := by
    simp only [lstep]; rw [if_pos (by rw [g3]; exact ho)]
    unfold advance
    simp only [g3]
    have w3 : s3.word = s.word := by rw [← hs3, ← hs2, ← hs1]; rfl
    split
    · exact ⟨_, rfl, ⟨(s.h i).pid, (s.h i).writing, by rw [set_same, hidle]⟩, w3⟩
    · exact ⟨_, rfl, ⟨true, true, by rw [set_same, hidle]⟩, w3⟩
  obtain ⟨pd, wr, g4⟩ := g4
  obtain ⟨s5, e5, g5, o5, w5⟩ : ∃ s5, lstep pr s4 (.lockOff i lvl true) = some s5 ∧
      (s5.h i).pc = .unlock ∧ (s5.h i).isOpen = true ∧ s5.word = s.word := by
    simp only [lstep]; rw [if_pos (by rw [g4]; exact ⟨ho, hidle⟩)]
    refine ⟨_, rfl, ?_⟩
    unfold startOff
    have a1 : ¬ lvl < (s4.h i).level := by rw [g4]; exact Nat.not_lt.2 hlvl
    have a2 : accRead < (s4.h i).access := by rw [g4]; show 1 < 2; decide
    have a3 : ¬ (s4.h i).access = accRelease := by rw [g4]; show ¬ accMulti = accRelease; decide
    have a4 : (s4.h i).locked = true := by rw [g4]; exact hlock
    have a5 : (s4.h i).access = accMulti := by rw [g4]
    simp only []
    rw [if_neg a1, if_pos a2, if_neg a3, if_pos a4, if_pos a5]
    exact ⟨by rw [set_same], by rw [set_same, flush_h_same, set_same, g4]; exact ho, by rw [set_word, flush_word, set_word, w4]⟩
  refine ⟨{ s5.set i { s5.h i with pc := .idle, locked := false } with word := unlockWord (pr i) s5.word }, ?_, ?_, ?_⟩
  · simp only [lrun, e1, e2, e3, e4, e5]
    simp only [lstep]
    rw [if_pos o5]
    unfold advance
    simp only [g5]
  · show unlockWord (pr i) s5.word = none
    rw [w5, hown]; simp [unlockWord]
  · rw [canWrite_iff]
    rintro ⟨-, -, h⟩
    have : ((s5.set i { s5.h i with pc := .idle, locked := false }).h i).locked = true := h
    rw [set_same] at this
    exact absurd this (by simp)

/-! ### Concrete runs -/

/-- Two processes, one handle each. -/
def twoProcs : Nat → Nat := fun i => i

/-- Handle 1 opens, writes update 100 and stays locked (advisory mode); handle 2 opens and has to
wait; handle 1 notices at its next operation and lets go; handle 2 then gets the lock, reads the
header with both of handle 1's updates, and writes update 200. -/
def handOver : List LEv :=
  [.openF 1 0, .lockOn 1 1 true, .adv 1, .adv 1, .adv 1, .adv 1, .adv 1, .write 1 100, .lockOff 1 1 true,
   .openF 2 0, .lockOn 2 1 true, .adv 2, .adv 2, .adv 2, .adv 2,
   .lockOn 1 1 true, .adv 1, .adv 1, .adv 1, .write 1 101, .lockOff 1 1 true, .adv 1,
   .adv 2, .adv 2, .adv 2, .write 2 200, .lockOff 2 1 true, .adv 2]

/-- The run is possible, keeps to the assumptions, and all updates are on disk at its end. -/
example : (∀ e ∈ handOver, WriterMode e) ∧ (∀ e ∈ handOver, WithFlush e) ∧
    (lrun twoProcs (lstart 25) handOver).map (fun s => (s.disk, s.word)) = some ([100, 101, 200], none) := by
  refine ⟨by decide, by decide, by decide +kernel⟩

/-- Handle 2 cannot pass its wait while handle 1 has the file. -/
example : lrun twoProcs (lstart 25) (handOver.take 15 ++ [.adv 2]) = none ∧
    (lrun twoProcs (lstart 25) (handOver.take 15)).isSome = true := by
  refine ⟨?_, by decide +kernel⟩
  have h : (lrun twoProcs (lstart 25) (handOver.take 15 ++ [.adv 2])).isNone = true := by decide +kernel
  exact Option.isNone_iff_eq_none.1 h

/-- The hypotheses of `C44_gives_way` hold after 15 events of that run. -/
example : (lrun twoProcs (lstart 25) (handOver.take 15)).map (fun s =>
      decide ((s.h 1).access = accAdvisory ∧ (s.h 1).locked = true ∧ (s.h 1).level ≤ 1 ∧ (s.h 1).wslot = some 0 ∧ s.word = some 1 ∧ s.wslots[1]? = some (some 2))) =
    some true := by decide +kernel

/-! ### What is false -/

/-- A run after which two given handles can both write. -/
def bothWrite (pr : Nat → Nat) (t : List LEv) (i j : Nat) : Bool :=
  ((lrun pr (lstart 25) t).map fun s =>
    (s.h i).isOpen && decide ((s.h i).pc = .idle) && (s.h i).locked && ((s.h j).isOpen && decide ((s.h j).pc = .idle) && (s.h j).locked)).getD false

theorem bothWrite_sound {pr : Nat → Nat} {t : List LEv} {i j : Nat} (h : bothWrite pr t i j = true) :
    ∃ s, lrun pr (lstart 25) t = some s ∧ CanWrite pr s i ∧ CanWrite pr s j := by
  unfold bothWrite at h
  cases hr : lrun pr (lstart 25) t with
  | none => rw [hr] at h; exact absurd h (by simp)
  | some s =>
    rw [hr] at h
    simp only [Option.map_some, Option.getD_some, Bool.and_eq_true, decide_eq_true_eq] at h
    exact ⟨s, rfl, (canWrite_iff pr s i).2 ⟨h.1.1.1, h.1.1.2, h.1.2⟩, (canWrite_iff pr s j).2 ⟨h.2.1.1, h.2.1.2, h.2.2⟩⟩

/-- **Defect**: two handles of one process are not kept apart (POSIX record locks belong to the
process): with the file open twice, both handles hold the write lock. -/
theorem C35_same_process_violation : ∃ (t : List LEv) (s : LSys), (∀ e ∈ t, WriterMode e) ∧
    lrun (fun _ => 7) (lstart 25) t = some s ∧ CanWrite (fun _ => 7) s 1 ∧ CanWrite (fun _ => 7) s 2 := by
  have h : bothWrite (fun _ => 7) [.openF 1 0, .lockOn 1 1 true, .adv 1, .adv 1, .adv 1, .adv 1, .adv 1,
      .openF 2 0, .lockOn 2 1 true, .adv 2, .adv 2, .adv 2, .adv 2, .adv 2] 1 2 = true := by decide +kernel
  obtain ⟨s, h1, h2, h3⟩ := bothWrite_sound h
  exact ⟨_, s, by decide, h1, h2, h3⟩

/-- **Defect**: after zset("MULT", READ_ACCESS) on a handle opened for writing, the handle is
marked as locked without any lock, and writes are accepted while another process has the lock. -/
theorem C35_read_mode_violation : ∃ (t : List LEv) (s : LSys),
    lrun twoProcs (lstart 25) t = some s ∧ CanWrite twoProcs s 1 ∧ CanWrite twoProcs s 2 := by
  have h : bothWrite twoProcs [.openF 1 0, .lockOn 1 1 true, .adv 1, .adv 1, .adv 1, .adv 1, .adv 1,
      .openF 2 0, .setAccess 2 1, .lockOn 2 1 true] 1 2 = true := by decide +kernel
  obtain ⟨s, h1, h2, h3⟩ := bothWrite_sound h
  exact ⟨_, s, h1, h2, h3⟩

/-- **Defect**: an operation that fails after locking unlocks without the flush flag
(zrename.c:199-207, zwriteInternal.c:326 and 355) and leaves `kwritingNow` set, because the first
lock wrote the process identifier.  The next lock then refuses to read the file header
(zpermRead.c:52) and goes on with the old one: the update of process 2, made in between, is on disk
at first and gone at the end.  Each handle is in multi-user mode, locks and unlocks properly. -/
theorem C43_lost_update_violation : ∃ (t1 t2 : List LEv) (s1 s2 : LSys),
    (∀ e ∈ t1 ++ t2, WriterMode e) ∧ (∀ e ∈ t1 ++ t2, ∀ i a, e = .openF i a → a = accMulti) ∧
    lrun twoProcs (lstart 25) t1 = some s1 ∧ lrun twoProcs s1 t2 = some s2 ∧
    200 ∈ s1.disk ∧ s1.word = none ∧ 200 ∉ s2.disk ∧ 100 ∈ s2.disk := by
  let t1 : List LEv := [.openF 1 2,
    -- zrename of a record that does not exist
    .lockOn 1 2 true, .adv 1, .adv 1, .adv 1, .adv 1, .adv 1, .lockOff 1 2 false, .adv 1,
    -- another process writes a record
    .openF 2 2, .lockOn 2 1 true, .adv 2, .adv 2, .adv 2, .adv 2, .adv 2, .write 2 200, .lockOff 2 1 true, .adv 2]
  let t2 : List LEv := [.lockOn 1 1 true, .adv 1, .adv 1, .adv 1, .adv 1, .adv 1, .write 1 100, .lockOff 1 1 true, .adv 1]
  have h : (match lrun twoProcs (lstart 25) t1 with
    | none => false
    | some s1 => match lrun twoProcs s1 t2 with
      | none => false
      | some s2 => decide (200 ∈ s1.disk ∧ s1.word = none ∧ 200 ∉ s2.disk ∧ 100 ∈ s2.disk)) = true := by decide +kernel
  refine ⟨t1, t2, ?_⟩
  split at h
  · exact absurd h (by simp)
  · rename_i s1 e1
    split at h
    · exact absurd h (by simp)
    · rename_i s2 e2
      refine ⟨s1, s2, by decide, ?_, e1, e2, of_decide_eq_true h⟩
      intro e he i a hea
      subst hea
      simp [t1, t2] at he
      rcases he with he | he
      · exact he.2
      · exact he.2

/-- **Defect**: opening in exclusive mode reads the header before it takes the lock, and does not
read it again (zopenInternal.c:380, LOCKING_FLUSH_OFF): what another process wrote and closed in
between is lost. -/
theorem C43_exclusive_open_violation : ∃ (t1 t2 : List LEv) (s1 s2 : LSys),
    (∀ e ∈ t1 ++ t2, WriterMode e) ∧
    lrun twoProcs (lstart 25) t1 = some s1 ∧ lrun twoProcs s1 t2 = some s2 ∧
    200 ∈ s1.disk ∧ s1.word = none ∧ 200 ∉ s2.disk ∧ 100 ∈ s2.disk := by
  let t1 : List LEv := [.openF 2 2, .lockOn 2 1 true, .adv 2, .adv 2, .adv 2, .adv 2, .adv 2, .write 2 200,
    .openF 1 4, .lockOff 2 1 true, .adv 2, .die 2]
  let t2 : List LEv := [.lockOn 1 3 false, .adv 1, .adv 1, .adv 1, .adv 1, .adv 1, .adv 1,
    .lockOn 1 3 true, .adv 1, .adv 1, .adv 1, .write 1 100, .lockOff 1 3 true]
  have h : (match lrun twoProcs (lstart 25) t1 with
    | none => false
    | some s1 => match lrun twoProcs s1 t2 with
      | none => false
      | some s2 => decide (200 ∈ s1.disk ∧ s1.word = none ∧ 200 ∉ s2.disk ∧ 100 ∈ s2.disk)) = true := by decide +kernel
  refine ⟨t1, t2, ?_⟩
  split at h
  · exact absurd h (by simp)
  · rename_i s1 e1
    split at h
    · exact absurd h (by simp)
    · rename_i s2 e2
      exact ⟨s1, s2, by decide, e1, e2, of_decide_eq_true h⟩

/-- **Defect**: a section of a higher level is not protected if the handle kept the file locked
from before (advisory mode): locking again does not set the level (zlockActive.c:244), so the
unlock of a nested operation releases the file in the middle of the section, if another writer has
shown up.  Here handle 1 is inside a section of level 2, has done a nested operation of level 1,
and can no longer write: zput fails for the rest of the section. -/
theorem C35_nested_violation : ∃ (t : List LEv) (s : LSys), (∀ e ∈ t, WriterMode e) ∧ (∀ e ∈ t, WithFlush e) ∧
    lrun twoProcs (lstart 25) t = some s ∧ (s.h 1).pc = .idle ∧ ¬ CanWrite twoProcs s 1 ∧
    (∃ t0, t = t0 ++ [.lockOn 1 2 true, .adv 1, .adv 1, .adv 1, .write 1 101,
      .lockOn 1 1 true, .adv 1, .adv 1, .adv 1, .write 1 102, .lockOff 1 1 true, .adv 1]) := by
  let t0 : List LEv := handOver.take 15
  let t : List LEv := t0 ++ [.lockOn 1 2 true, .adv 1, .adv 1, .adv 1, .write 1 101,
      .lockOn 1 1 true, .adv 1, .adv 1, .adv 1, .write 1 102, .lockOff 1 1 true, .adv 1]
  have h : (match lrun twoProcs (lstart 25) t with
    | none => false
    | some s => decide ((s.h 1).pc = .idle ∧ (s.h 1).locked = false)) = true := by decide +kernel
  refine ⟨t, ?_⟩
  split at h
  · exact absurd h (by simp)
  · rename_i s e1
    have := of_decide_eq_true h
    refine ⟨s, by decide, by decide, e1, this.1, ?_, t0, rfl⟩
    rw [canWrite_iff, this.2]
    simp

/-- In contrast, a section that takes the lock itself is protected: the nested unlock is ignored. -/
example : (lrun twoProcs (lstart 25) [.openF 1 2, .lockOn 1 2 true, .adv 1, .adv 1, .adv 1, .adv 1, .adv 1, .write 1 101,
      .lockOn 1 1 true, .write 1 102, .lockOff 1 1 true, .write 1 103, .lockOff 1 2 true, .adv 1]).map (fun s => (s.disk, s.word)) =
    some ([101, 102, 103], none) := by decide +kernel

/-- **Defect**: the scan for other writers misses a writer in the last word of the array if our own
word is the first one (the array is shortened by one, then scanned from the start):
zlockPassive.c:279-280 and 293-310.  The single user then keeps the lock. -/
theorem C44_last_slot_violation (p q : Nat) (_h : q ≠ p) (n : Nat) :
    passiveTest p (some 0) (some p :: List.replicate n none ++ [some q]) = false := by
  have hl : (some p :: List.replicate n none ++ [some q] : List (Option Nat)).length - 1 = n + 1 := by simp
  unfold passiveTest
  rw [if_pos rfl, hl]
  have : (some p :: List.replicate n none ++ [some q] : List (Option Nat)).take (n + 1) = some p :: List.replicate n none := by
    simp
  rw [this]
  have hf : otherFrom p (some 0) 0 (some p :: List.replicate n none) = false := by
    rw [← Bool.not_eq_true, otherFrom_iff]
    rintro ⟨k, hk, h1, r, h2, h3⟩
    cases k with
    | zero => exact h1 rfl
    | succ k =>
      simp only [List.getElem?_cons_succ, List.getElem?_replicate] at h2
      split at h2 <;> simp at h2
  rw [hf, Bool.and_false]

/-- **Defect**: leaving the exclusive mode with zset("MULT", MULTI_USER_ACCESS) unlocks only the
first of the two words that exclusive mode locked (zlockActive.c:426 against 253).  The process no
longer has the file, but another process that has to wait for a third one is refused
(CANNOT_LOCK_FILE) instead of waiting: its step from the test of the exclusive word is not possible,
giving up is. -/
theorem C44_exclusive_word_stays_violation : ∃ (t : List LEv) (s : LSys), (∀ e ∈ t, WriterMode e) ∧ (∀ e ∈ t, WithFlush e) ∧
    lrun twoProcs (lstart 25) t = some s ∧ ¬ CanWrite twoProcs s 1 ∧ s.word = some 2 ∧ s.xword = some 1 ∧
    lstep twoProcs s (.adv 3) = none ∧ (lstep twoProcs s (.giveUp 3)).isSome = true := by
  let t : List LEv := [.openF 1 4, .lockOn 1 3 true, .adv 1, .adv 1, .adv 1, .adv 1, .adv 1, .adv 1,
    -- zset("MULT", MULTI_USER_ACCESS): zsetFile.c:134-146
    .lockOff 1 3 true, .setAccess 1 2, .lockOff 1 3 true, .adv 1,
    .openF 2 2, .lockOn 2 1 true, .adv 2, .adv 2, .adv 2, .adv 2, .adv 2,
    .openF 3 2, .lockOn 3 1 true, .adv 3, .adv 3, .adv 3]
  have h : (match lrun twoProcs (lstart 25) t with
    | none => false
    | some s => decide ((s.h 1).locked = false ∧ s.word = some 2 ∧ s.xword = some 1 ∧
        (lstep twoProcs s (.adv 3)).isNone = true ∧ (lstep twoProcs s (.giveUp 3)).isSome = true)) = true := by decide +kernel
  refine ⟨t, ?_⟩
  split at h
  · exact absurd h (by simp)
  · rename_i s e1
    obtain ⟨h1, h2, h3, h4, h5⟩ := of_decide_eq_true h
    refine ⟨s, by decide, by decide, e1, ?_, h2, h3, Option.isNone_iff_eq_none.1 h4, h5⟩
    rw [canWrite_iff, h1]
    simp

end Hec
