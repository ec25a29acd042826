import Verif.Proofs.EngineHist
import Verif.Spec.Layout
/-!
The record engine: what histories of writes, deletes, undeletes and renames do (C27 - C33, C41).
The theorems are about every file made by `create`, with the hash functions of the library.
-/
namespace Hec
set_option linter.unusedSimpArgs false
set_option linter.unusedVariables false
open _root_.Spec (Op Store Step Steps run runs Allowed AllAllowed Plain Reachable GoodSizes create Linked Apart Inside WellFormed
  join keepDates renamed SixParts stored next lastWritten countWrites oddHeaders compatible)
open Hec.Spec (sameUpToCase)

theorem create_OK {hdrSize maxHash binSize : Nat} {mul : Nat → Nat} (g : GoodSizes hdrSize maxHash binSize) :
    (create hdrSize maxHash binSize mul).1.OK := by
  refine newFile_OK g.hdr g.bin ?_ ?_ ?_ ?_
  · intro p _
    obtain ⟨v, hv, h⟩ := C21_table_index p maxHash g.two g.max
    unfold _root_.Spec.tHash
    rw [h _ (by omega)]
    exact hv
  · intro p q h
    unfold _root_.Spec.tHash
    rw [(C21_ignores_case p q (same_iff.mpr h) _ _).2, h.length]
  · intro p q h
    unfold _root_.Spec.pHash
    rw [(C21_ignores_case p q (same_iff.mpr h) 2 0).1]
  · intro p h
    have := C21_nonzero p
    apply this
    have h : (pathnameHash p).toNat = 0 := h
    exact BitVec.eq_of_toNat_eq (by simpa using h)

section
variable {hdrSize maxHash binSize : Nat} {mul : Nat → Nat}

theorem reach (g : GoodSizes hdrSize maxHash binSize) {past : List Op} {s : Eng}
    (R : Reachable (create hdrSize maxHash binSize mul).1 (create hdrSize maxHash binSize mul).2 past s) :
    ∃ G, HInv (create hdrSize maxHash binSize mul).1 G s past := by
  obtain ⟨ha, ress, hr⟩ := R
  obtain ⟨G', s', ress', h1, h2, h3⟩ := HInv.runs (create_OK g) past (newFile_inv (by have := g.bin; omega)) ha
  have : some (s', ress') = some (s, ress) := h1.symm.trans hr
  injection this with this
  injection this with this _
  subst this
  exact ⟨G', by simpa using h3⟩


/-! ### C27: reads return what was written -/

/-- C27.  Every history of writes, deletes, undeletes and renames that keeps to the conditions `Allowed` runs
through, and the reads after it are those of the reference store: a set of records, one for each
pathname up to letter case. -/
theorem C27_refines_store_partial (g : GoodSizes hdrSize maxHash binSize) (ops : List Op)
    (ha : AllAllowed (create hdrSize maxHash binSize mul).1 [] (create hdrSize maxHash binSize mul).2 ops) :
    ∃ s ress st, runs (create hdrSize maxHash binSize mul).1 (create hdrSize maxHash binSize mul).2 ops = some (s, ress) ∧
      Steps Store.empty ops ress st ∧
      ∀ q : Bytes, q.length ≤ 392 → zread (create hdrSize maxHash binSize mul).1 s q = some (st.live q) := by
  obtain ⟨G', s', ress', h1, h2, h3⟩ := HInv.runs (create_OK g) ops (newFile_inv (by have := g.bin; omega)) ha
  rw [newFile_abs] at h2
  exact ⟨s', ress', _, h1, h2, fun q hq => zread_abs (create_OK g) h3.inv hq⟩

theorem Steps.append {st0 st1 st2 : Store} {a b : List Op} {ra rb : List Res} (h1 : Steps st0 a ra st1) (h2 : Steps st1 b rb st2) :
    Steps st0 (a ++ b) (ra ++ rb) st2 := by
  induction h1 with
  | nil => exact h2
  | cons h _ ih => exact .cons h (ih h2)

/-- Writes and deletes. -/
def _root_.Spec.Op.simple : Op → Prop
  | .write _ => True
  | .delete _ => True
  | _ => False

/-- One call of the reference store, seen from one pathname. -/
theorem step_next {st st' : Store} {op : Op} {res : Res} (h : Step st op res st') (hu : op.simple)
    (hl : ∀ p q, sameUpToCase p q → st.live p = st.live q) (q : Bytes) : st'.live q = next q (st.live q) op := by
  cases h with
  | writeNew hn hs _ =>
    simp only [next]
    split
    · rename_i h; rw [(hs q).1 h, ← hl _ _ h, hn]
    · rename_i h; exact (hs q).2 h
  | overwrite hn hc hs _ =>
    simp only [next]
    split
    · rename_i h
      rw [(hs q).1 h, ← hl _ _ h, hn]
      simp only [if_pos hc]
    · rename_i h; exact (hs q).2 h
  | refused hn hc =>
    simp only [next]
    split
    · rename_i h
      rw [← hl _ _ h, hn]
      simp only [if_neg hc]
    · rfl
  | delete hn hs _ =>
    simp only [next]
    split
    · rename_i h; exact (hs q).1 h
    · rename_i h; exact (hs q).2 h
  | deleteMissing hn =>
    simp only [next]
    split
    · rename_i h; rw [← hl _ _ h, hn]
    · rfl
  | undelete _ _ _ => exact hu.elim
  | undeleteMissing _ => exact hu.elim
  | rename _ _ _ _ _ => exact hu.elim
  | renameMissing _ _ => exact hu.elim

theorem sameUp_symm {p q : Bytes} (h : sameUpToCase p q) : sameUpToCase q p := same_iff.mpr (same_iff.mp h).symm
theorem sameUp_trans {p q r : Bytes} (h : sameUpToCase p q) (h' : sameUpToCase q r) : sameUpToCase p r :=
  same_iff.mpr ((same_iff.mp h).trans (same_iff.mp h'))

open Classical in
theorem next_cong {p q : Bytes} (h : sameUpToCase p q) (old : Option Rec) (op : Op) : next p old op = next q old op := by
  cases op with
  | write r =>
    have : sameUpToCase r.path p ↔ sameUpToCase r.path q := ⟨fun x => sameUp_trans x h, fun x => sameUp_trans x (sameUp_symm h)⟩
    simp only [next, this]
  | delete r =>
    have : sameUpToCase r p ↔ sameUpToCase r q := ⟨fun x => sameUp_trans x h, fun x => sameUp_trans x (sameUp_symm h)⟩
    simp only [next, this]
  | undelete r => rfl
  | rename o n v => rfl

theorem steps_fold {st st' : Store} {ops : List Op} {ress : List Res} (h : Steps st ops ress st') (hu : ∀ op ∈ ops, op.simple)
    (hl : ∀ p q, sameUpToCase p q → st.live p = st.live q) (q : Bytes) : st'.live q = ops.foldl (next q) (st.live q) := by
  induction h with
  | nil => rfl
  | @cons st st1 st2 op ops res ress h1 _ ih =>
    have hn := step_next h1 (hu _ (by simp)) hl
    rw [ih (fun p e => hu p (by simp [e])), hn q]
    · rfl
    · intro a b hab
      rw [hn a, hn b, hl a b hab]
      exact next_cong hab _ _

/-- The static conditions imply those on the states. -/
theorem plain_allowed {c : Cfg} (hc : c.OK) (ops : List Op) : ∀ {past : List Op} {s : Eng}, Plain past ops → AllAllowed c past s ops := by
  induction ops with
  | nil => intros; trivial
  | cons op ops ih =>
    intro past s h
    refine ⟨?_, fun s' res _ => ih h.2⟩
    have h1 := h.1
    cases op with
    | write r =>
      obtain ⟨a, b, c1, d⟩ := h1
      exact ⟨a, b, fun R _ => Or.inl c1, fun _ => d⟩
    | delete p => exact h1
    | undelete p => exact h1.elim
    | rename o n v => exact h1.elim

theorem plain_simple (ops : List Op) : ∀ {past : List Op}, Plain past ops → ∀ op ∈ ops, op.simple := by
  induction ops with
  | nil => intro _ _ p h; cases h
  | cons op ops ih =>
    intro past h x hp
    rcases List.mem_cons.mp hp with rfl | hp
    · have := h.1
      cases x with
      | write r => trivial
      | delete p => trivial
      | undelete p => exact this
      | rename o n v => exact this
    · exact ih h.2 x hp

/-- C27 for histories whose conditions can be checked beforehand: writes and deletes, all headers of
even length, no pathname shorter than one deleted before.  Every call of such a history succeeds, and
reading any pathname gives what was written last, or nothing. -/
theorem C27_last_write_partial (g : GoodSizes hdrSize maxHash binSize) (ops : List Op) (hp : Plain [] ops) :
    ∃ s ress, runs (create hdrSize maxHash binSize mul).1 (create hdrSize maxHash binSize mul).2 ops = some (s, ress) ∧
      ∀ q : Bytes, q.length ≤ 392 → zread (create hdrSize maxHash binSize mul).1 s q = some (lastWritten q ops) := by
  obtain ⟨s, ress, st, h1, h2, h3⟩ := C27_refines_store_partial (mul := mul) g ops (plain_allowed (create_OK g) ops hp)
  refine ⟨s, ress, h1, fun q hq => ?_⟩
  rw [h3 q hq, steps_fold h2 (plain_simple ops hp) (fun _ _ _ => rfl) q]
  rfl

/-! ### C28: other records -/

theorem step_other {st st' : Store} {op : Op} {res : Res} (h : Step st op res st') {q : Bytes} (hne : ∀ p ∈ op.paths, ¬ sameUpToCase p q) :
    st'.live q = st.live q := by
  induction h with
  | writeNew _ h => exact (h q).2 (hne _ (by simp [Op.paths]))
  | overwrite _ _ h => exact (h q).2 (hne _ (by simp [Op.paths]))
  | refused => rfl
  | delete _ h => exact (h q).2 (hne _ (by simp [Op.paths]))
  | deleteMissing => rfl
  | undelete _ h => exact (h q).2 (hne _ (by simp [Op.paths]))
  | undeleteMissing => rfl
  | rename _ _ h1 h2 _ ih =>
    rw [(h2 q).2, (h1 q).2 (hne _ (by simp [Op.paths])), ih (fun p hp => hne p (by simp [Op.paths] at hp ⊢; exact Or.inr (Or.inl hp)))]
    unfold _root_.Spec.renamed
    split
    · exact hne _ (by simp [Op.paths])
    · exact hne _ (by simp [Op.paths])
  | renameMissing _ _ ih => exact ih (fun p hp => hne p (by simp [Op.paths] at hp ⊢; exact Or.inr (Or.inl hp)))

/-- C28.  A call goes through and leaves every record under another pathname than those it is about as it was. -/
theorem C28_other_records_partial (g : GoodSizes hdrSize maxHash binSize) {past : List Op} {s : Eng}
    (R : Reachable (create hdrSize maxHash binSize mul).1 (create hdrSize maxHash binSize mul).2 past s) (op : Op)
    (ha : Allowed (create hdrSize maxHash binSize mul).1 past s op) :
    ∃ s' res, run (create hdrSize maxHash binSize mul).1 s op = some (s', res) ∧
      ∀ q : Bytes, q.length ≤ 392 → (∀ p ∈ op.paths, ¬ sameUpToCase p q) →
        zread (create hdrSize maxHash binSize mul).1 s' q = zread (create hdrSize maxHash binSize mul).1 s q := by
  obtain ⟨G, H⟩ := reach g R
  obtain ⟨G', s', res, hr, S, H'⟩ := H.step (create_OK g) ha
  refine ⟨s', res, hr, fun q hq hne => ?_⟩
  rw [zread_abs (create_OK g) H.inv hq, zread_abs (create_OK g) H'.inv hq]
  congr 1
  exact step_other S.step hne

/-! ### C29: deleting and undeleting -/

/-- C29, first part.  Deleting a record that is there succeeds; afterwards it is not found, under any
spelling of the pathname, and every other record is as before.  Undeleting it next succeeds, and then
every read is what it was before the deletion. -/
theorem C29_delete_undelete_partial (g : GoodSizes hdrSize maxHash binSize) {past : List Op} {s : Eng}
    (R : Reachable (create hdrSize maxHash binSize mul).1 (create hdrSize maxHash binSize mul).2 past s) (p : Bytes)
    (hp : p.length ≤ 392) {rec : Rec} (hr : zread (create hdrSize maxHash binSize mul).1 s p = some (some rec)) :
    ∃ s1 s2, zdeleteInternal (create hdrSize maxHash binSize mul).1 s p false = some (s1, .ok) ∧
      (∀ q, q.length ≤ 392 → zread (create hdrSize maxHash binSize mul).1 s1 q =
        open Classical in if sameUpToCase p q then some none else zread (create hdrSize maxHash binSize mul).1 s q) ∧
      zdeleteInternal (create hdrSize maxHash binSize mul).1 s1 p true = some (s2, .ok) ∧
      ∀ q, q.length ≤ 392 → zread (create hdrSize maxHash binSize mul).1 s2 q = zread (create hdrSize maxHash binSize mul).1 s q := by
  obtain ⟨G, H⟩ := reach g R
  have hc := create_OK (mul := mul) g
  have hlv : (abs (create hdrSize maxHash binSize mul).1 G s.disk).live p = some rec := by
    have := zread_abs hc H.inv hp
    rw [hr] at this; injection this with this; exact this.symm
  have same_live : ∀ q, sameUpToCase p q → (abs (create hdrSize maxHash binSize mul).1 G s.disk).live q = some rec := by
    intro q hs
    have hs' := same_iff.mp hs
    obtain ⟨A, B, e, T, hm, hl, hA, hB⟩ := live_entry hc H.inv hp hlv
    have := abs_live_of hc H.inv (same_len hs' hp) (A := A) (B := B) (e := e) (by rw [← hc.tHash_same _ _ hs']; exact T.ents)
        (fun x hx h => hA x hx (hs'.trans h)) (hs'.symm.trans T.same) hl
    rw [this]; exact congrArg some T.rcd.eq
  obtain ⟨G1, s1, res, hr1, S1, H1⟩ := H.step hc (op := .delete p) hp
  have key1 : res = .ok ∧ (∀ q, sameUpToCase p q → (abs (create hdrSize maxHash binSize mul).1 G1 s1.disk).live q = none) ∧
      (∀ q, ¬ sameUpToCase p q → (abs (create hdrSize maxHash binSize mul).1 G1 s1.disk).live q =
        (abs (create hdrSize maxHash binSize mul).1 G s.disk).live q) ∧
      ∃ l, (abs (create hdrSize maxHash binSize mul).1 G1 s1.disk).trash p = rec :: l := by
    have h := S1.step
    generalize abs (create hdrSize maxHash binSize mul).1 G1 s1.disk = st1 at h ⊢
    generalize abs (create hdrSize maxHash binSize mul).1 G s.disk = st at h hlv ⊢
    cases h with
    | delete h1 h2 h3 =>
      rw [hlv] at h1; injection h1 with h1; subst h1
      exact ⟨rfl, fun q h => (h2 q).1 h, fun q h => (h2 q).2 h, _, (h3 p).1 (same_iff.mpr (Same.refl p))⟩
    | deleteMissing h => rw [hlv] at h; cases h
  obtain ⟨rfl, k1, k2, l, k3⟩ := key1
  have hz1 : zread (create hdrSize maxHash binSize mul).1 s1 p = some none := by
    rw [zread_abs hc H1.inv hp, k1 p (same_iff.mpr (Same.refl p))]
  obtain ⟨G2, s2, res2, hr2, S2, H2⟩ := H1.step hc (op := .undelete p) ⟨hp, hz1⟩
  have key2 : res2 = .ok ∧ (∀ q, sameUpToCase p q → (abs (create hdrSize maxHash binSize mul).1 G2 s2.disk).live q = some rec) ∧
      (∀ q, ¬ sameUpToCase p q → (abs (create hdrSize maxHash binSize mul).1 G2 s2.disk).live q =
        (abs (create hdrSize maxHash binSize mul).1 G1 s1.disk).live q) := by
    have h := S2.step
    generalize abs (create hdrSize maxHash binSize mul).1 G1 s1.disk = st1 at h k3 ⊢
    generalize abs (create hdrSize maxHash binSize mul).1 G2 s2.disk = st2 at h ⊢
    cases h with
    | undelete h1 h2 h3 =>
      rw [k3] at h1; injection h1 with h1 _; subst h1
      exact ⟨rfl, fun q h => (h2 q).1 h, fun q h => (h2 q).2 h⟩
    | undeleteMissing h => rw [k3] at h; cases h
  obtain ⟨rfl, k4, k5⟩ := key2
  refine ⟨s1, s2, hr1, fun q hq => ?_, hr2, fun q hq => ?_⟩
  · rw [zread_abs hc H1.inv hq]
    split
    · rename_i h; rw [k1 q h]
    · rename_i h; rw [k2 q h, zread_abs hc H.inv hq]
  · rw [zread_abs hc H2.inv hq, zread_abs hc H.inv hq]
    by_cases h : sameUpToCase p q
    · rw [k4 q h, same_live q h]
    · rw [k5 q h, k2 q h]

/-- C29, second part.  Deleting a record that is not there reports that, and no read changes. -/
theorem C29_delete_missing_partial (g : GoodSizes hdrSize maxHash binSize) {past : List Op} {s : Eng}
    (R : Reachable (create hdrSize maxHash binSize mul).1 (create hdrSize maxHash binSize mul).2 past s) (p : Bytes)
    (hp : p.length ≤ 392) (hr : zread (create hdrSize maxHash binSize mul).1 s p = some none) :
    ∃ s1, zdeleteInternal (create hdrSize maxHash binSize mul).1 s p false = some (s1, .notFound) ∧
      ∀ q, q.length ≤ 392 → zread (create hdrSize maxHash binSize mul).1 s1 q = zread (create hdrSize maxHash binSize mul).1 s q := by
  obtain ⟨G, H⟩ := reach g R
  have hc := create_OK (mul := mul) g
  have hlv : (abs (create hdrSize maxHash binSize mul).1 G s.disk).live p = none := by
    have := zread_abs hc H.inv hp
    rw [hr] at this; injection this with this; exact this.symm
  obtain ⟨G1, s1, res, hr1, S1, H1⟩ := H.step hc (op := .delete p) hp
  have key : res = .notFound ∧ abs (create hdrSize maxHash binSize mul).1 G1 s1.disk = abs (create hdrSize maxHash binSize mul).1 G s.disk := by
    have h := S1.step
    generalize abs (create hdrSize maxHash binSize mul).1 G1 s1.disk = st1 at h ⊢
    generalize abs (create hdrSize maxHash binSize mul).1 G s.disk = st at h hlv ⊢
    cases h with
    | delete h1 h2 h3 => rw [hlv] at h1; cases h1
    | deleteMissing h => exact ⟨rfl, rfl⟩
  obtain ⟨rfl, k⟩ := key
  refine ⟨s1, hr1, fun q hq => ?_⟩
  rw [zread_abs hc H1.inv hq, zread_abs hc H.inv hq, k]

/-! ### C31: versions -/

/-- C31.  A write that succeeds leaves version 1 where there was no record, and one more than before
where there was one (the counter is a 32 bit word). -/
theorem C31_version_partial (g : GoodSizes hdrSize maxHash binSize) {past : List Op} {s s' : Eng}
    (R : Reachable (create hdrSize maxHash binSize mul).1 (create hdrSize maxHash binSize mul).2 past s) (r : Req)
    (ha : Allowed (create hdrSize maxHash binSize mul).1 past s (.write r))
    (hw : zwrite (create hdrSize maxHash binSize mul).1 s r = some (s', .ok)) :
    (zread (create hdrSize maxHash binSize mul).1 s r.path = some none ∧
      zread (create hdrSize maxHash binSize mul).1 s' r.path = some (some (stored r 1))) ∨
    (∃ old, zread (create hdrSize maxHash binSize mul).1 s r.path = some (some old) ∧
      zread (create hdrSize maxHash binSize mul).1 s' r.path = some (some (stored r (old.version + 1)))) := by
  obtain ⟨G, H⟩ := reach g R
  have hc := create_OK (mul := mul) g
  obtain ⟨G', s1, res, hr, S, H'⟩ := H.step hc ha
  have : some (s1, res) = some (s', Res.ok) := hr.symm.trans hw
  injection this with this
  injection this with h1 h2
  subst h1; subst h2
  rw [zread_abs hc H.inv ha.2.1, zread_abs hc H'.inv ha.2.1]
  have h := S.step
  generalize abs (create hdrSize maxHash binSize mul).1 G' s1.disk = st1 at h ⊢
  generalize abs (create hdrSize maxHash binSize mul).1 G s.disk = st at h ⊢
  cases h with
  | writeNew h1 h2 _ => exact Or.inl ⟨congrArg some h1, congrArg some ((h2 _).1 (same_iff.mpr (Same.refl _)))⟩
  | overwrite h1 _ h2 _ => exact Or.inr ⟨_, congrArg some h1, congrArg some ((h2 _).1 (same_iff.mpr (Same.refl _)))⟩

theorem steps_count {st st' : Store} {ops : List Op} {ress : List Res} (h : Steps st ops ress st') (hu : ∀ op ∈ ops, op.simple) (q : Bytes)
    (hl : ∀ p q, sameUpToCase p q → st.live p = st.live q)
    (n : Nat) (h0 : (∀ R, st.live q = some R → R.version = UInt32.ofNat n) ∧ (st.live q = none → n = 0)) :
    (∀ R, st'.live q = some R → R.version = UInt32.ofNat ((ops.zip ress).foldl (_root_.Spec.countStep q) n)) ∧
      (st'.live q = none → (ops.zip ress).foldl (_root_.Spec.countStep q) n = 0) := by
  induction h generalizing n with
  | nil => exact h0
  | @cons st st1 st2 op ops res ress h1 _ ih =>
    have hn := step_next h1 (hu _ (by simp)) hl
    simp only [List.zip_cons_cons, List.foldl_cons]
    refine ih (fun p e => hu p (by simp [e])) ?_ _ ?_
    · intro a b hab
      rw [hn a, hn b, hl a b hab]
      exact next_cong hab _ _
    · have hone : ∀ m, UInt32.ofNat m + 1 = UInt32.ofNat (m + 1) := fun m => by
        rw [UInt32.ofNat_add]; rfl
      cases h1 with
      | writeNew a b _ =>
        simp only [_root_.Spec.countStep]
        split
        · rename_i hs
          rw [(b q).1 hs]
          rw [hl _ _ hs] at a
          have := h0.2 a
          subst this
          exact ⟨fun R h => by injection h with h; subst h; rfl, fun h => by cases h⟩
        · rename_i hs; rw [(b q).2 hs]; exact h0
      | overwrite a _ b _ =>
        simp only [_root_.Spec.countStep]
        split
        · rename_i hs
          rw [(b q).1 hs]
          rw [hl _ _ hs] at a
          have := h0.1 _ a
          refine ⟨fun R h => ?_, fun h => by cases h⟩
          injection h with h; subst h
          show _ + 1 = _
          rw [this, hone]
        · rename_i hs; rw [(b q).2 hs]; exact h0
      | refused => exact h0
      | delete a b _ =>
        simp only [_root_.Spec.countStep]
        split
        · rename_i hs; rw [(b q).1 hs]; exact ⟨fun R h => by (cases h), fun _ => rfl⟩
        · rename_i hs; rw [(b q).2 hs]; exact h0
      | deleteMissing => exact h0
      | undelete _ _ _ => exact (hu _ (List.mem_cons_self ..)).elim
      | undeleteMissing _ => exact (hu _ (List.mem_cons_self ..)).elim
      | rename _ _ _ _ _ => exact (hu _ (List.mem_cons_self ..)).elim
      | renameMissing _ _ => exact (hu _ (List.mem_cons_self ..)).elim

/-- C31 over a history: the version of a record is the number of successful writes since it was
created. -/
theorem C31_counts_writes_partial (g : GoodSizes hdrSize maxHash binSize) (ops : List Op) (hp : Plain [] ops) {s : Eng} {ress : List Res}
    (hr : runs (create hdrSize maxHash binSize mul).1 (create hdrSize maxHash binSize mul).2 ops = some (s, ress)) (q : Bytes)
    (hq : q.length ≤ 392) {rec : Rec} (h : zread (create hdrSize maxHash binSize mul).1 s q = some (some rec)) :
    rec.version = UInt32.ofNat (countWrites q (ops.zip ress)) := by
  obtain ⟨s1, ress1, st, h1, h2, h3⟩ := C27_refines_store_partial (mul := mul) g ops (plain_allowed (create_OK g) ops hp)
  have : some (s1, ress1) = some (s, ress) := h1.symm.trans hr
  injection this with this
  injection this with e1 e2
  subst e1; subst e2
  have hs := steps_count h2 (plain_simple ops hp) q (fun _ _ _ => rfl) 0 ⟨fun R h => by (cases h), fun _ => rfl⟩
  rw [h3 q hq] at h
  injection h with h
  exact hs.1 _ h

/-! ### C32: the record count -/

/-- C32.  The record count of the file is the number of pathnames (up to letter case) that can be read. -/
theorem C32_record_count_partial (g : GoodSizes hdrSize maxHash binSize) {past : List Op} {s : Eng}
    (R : Reachable (create hdrSize maxHash binSize mul).1 (create hdrSize maxHash binSize mul).2 past s) :
    ∃ L : List Bytes, s.hdr.numberRecords = L.length ∧ L.Pairwise (fun p q => ¬ sameUpToCase p q) ∧
      (∀ p ∈ L, p.length ≤ 392 ∧ ∃ rec, zread (create hdrSize maxHash binSize mul).1 s p = some (some rec)) ∧
      ∀ q rec, q.length ≤ 392 → zread (create hdrSize maxHash binSize mul).1 s q = some (some rec) → ∃ p ∈ L, sameUpToCase p q := by
  obtain ⟨G, H⟩ := reach g R
  have hc := create_OK (mul := mul) g
  generalize (create hdrSize maxHash binSize mul).1 = c at *
  refine ⟨(List.range c.maxHash).flatMap fun h => ((centries (G.chain h)).filter fun e => decide (live e)).map (·.path), ?_, ?_, ?_, ?_⟩
  · rw [H.count, List.length_flatMap]
    simp only [liveCount, List.length_map, List.countP_eq_length_filter]
  · rw [List.pairwise_flatMap]
    constructor
    · intro h hh
      have hh := List.mem_range.mp hh
      rw [List.pairwise_map, List.pairwise_filter]
      refine (H.inv.w.chains h hh).order.imp ?_
      intro a b hab ha hb hs
      rw [same_iff] at hs
      simp only [decide_eq_true_eq] at ha hb
      exact live_not_dead hb (hab (live_not_gone ha) hs)
    · refine List.Pairwise.imp_of_mem ?_ (List.nodup_range (n := c.maxHash))
      intro h1 h2 hh1 hh2 hne p hp q hq hs
      rw [same_iff] at hs
      obtain ⟨e, he, rfl⟩ := List.mem_map.mp hp
      obtain ⟨f, hf, rfl⟩ := List.mem_map.mp hq
      have k1 := ((H.inv.w.chains h1 (List.mem_range.mp hh1)).ok e (List.mem_filter.mp he).1).hash
      have k2 := ((H.inv.w.chains h2 (List.mem_range.mp hh2)).ok f (List.mem_filter.mp hf).1).hash
      rw [← k1, ← k2] at hne
      exact hne (hc.tHash_same _ _ hs)
  · intro p hp
    obtain ⟨h, hh, hp⟩ := List.mem_flatMap.mp hp
    have hh := List.mem_range.mp hh
    obtain ⟨e, he, rfl⟩ := List.mem_map.mp hp
    have K := H.inv.w.chains h hh
    have hem := (List.mem_filter.mp he).1
    have hel : live e := by simpa using (List.mem_filter.mp he).2
    have hok := K.ok e hem
    refine ⟨hok.len, ?_⟩
    cases hz : (abs c G s.disk).live e.path with
    | some rec => exact ⟨rec, by rw [zread_abs hc H.inv hok.len, hz]⟩
    | none =>
      have := dead_entries hc H.inv hok.len hz e (by rw [hok.hash]; exact hem) (Same.refl _)
      exact absurd this (live_not_dead hel)
  · intro q rec hq hz
    rw [zread_abs hc H.inv hq] at hz
    injection hz with hz
    obtain ⟨A, B, e, T, hm, hl, hA, hB⟩ := live_entry hc H.inv hq hz
    refine ⟨e.path, ?_, sameUp_symm (same_iff.mpr T.same)⟩
    rw [List.mem_flatMap]
    refine ⟨c.tHash q, List.mem_range.mpr (hc.tHash_lt q hq), ?_⟩
    rw [List.mem_map]
    refine ⟨e, ?_, rfl⟩
    rw [List.mem_filter]
    exact ⟨by rw [T.ents]; simp, by simpa using hl⟩

/-! ### C33: rewriting in place -/

/-- Words that the arrays of a request take. -/
def wordsOf (r : Req) : Nat :=
  (r.ih.length + 1) / 2 + (r.h2.length + 1) / 2 + (r.uh.length + 1) / 2 + (r.v1.length + 1) / 2 + (r.v2.length + 1) / 2 +
    (r.v3.length + 1) / 2

/-- Words allocated for the arrays described by an info block (zwriteNew.c:222-240, zwriteExisting.c:260-300): those for
the ints of the headers and values together, and half a word more for each header of odd length if there are
several. -/
def wordsAllocated (info : Nat → Nat) : Nat :=
  let odd := info kinfoInternalHeadNumber % 2 + info kinfoHeader2Number % 2 + info kinfoUserHeadNumber % 2
  (originalSize info + (if odd ≤ 1 then 0 else odd) + 1) / 2

/-- C33.  The test of zwriteExisting lets a record be rewritten in place (`newSize ≤ originalSize`).
If at most one header section has an odd length, or the number of such sections does not grow, the new arrays fit in
the old space. -/
theorem C33_fits_partial (info : Nat → Nat) (r : Req) (h : newSize r ≤ originalSize info)
    (ho : oddHeaders r.ih r.h2 r.uh ≤ 1 ∨ oddHeaders r.ih r.h2 r.uh ≤
      info kinfoInternalHeadNumber % 2 + info kinfoHeader2Number % 2 + info kinfoUserHeadNumber % 2) :
    wordsOf r ≤ wordsAllocated info := by
  have hg := allocSize_ge r
  simp only [newSize, totalInts, oddHeaders, wordsOf, wordsAllocated, nLongs] at *
  generalize originalSize info = o at *
  generalize info kinfoInternalHeadNumber % 2 + info kinfoHeader2Number % 2 + info kinfoUserHeadNumber % 2 = u at *
  have a1 : ∀ n : Nat, 2 * ((n + 1) / 2) = n + n % 2 := by intro n; omega
  have b1 := a1 r.ih.length; have b2 := a1 r.h2.length; have b3 := a1 r.uh.length
  have p : (r.ih.length % 2 + r.h2.length % 2 + r.uh.length % 2) % 2 = (r.ih.length + r.h2.length + r.uh.length) % 2 := by omega
  generalize allocSize r = al at *
  generalize (r.ih.length + 1) / 2 = x1 at *
  generalize (r.h2.length + 1) / 2 = x2 at *
  generalize (r.uh.length + 1) / 2 = x3 at *
  generalize (r.v1.length + 1) / 2 = x4 at *
  generalize (r.v2.length + 1) / 2 = x5 at *
  generalize (r.v3.length + 1) / 2 = x6 at *
  generalize r.ih.length % 2 = m1 at *
  generalize r.h2.length % 2 = m2 at *
  generalize r.uh.length % 2 = m3 at *
  split <;> omega

/-- Without the condition, the new arrays stick out by at most one word. -/
theorem C33_overflow_at_most_one (info : Nat → Nat) (r : Req) (h : newSize r ≤ originalSize info) :
    wordsOf r ≤ wordsAllocated info + 1 := by
  have hg := allocSize_ge r
  simp only [newSize, originalSize, totalInts, wordsOf, wordsAllocated, nLongs] at *
  have a1 : ∀ n : Nat, 2 * ((n + 1) / 2) = n + n % 2 := by intro n; omega
  have a2 : ∀ n : Nat, n % 2 < 2 := by intro n; omega
  have b1 := a1 r.ih.length; have b2 := a1 r.h2.length; have b3 := a1 r.uh.length
  have c1 := a1 (info kinfoInternalHeadNumber); have c2 := a1 (info kinfoHeader2Number)
  have c3 := a1 (info kinfoUserHeadNumber); have c4 := a1 (info kinfoAllocatedSize)
  have d1 := a2 r.ih.length; have d2 := a2 r.h2.length; have d3 := a2 r.uh.length
  generalize allocSize r = al at *
  generalize (r.ih.length + 1) / 2 = x1 at *
  generalize (r.h2.length + 1) / 2 = x2 at *
  generalize (r.uh.length + 1) / 2 = x3 at *
  generalize (r.v1.length + 1) / 2 = x4 at *
  generalize (r.v2.length + 1) / 2 = x5 at *
  generalize (r.v3.length + 1) / 2 = x6 at *
  generalize (info kinfoInternalHeadNumber + 1) / 2 = y1 at *
  generalize (info kinfoHeader2Number + 1) / 2 = y2 at *
  generalize (info kinfoUserHeadNumber + 1) / 2 = y3 at *
  generalize (info kinfoAllocatedSize + 1) / 2 = y4 at *
  generalize r.ih.length % 2 = m1 at *
  generalize r.h2.length % 2 = m2 at *
  generalize r.uh.length % 2 = m3 at *
  generalize info kinfoInternalHeadNumber % 2 = n1 at *
  generalize info kinfoHeader2Number % 2 = n2 at *
  generalize info kinfoUserHeadNumber % 2 = n3 at *
  generalize info kinfoAllocatedSize % 2 = n4 at *
  omega

/-! ### C41: crashes -/

/-- C41, first part.  The disk writes of a call, in order, are `ws`.  If the process stops after any
number `n` of them, every record with another pathname that could be read before can be read
unchanged, whatever the file header says (`totalBins` only bounds the search in the model; the code
has no such bound). -/
theorem C41_other_records_partial (g : GoodSizes hdrSize maxHash binSize) {past : List Op} {s : Eng}
    (R : Reachable (create hdrSize maxHash binSize mul).1 (create hdrSize maxHash binSize mul).2 past s) (op : Op)
    (ha : Allowed (create hdrSize maxHash binSize mul).1 past s op) :
    ∃ s' res ws, run (create hdrSize maxHash binSize mul).1 s op = some (s', res) ∧ s'.log = s.log ++ ws ∧
      s'.disk = applyLog s.disk ws ∧
      ∀ (n : Nat) (h : Hdr) (q : Bytes) (rec : Rec), s.hdr.totalBins ≤ h.totalBins → q.length ≤ 392 → (∀ p ∈ op.paths, ¬ sameUpToCase p q) →
        zread (create hdrSize maxHash binSize mul).1 s q = some (some rec) →
        zread (create hdrSize maxHash binSize mul).1 ⟨applyLog s.disk (ws.take n), h, []⟩ q = some (some rec) := by
  obtain ⟨G, H⟩ := reach g R
  have hc := create_OK (mul := mul) g
  obtain ⟨G', s', res, hr, S, H'⟩ := H.step hc ha
  obtain ⟨ws, h1, h2, h3⟩ := S.safe
  refine ⟨s', res, ws, hr, h1, h2, fun n h q rec hb hq hne hz => ?_⟩
  rw [zread_abs hc H.inv hq] at hz
  injection hz with hz
  exact h3 n h [] q rec hb hq (fun p hp h => hne p hp (same_iff.mpr h)) hz

/-! ### C30: the layout -/

theorem linked_of {c : Cfg} {d : Disk} (C : Chain) : ∀ {a : Nat}, ChainAt c d a C 0 → Linked d c.isize a (C.map (·.1)) := by
  induction C with
  | nil => intro a h; exact h
  | cons be C ih =>
    obtain ⟨b, es⟩ := be
    intro a h
    obtain ⟨h1, h2, _, h4⟩ := h
    exact ⟨h1, h2, ih h4⟩

/-- Areas of different colour have no word in common. -/
theorem apart_of {own : Nat → Own} {x y : Nat × Nat} {P Q : Own → Prop} (hx : ∀ i, i < x.2 → P (own (x.1 + i)))
    (hy : ∀ i, i < y.2 → Q (own (y.1 + i))) (h : ∀ o, P o → ¬ Q o) : Apart x y := by
  rintro w ⟨h1, h2, h3, h4⟩
  have a := hx (w - x.1) (by omega)
  have b := hy (w - y.1) (by omega)
  rw [show x.1 + (w - x.1) = w by omega] at a
  rw [show y.1 + (w - y.1) = w by omega] at b
  exact h _ a b

theorem well_formed {c : Cfg} (hc : c.OK) {G : Ghost} {s : Eng} (I : Inv c G s) (hmax : 0 < c.maxHash) : WellFormed c s := by
  have hi := hc.isize
  have hhdr := hc.hdr
  let ar : BinEnt → Spec.Areas := fun e => ((e.infoAdd, numberInfo e.path), ((G.room e.infoAdd).dat, (G.room e.infoAdd).cap))
  let ents : Nat → List BinEnt := fun h => (centries (G.chain h)).filter fun e => !decide (gone e)
  have hents : ∀ h, ∀ e ∈ ents h, e ∈ centries (G.chain h) ∧ ¬ gone e := by
    intro h e he
    have := List.mem_filter.mp he
    exact ⟨this.1, by simpa using this.2⟩
  let recs := (List.range c.maxHash).flatMap fun h => (ents h).map ar
  let areas := recs.flatMap fun r => [r.1, r.2]
  have hareas : areas = (List.range c.maxHash).flatMap fun h => (ents h).flatMap fun e => [(ar e).1, (ar e).2] := by
    simp only [areas, recs, List.flatMap_assoc, List.flatMap_map]
  have hmine : ∀ h, h < c.maxHash → ∀ e ∈ ents h, ∀ x ∈ [(ar e).1, (ar e).2], ∀ i, i < x.2 → G.own (x.1 + i) = .rcd h e.infoAdd := by
    intro h hh e he x hx i hi'
    have O := (I.w.chains h hh).rcd e (hents h e he).1 (hents h e he).2
    simp only [List.mem_cons, List.mem_nil_iff, or_false] at hx
    rcases hx with rfl | rfl
    · exact O.mine _ (InRec.info hi')
    · exact O.mine _ (InRec.arr hi')
  have hrec : ∀ x ∈ areas, ∃ h, h < c.maxHash ∧ ∃ e ∈ ents h, x ∈ [(ar e).1, (ar e).2] := by
    intro x hx
    rw [hareas] at hx
    obtain ⟨h, hh, hx⟩ := List.mem_flatMap.mp hx
    obtain ⟨e, he, hx⟩ := List.mem_flatMap.mp hx
    exact ⟨h, List.mem_range.mp hh, e, he, hx⟩
  have hbin : ∀ b ∈ (List.range c.maxHash).flatMap (fun h => (G.chain h).map (·.1)), ∃ h, h < c.maxHash ∧ ∃ es, (b, es) ∈ G.chain h := by
    intro b hb
    obtain ⟨h, hh, hb⟩ := List.mem_flatMap.mp hb
    obtain ⟨be, he, rfl⟩ := List.mem_map.mp hb
    exact ⟨h, List.mem_range.mp hh, be.2, he⟩
  have csys : ∀ i, i < c.hdrSize → G.own (0 + i) = .sys := fun i h => by rw [Nat.zero_add]; exact I.w.sys i h
  have ctab : ∀ i, i < c.maxHash → ∃ h, G.own (c.hashStart + i) = .tab h := fun i h => ⟨i, I.w.tab i h⟩
  refine ⟨fun h => (G.chain h).map (·.1), recs, ?_, ?_, ?_, ?_⟩
  · intro h hh
    have := (I.w.chains h hh).at_
    rw [I.last h hh] at this
    exact linked_of _ this
  · -- inside the file
    have key : ∀ x : Nat × Nat, (∀ i, i < x.2 → G.own (x.1 + i) ≠ .none) → ∀ w, x.1 ≤ w → w < x.1 + x.2 → w < s.hdr.fileSize := by
      intro x ho w h1 h2
      apply Decidable.byContradiction
      intro hlt
      have := ho (w - x.1) (by omega)
      rw [show x.1 + (w - x.1) = w by omega] at this
      exact this (I.h.beyond _ (by omega))
    intro x hx
    refine key x fun i hi' => ?_
    rcases List.mem_cons.mp hx with rfl | hx
    · rw [csys _ hi']; intro h; cases h
    rcases List.mem_cons.mp hx with rfl | hx
    · obtain ⟨h, hh⟩ := ctab i hi'
      rw [hh]; intro h; cases h
    rcases List.mem_append.mp hx with hx | hx
    · obtain ⟨b, hb, rfl⟩ := List.mem_map.mp hx
      obtain ⟨h, hh, es, hes⟩ := hbin b hb
      rw [(I.w.chains h hh).bins _ hes _ hi']; intro h; cases h
    · obtain ⟨h, hh, e, he, hx⟩ := hrec x hx
      rw [hmine h hh e he x hx i hi']; intro h; cases h
  · -- no overlap
    have hb : ∀ x ∈ ((List.range c.maxHash).flatMap (fun h => (G.chain h).map (·.1))).map (fun b => (b, c.isize)),
        ∀ i, i < x.2 → ∃ h b, G.own (x.1 + i) = .bin h b := by
      intro x hx i hi'
      obtain ⟨b, hb, rfl⟩ := List.mem_map.mp hx
      obtain ⟨h, hh, es, hes⟩ := hbin b hb
      exact ⟨h, b, (I.w.chains h hh).bins _ hes _ hi'⟩
    have hr : ∀ x ∈ areas, ∀ i, i < x.2 → ∃ h a, G.own (x.1 + i) = .rcd h a := by
      intro x hx i hi'
      obtain ⟨h, hh, e, he, hx⟩ := hrec x hx
      exact ⟨h, e.infoAdd, hmine h hh e he x hx i hi'⟩
    have hrest : ∀ x ∈ ((List.range c.maxHash).flatMap (fun h => (G.chain h).map (·.1))).map (fun b => (b, c.isize)) ++ areas,
        ∀ i, i < x.2 → (∃ h b, G.own (x.1 + i) = .bin h b) ∨ ∃ h a, G.own (x.1 + i) = .rcd h a := by
      intro x hx i hi'
      rcases List.mem_append.mp hx with h | h
      · exact Or.inl (hb x h i hi')
      · exact Or.inr (hr x h i hi')
    refine List.pairwise_cons.mpr ⟨?_, List.pairwise_cons.mpr ⟨?_, List.pairwise_append.mpr ⟨?_, ?_, ?_⟩⟩⟩
    · intro y hy
      refine apart_of (own := G.own) (P := fun o => o = .sys) (Q := fun o => o ≠ .sys) csys (fun i hi' h => ?_) (fun o h h' => h' h)
      rcases List.mem_cons.mp hy with rfl | hy
      · obtain ⟨k, hk⟩ := ctab i hi'
        simp only at h
        rw [hk] at h; cases h
      · rcases hrest y hy i hi' with ⟨a, b, hab⟩ | ⟨a, b, hab⟩ <;> rw [hab] at h <;> cases h
    · intro y hy
      refine apart_of (own := G.own) (P := fun o => ∃ h, o = .tab h) (Q := fun o => ∀ h, o ≠ .tab h) ctab (fun i hi' k h => ?_)
        (fun o ⟨h, e⟩ h' => h' h e)
      rcases hrest y hy i hi' with ⟨a, b, hab⟩ | ⟨a, b, hab⟩ <;> rw [hab] at h <;> cases h
    · rw [List.pairwise_map, List.pairwise_flatMap]
      constructor
      · intro h hh
        have hh := List.mem_range.mp hh
        have K := I.w.chains h hh
        refine List.Pairwise.imp_of_mem ?_ K.nodupB
        intro a b ha hb' hne
        obtain ⟨be, h1, rfl⟩ := List.mem_map.mp ha
        obtain ⟨bf, h2, rfl⟩ := List.mem_map.mp hb'
        exact apart_of (own := G.own) (P := fun o => o = .bin h be.1) (Q := fun o => o = .bin h bf.1) (K.bins be h1) (K.bins bf h2)
          (fun o h1 h2 => by rw [h1] at h2; injection h2 with _ h2; exact hne h2)
      · refine List.Pairwise.imp_of_mem ?_ (List.nodup_range (n := c.maxHash))
        intro h1 h2 hh1 hh2 hne a ha b hb'
        obtain ⟨be, k1, rfl⟩ := List.mem_map.mp ha
        obtain ⟨bf, k2, rfl⟩ := List.mem_map.mp hb'
        exact apart_of (own := G.own) (P := fun o => o = .bin h1 be.1) (Q := fun o => o = .bin h2 bf.1)
          ((I.w.chains h1 (List.mem_range.mp hh1)).bins be k1) ((I.w.chains h2 (List.mem_range.mp hh2)).bins bf k2)
          (fun o h1 h2 => by rw [h1] at h2; injection h2 with h2 _; exact hne h2)
    · show List.Pairwise Apart areas
      rw [hareas, List.pairwise_flatMap]
      constructor
      · intro h hh
        have hh := List.mem_range.mp hh
        have K := I.w.chains h hh
        rw [List.pairwise_flatMap]
        constructor
        · intro e he
          have O := (I.w.chains h hh).rcd e (hents h e he).1 (hents h e he).2
          have hap := O.apart
          simp only [List.pairwise_cons, List.mem_cons, List.mem_nil_iff, or_false, forall_eq, List.Pairwise.nil, and_true]
          refine ⟨?_, by simp⟩
          rintro w ⟨h1, h2, h3, h4⟩
          simp only [ar] at h1 h2 h3 h4
          omega
        · refine List.Pairwise.imp_of_mem ?_ (K.nodupR.filter (fun e => !decide (gone e)))
          intro a b ha hb' hne x hx y hy
          exact apart_of (own := G.own) (P := fun o => o = .rcd h a.infoAdd) (Q := fun o => o = .rcd h b.infoAdd)
            (hmine h hh a ha x hx) (hmine h hh b hb' y hy)
            (fun o h1 h2 => by rw [h1] at h2; injection h2 with _ h2; exact hne (hents h a ha).2 (hents h b hb').2 h2)
      · refine List.Pairwise.imp_of_mem ?_ (List.nodup_range (n := c.maxHash))
        intro h1 h2 hh1 hh2 hne a ha b hb'
        obtain ⟨e, k1, kx⟩ := List.mem_flatMap.mp ha
        obtain ⟨f, k2, ky⟩ := List.mem_flatMap.mp hb'
        exact apart_of (own := G.own) (P := fun o => o = .rcd h1 e.infoAdd) (Q := fun o => o = .rcd h2 f.infoAdd)
          (hmine h1 (List.mem_range.mp hh1) e k1 _ kx) (hmine h2 (List.mem_range.mp hh2) f k2 _ ky)
          (fun o h1 h2 => by rw [h1] at h2; injection h2 with h2 _; exact hne h2)
    · intro x hx y hy
      exact apart_of (own := G.own) (P := fun o => ∃ h b, o = .bin h b) (Q := fun o => ∃ h a, o = .rcd h a) (hb x hx) (hr y hy)
        (fun o ⟨_, _, h1⟩ ⟨_, _, h2⟩ => by rw [h1] at h2; cases h2)
  · intro q k info hq hz
    have hh := hc.tHash_lt q hq
    have hlen : (G.chain (c.tHash q)).length ≤ s.hdr.totalBins + 1 := by have := I.h.len _ hh; omega
    have K := I.w.chains _ hh
    cases hf : (centries (G.chain (c.tHash q))).find? fun e => decide (EMatch q REC_STATUS_VALID e) with
    | none =>
      have hno : ∀ x ∈ centries (G.chain (c.tHash q)), ¬ EMatch q REC_STATUS_VALID x := by
        intro x hx
        have := List.find?_eq_none.mp hf x hx
        simpa using this
      have := zcheck_none hc (hx := c.tHash q) (ax := 0) I.w.idle hh (I.last _ hh) hlen hno
      unfold zreadInfo at hz
      rw [this] at hz
      simp at hz
    | some e =>
      obtain ⟨A, B, hE, hp, hA⟩ := split_find hf
      have hmem : e ∈ centries (G.chain (c.tHash q)) := by rw [hE]; simp
      have hm : EMatch q REC_STATUS_VALID e := by simpa using hp
      have hge : ¬ gone e := EMatch.not_gone (Or.inl hm)
      have hro := K.recs e hmem hge (by simp only [ite_self]; exact I.w.info_ne hc hh hmem hge)
      obtain ⟨C1, b, pre, post, C2, hC, hAeq, hBeq⟩ := split_centries hE
      obtain ⟨ws, h⟩ := zreadInfo_some hc I.w hh hC hlen (by rw [← hAeq]; exact fun x hx => by simpa using hA x hx) hm hro.hash
      rw [h] at hz
      injection hz with hz
      injection hz with h1 h2
      injection h2 with h2
      subst h1; subst h2
      have hl := hm.1.length
      refine ⟨ar e, ?_, ?_⟩
      · rw [List.mem_flatMap]
        exact ⟨c.tHash q, List.mem_range.mpr hh, List.mem_map.mpr ⟨e, List.mem_filter.mpr ⟨hmem, by simpa using hge⟩, rfl⟩⟩
      · have r1 := hro.ih; have r2 := hro.h2; have r3 := hro.uh; have r4 := hro.v1; have r5 := hro.v2; have r6 := hro.v3
        have r7 := hro.fits
        have hni : numberInfo e.path = 30 + (q.length + 7) / 8 := by simp only [numberInfo, infoSize, nLongsB, hl]
        have n1 : ∀ n, (n + 1) / 2 = nLongs n := fun _ => rfl
        refine ⟨rfl, by show _ ≤ numberInfo e.path; rw [hni]; exact Nat.le_refl _, fun k hk => ?_⟩
        show (G.room e.infoAdd).dat ≤ _ ∧ _ ≤ (G.room e.infoAdd).dat + (G.room e.infoAdd).cap
        simp only [List.mem_cons, List.mem_nil_iff, or_false] at hk
        simp only [n1]
        rcases hk with rfl | rfl | rfl | rfl | rfl | rfl
        · have : kinfoInternalHeadAddress + 1 = kinfoInternalHeadNumber := rfl
          rw [this]; omega
        · have : kinfoHeader2Address + 1 = kinfoHeader2Number := rfl
          rw [this]; omega
        · have : kinfoUserHeadAddress + 1 = kinfoUserHeadNumber := rfl
          rw [this]; omega
        · have : kinfoValues1Address + 1 = kinfoValues1Number := rfl
          rw [this]; omega
        · have : kinfoValues2Address + 1 = kinfoValues2Number := rfl
          rw [this]; omega
        · have : kinfoValues3Address + 1 = kinfoValues3Number := rfl
          rw [this]; omega

/-- C30.  The file is well formed after every allowed history. -/
theorem C30_well_formed_partial (g : GoodSizes hdrSize maxHash binSize) {past : List Op} {s : Eng}
    (R : Reachable (create hdrSize maxHash binSize mul).1 (create hdrSize maxHash binSize mul).2 past s) :
    WellFormed (create hdrSize maxHash binSize mul).1 s := by
  obtain ⟨G, H⟩ := reach g R
  exact well_formed (create_OK g) H.inv (by have := g.two; show 0 < maxHash; omega)

/-! ### C33 on the disk -/

/-- The area a write goes to. -/
def Within (w : Wr) (a n : Nat) : Prop := a ≤ w.a ∧ w.a + w.n ≤ a + n

theorem putInts_log (s : Eng) (a : Nat) (xs : List UInt32) :
    ∃ ws, (s.putInts a xs).log = s.log ++ ws ∧ ∀ w ∈ ws, Within w a ((xs.length + 1) / 2) := by
  unfold Eng.putInts
  split
  · exact ⟨[], by simp, by simp⟩
  · refine ⟨_, rfl, fun w hw => ?_⟩
    simp only [List.mem_singleton] at hw
    subst hw
    exact ⟨Nat.le_refl _, Nat.le_refl _⟩

theorem writeArrays_log (s : Eng) (info : Nat → Nat) (a : Nat) (r : Req) (L : Layout info a r) :
    ∃ ws, (writeArrays s info r).log = s.log ++ ws ∧ ∀ w ∈ ws, Within w a (wordsOf r) := by
  have e1 := L.a1; have e2 := L.a2; have e3 := L.a3; have e4 := L.a4; have e5 := L.a5; have e6 := L.a6
  unfold writeArrays
  simp only
  obtain ⟨w1, h1, k1⟩ := putInts_log s (info kinfoInternalHeadAddress) r.ih
  obtain ⟨w2, h2, k2⟩ := putInts_log (s.putInts (info kinfoInternalHeadAddress) r.ih) (info kinfoHeader2Address) r.h2
  obtain ⟨w3, h3, k3⟩ := putInts_log ((s.putInts (info kinfoInternalHeadAddress) r.ih).putInts (info kinfoHeader2Address) r.h2)
    (info kinfoUserHeadAddress) r.uh
  obtain ⟨w4, h4, k4⟩ := putInts_log (((s.putInts (info kinfoInternalHeadAddress) r.ih).putInts (info kinfoHeader2Address) r.h2).putInts
    (info kinfoUserHeadAddress) r.uh) (info kinfoValues1Address) r.v1
  obtain ⟨w5, h5, k5⟩ := putInts_log ((((s.putInts (info kinfoInternalHeadAddress) r.ih).putInts (info kinfoHeader2Address) r.h2).putInts
    (info kinfoUserHeadAddress) r.uh).putInts (info kinfoValues1Address) r.v1) (info kinfoValues2Address) r.v2
  obtain ⟨w6, h6, k6⟩ := putInts_log (((((s.putInts (info kinfoInternalHeadAddress) r.ih).putInts (info kinfoHeader2Address) r.h2).putInts
    (info kinfoUserHeadAddress) r.uh).putInts (info kinfoValues1Address) r.v1).putInts (info kinfoValues2Address) r.v2)
    (info kinfoValues3Address) r.v3
  refine ⟨w1 ++ w2 ++ w3 ++ w4 ++ w5 ++ w6, by rw [h6, h5, h4, h3, h2, h1]; simp only [List.append_assoc], fun w hw => ?_⟩
  simp only [nLongs] at e1 e2 e3 e4 e5 e6
  simp only [List.mem_append] at hw
  have big : ∀ b n, a ≤ b → b + n ≤ a + wordsOf r → Within w b n → Within w a (wordsOf r) :=
    fun b n h1 h2 h => ⟨Nat.le_trans h1 h.1, Nat.le_trans h.2 h2⟩
  rcases hw with ((((h | h) | h) | h) | h) | h
  · exact big _ _ (by omega) (by unfold wordsOf; omega) (k1 w h)
  · exact big _ _ (by omega) (by unfold wordsOf; omega) (k2 w h)
  · exact big _ _ (by omega) (by unfold wordsOf; omega) (k3 w h)
  · exact big _ _ (by omega) (by unfold wordsOf; omega) (k4 w h)
  · exact big _ _ (by omega) (by unfold wordsOf; omega) (k5 w h)
  · exact big _ _ (by omega) (by unfold wordsOf; omega) (k6 w h)

/-- C33 on the disk.  When a record is written over without moving (the file does not grow), every
disk write goes to the file header, to the two date words of the record's own catalogue entry, or to
the space that was allocated for the record: its info block and the `wordsAllocated` words from the
address of its arrays on. -/
theorem C33_writes_inside_partial (g : GoodSizes hdrSize maxHash binSize) {past : List Op} {s s' : Eng} {res : Res}
    (R : Reachable (create hdrSize maxHash binSize mul).1 (create hdrSize maxHash binSize mul).2 past s) (r : Req)
    (ha : Allowed (create hdrSize maxHash binSize mul).1 past s (.write r)) {k : Chk} {info : Nat → Nat}
    (hz : zreadInfo (create hdrSize maxHash binSize mul).1 s r.path REC_STATUS_VALID = some (k, some info))
    (hw : zwrite (create hdrSize maxHash binSize mul).1 s r = some (s', res)) (hf : s'.hdr.fileSize = s.hdr.fileSize) :
    ∃ ws, s'.log = s.log ++ ws ∧ ∀ w ∈ ws, Within w 0 hdrSize ∨ Within w (k.pathBinAddress + 5) 2 ∨
      Within w k.infoAdd (30 + (r.path.length + 7) / 8) ∨ Within w (info kinfoInternalHeadAddress) (wordsAllocated info) := by
  obtain ⟨G, H⟩ := reach g R
  have hc := create_OK (mul := mul) g
  obtain ⟨hpos, hlen, hodd, _⟩ := ha
  have hz2 : zread (create hdrSize maxHash binSize mul).1 s r.path = some (some (readArrays s.disk info)) := by
    unfold zread; rw [hz]; rfl
  have hhs : (create hdrSize maxHash binSize mul).1.hdrSize = hdrSize := rfl
  generalize (create hdrSize maxHash binSize mul).1 = c at *
  subst hhs
  have hni : numberInfo r.path = 30 + (r.path.length + 7) / 8 := rfl
  unfold zwrite at hw
  rw [hz] at hw
  simp only [Option.bind_some] at hw
  have hbin : ∀ w : Wr, w = ⟨k.pathBinAddress + 5, 2, fun i => if i = 0 then r.now else r.dates⟩ → Within w (k.pathBinAddress + 5) 2 := by
    rintro w rfl; exact ⟨Nat.le_refl _, Nat.le_refl _⟩
  by_cases ht : typeSupported (lowInt (info kinfoTypeVersion)) r.dataType = false
  · have : zwriteExisting c s k r info = (s.put (k.pathBinAddress + 5) 2 fun i => if i = 0 then r.now else r.dates, .differentType, info) := by
      unfold zwriteExisting
      simp only [if_pos ht]
    rw [this] at hw
    injection hw with hw
    injection hw with h1 h2
    subst h1
    refine ⟨_, rfl, fun w hw' => Or.inr (Or.inl (hbin w (by simpa using hw')))⟩
  · by_cases hs : newSize r > originalSize info
    · exfalso
      have key : (zwriteExisting c s k r info).2.1 = .ok ∧ s.hdr.fileSize + 30 ≤ (zwriteExisting c s k r info).1.hdr.fileSize := by
        unfold zwriteExisting
        simp only [if_neg ht, if_pos hs]
        refine ⟨trivial, ?_⟩
        show _ ≤ s.hdr.fileSize + (numberInfo r.path + _ + _ + _ + _ + _)
        rw [hni]
        omega
      rcases hzw : zwriteExisting c s k r info with ⟨s1, rs, i1⟩
      rw [hzw] at key hw
      obtain ⟨h1, h2⟩ := key
      simp only at h1 h2
      subst h1
      simp only [if_pos hs] at hw
      injection hw with hw
      injection hw with hw _
      have hwa : ∀ (s : Eng) (a : Nat) (xs : List UInt32), (s.putInts a xs).hdr = s.hdr := by
        intro s a xs; unfold Eng.putInts; split <;> rfl
      have : s'.hdr = s1.hdr := by
        rw [← hw]
        show (writeArrays s1 i1 r).hdr = _
        unfold writeArrays
        simp only [hwa]
      rw [this] at hf
      omega
    · have key : ∃ f, zwriteExisting c s k r info =
          ((s.put (k.pathBinAddress + 5) 2 fun i => if i = 0 then r.now else r.dates).put k.infoAdd (numberInfo r.path) f, .ok, f) ∧
          Layout f (info kinfoInternalHeadAddress) r := by
        unfold zwriteExisting
        simp only [if_neg ht, if_neg hs]
        refine ⟨_, rfl, ?_⟩
        refine Layout_congr (layoutInfo_layout info r (info kinfoInternalHeadAddress) (if newSize r < originalSize info then
          allocSize r + (originalSize info - newSize r) else allocSize r)) (fun i h1 h2 => ?_)
        rw [finishInfo_high _ _ _ h1]
        unfold upd
        rw [if_neg (by unfold kinfoTypeVersion; omega)]
      obtain ⟨f, h1, L⟩ := key
      rw [h1] at hw
      simp only [if_neg hs] at hw
      injection hw with hw
      injection hw with hw _
      obtain ⟨wa, h2, h3⟩ := writeArrays_log ((s.put (k.pathBinAddress + 5) 2 fun i => if i = 0 then r.now else r.dates).put k.infoAdd
        (numberInfo r.path) f) f _ r L
      refine ⟨[⟨k.pathBinAddress + 5, 2, fun i => if i = 0 then r.now else r.dates⟩, ⟨k.infoAdd, numberInfo r.path, f⟩] ++ wa ++
        [⟨0, c.hdrSize, hdrWords (writeArrays ((s.put (k.pathBinAddress + 5) 2 fun i => if i = 0 then r.now else r.dates).put k.infoAdd
        (numberInfo r.path) f) f r).hdr⟩], ?_, ?_⟩
      · rw [← hw]
        show (writeArrays _ f r).log ++ _ = _
        rw [h2]
        show s.log ++ _ ++ _ ++ wa ++ _ = _
        simp only [List.append_assoc, List.cons_append, List.nil_append]
      · have hfit := C33_fits_partial info r (by omega) (by
          simpa [readArrays, getInts, oddHeaders] using hodd _ hz2)
        intro w hw'
        simp only [List.mem_append, List.mem_cons, List.mem_nil_iff, or_false] at hw'
        rcases hw' with ((h | h) | h) | h
        · exact Or.inr (Or.inl (hbin w h))
        · subst h
          exact Or.inr (Or.inr (Or.inl ⟨Nat.le_refl _, Nat.le_refl _⟩))
        · have := h3 w h
          refine Or.inr (Or.inr (Or.inr ⟨?_, ?_⟩))
          · have := this.1; omega
          · have := this.2; omega
        · subst h
          exact Or.inl ⟨Nat.le_refl _, by simp⟩

end
end Hec
