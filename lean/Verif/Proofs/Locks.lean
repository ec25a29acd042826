import Verif.Spec.Locks
/-!
Invariants of the locking model.
-/
namespace Hec
open _root_.Spec (WriterMode WithFlush CanWrite)

theorem set_same (s : LSys) (i : Nat) (x : LHandle) : (s.set i x).h i = x := by simp [LSys.set]
theorem set_other (s : LSys) (i j : Nat) (x : LHandle) (h : j ≠ i) : (s.set i x).h j = s.h j := by
  simp [LSys.set, h]
theorem set_word (s : LSys) (i : Nat) (x : LHandle) : (s.set i x).word = s.word := rfl
theorem set_disk (s : LSys) (i : Nat) (x : LHandle) : (s.set i x).disk = s.disk := rfl

theorem flush_h_other (s : LSys) (i j : Nat) (fl : Bool) (h : j ≠ i) : (flushHeader s i fl).h j = s.h j := by
  unfold flushHeader; simp only []; split
  · simp [LSys.set, h]
  · rfl
theorem flush_word (s : LSys) (i : Nat) (fl : Bool) : (flushHeader s i fl).word = s.word := by
  unfold flushHeader; simp only []; split <;> rfl
theorem flush_h_same (s : LSys) (i : Nat) (fl : Bool) :
    (flushHeader s i fl).h i = { s.h i with writing := (s.h i).writing && !fl } := by
  unfold flushHeader; simp only []; split
  · rename_i h; simp only [Bool.and_eq_true] at h; simp [LSys.set, h.1, h.2]
  · rename_i h
    cases hw : (s.h i).writing <;> cases fl <;> simp_all
    all_goals (rw [← hw])
theorem flush_disk (s : LSys) (i : Nat) (fl : Bool) :
    (flushHeader s i fl).disk = if fl = true ∧ (s.h i).writing = true ∧ (s.h i).locked = true then (s.h i).header else s.disk := by
  unfold flushHeader; simp only []; cases hw : (s.h i).writing <;> cases fl <;> cases hl : (s.h i).locked <;> simp

/-- A successful request leaves the word with the caller. -/
theorem heldByOther_false {p : Nat} {o : Option Nat} (h : heldByOther p o = false) : o = none ∨ o = some p := by
  cases o with
  | none => exact Or.inl rfl
  | some q => simp [heldByOther] at h; exact Or.inr (by rw [h])

theorem unlockWord_other {p q : Nat} {o : Option Nat} (hpq : p ≠ q) (h : o = some q) : unlockWord p o = some q := by
  simp [unlockWord, h]; intro e; exact absurd e.symm hpq

/-- The handle that makes a step. -/
def LEv.actor : LEv → Nat
  | .lockOn i _ _ => i
  | .lockOff i _ _ => i
  | .adv i => i
  | .giveUp i => i
  | .write i _ => i
  | .setAccess i _ => i
  | .openF i _ => i
  | .die i => i

theorem heldByOther_ne {p q : Nat} {o : Option Nat} (h : o = some q) (hpq : p ≠ q) : heldByOther p o = true := by
  subst h; simp [heldByOther]; exact fun e => hpq e.symm

/-- `s'` differs from `s` only in handle `i` and, if no other process has the lock word, in that word. -/
structure OnlyBy (i p : Nat) (s s' : LSys) : Prop where
  h : ∀ j, j ≠ i → s'.h j = s.h j
  word : ∀ q, s.word = some q → p ≠ q → s'.word = some q

theorem onlyBy_set (i p : Nat) (s : LSys) (x : LHandle) : OnlyBy i p s (s.set i x) :=
  ⟨fun j hj => set_other s i j x hj, fun _ h _ => h⟩

theorem onlyBy_refl (i p : Nat) (s : LSys) : OnlyBy i p s s := ⟨fun _ _ => rfl, fun _ h _ => h⟩

theorem onlyBy_flush (i p : Nat) (s : LSys) (fl : Bool) : OnlyBy i p s (flushHeader s i fl) :=
  ⟨fun j hj => flush_h_other s i j fl hj, fun _ h _ => by rw [flush_word]; exact h⟩

theorem OnlyBy.trans {i p : Nat} {a b c : LSys} (h1 : OnlyBy i p a b) (h2 : OnlyBy i p b c) : OnlyBy i p a c :=
  ⟨fun j hj => (h2.h j hj).trans (h1.h j hj), fun q hq hp => h2.word q (h1.word q hq hp) hp⟩

theorem onlyBy_on (i p : Nat) (s : LSys) (lvl : Nat) (fl : Bool) : OnlyBy i p s (startOn s i lvl fl) := by
  unfold startOn; simp only []; split
  · exact onlyBy_refl i p s
  · split
    · exact onlyBy_set i p s _
    · split
      · exact onlyBy_refl i p s
      · exact onlyBy_set i p s _

theorem onlyBy_off (i p : Nat) (s : LSys) (lvl : Nat) (fl : Bool) : OnlyBy i p s (startOff s i lvl fl) := by
  unfold startOff; simp only []; split
  · exact onlyBy_refl i p s
  · split
    · split
      · exact ((onlyBy_set i p s _).trans (onlyBy_flush i p _ fl)).trans (onlyBy_set i p _ _)
      · split
        · split
          · exact ((onlyBy_set i p s _).trans (onlyBy_flush i p _ fl)).trans (onlyBy_set i p _ _)
          · exact (onlyBy_set i p s _).trans (onlyBy_flush i p _ fl)
        · exact onlyBy_set i p s _
    · exact (onlyBy_flush i p s fl).trans (onlyBy_set i p _ _)

theorem onlyBy_word (i p : Nat) (s : LSys) (x : LHandle) (w xw : Option Nat) (ws rs : List (Option Nat))
    (hw : ∀ q, s.word = some q → p ≠ q → w = some q) :
    OnlyBy i p s { s.set i x with word := w, xword := xw, wslots := ws, rslots := rs } :=
  ⟨fun j hj => set_other s i j x hj, hw⟩

theorem onlyBy_adv (i p : Nat) (s s' : LSys) (h : advance s i p = some s') : OnlyBy i p s s' := by
  unfold advance at h
  simp only [] at h
  split at h
  · exact absurd h (by simp)
  · split at h
    · split at h
      · injection h with h; subst h; exact onlyBy_set i p s _
      · injection h with h; subst h; exact onlyBy_word i p s _ _ _ _ _ (fun q hq _ => hq)
    · injection h with h; subst h; exact onlyBy_set i p s _
  · injection h with h; subst h; exact onlyBy_set i p s _
  · split at h
    · injection h with h; subst h; exact onlyBy_set i p s _
    · injection h with h; subst h; exact onlyBy_set i p s _
  · split at h
    · split at h
      · injection h with h; subst h; exact onlyBy_set i p s _
      · rename_i hn
        injection h with h; subst h
        refine onlyBy_word i p s _ _ _ _ _ (fun q hq hp => ?_)
        exact absurd (by rw [heldByOther_ne hq hp]; rfl) hn
    · split at h
      · injection h with h; subst h; exact onlyBy_set i p s _
      · rename_i hn
        injection h with h; subst h
        refine onlyBy_word i p s _ _ _ _ _ (fun q hq hp => ?_)
        exact absurd (heldByOther_ne hq hp) hn
  · split at h
    · exact absurd h (by simp)
    · injection h with h; subst h; exact onlyBy_set i p s _
  · split at h
    · exact absurd h (by simp)
    · rename_i hn
      injection h with h; subst h
      refine onlyBy_word i p s _ _ _ _ _ (fun q hq hp => ?_)
      exact absurd (heldByOther_ne hq hp) hn
  · injection h with h; subst h; exact onlyBy_set i p s _
  · split at h
    · injection h with h; subst h; exact onlyBy_set i p s _
    · injection h with h; subst h; exact onlyBy_set i p s _
  · injection h with h; subst h
    exact onlyBy_word i p s _ _ _ _ _ (fun q hq hp => unlockWord_other hp hq)
  · injection h with h; subst h
    exact onlyBy_word i p s _ _ _ _ _ (fun q hq hp => unlockWord_other hp hq)

theorem onlyBy_step {pr : Nat → Nat} {s s' : LSys} {e : LEv} (h : lstep pr s e = some s') :
    OnlyBy e.actor (pr e.actor) s s' := by
  cases e with
  | lockOn i lvl fl =>
    simp only [lstep] at h; split at h
    · injection h with h; subst h; exact onlyBy_on i _ s lvl fl
    · exact absurd h (by simp)
  | lockOff i lvl fl =>
    simp only [lstep] at h; split at h
    · injection h with h; subst h; exact onlyBy_off i _ s lvl fl
    · exact absurd h (by simp)
  | adv i =>
    simp only [lstep] at h; split at h
    · exact onlyBy_adv i _ s s' h
    · exact absurd h (by simp)
  | giveUp i =>
    simp only [lstep] at h; split at h
    · unfold giveUp at h; simp only [] at h; split at h
      · split at h
        · injection h with h; subst h; exact onlyBy_word i _ s _ _ _ _ _ (fun q hq _ => hq)
        · exact absurd h (by simp)
      · split at h
        · injection h with h; subst h; exact onlyBy_set i _ s _
        · exact absurd h (by simp)
      · exact absurd h (by simp)
    · exact absurd h (by simp)
  | write i u =>
    simp only [lstep] at h; split at h
    · injection h with h; subst h; exact onlyBy_set i _ s _
    · exact absurd h (by simp)
  | setAccess i a =>
    simp only [lstep] at h; split at h
    · injection h with h; subst h; exact onlyBy_set i _ s _
    · exact absurd h (by simp)
  | openF i a =>
    simp only [lstep] at h; split at h
    · exact absurd h (by simp)
    · injection h with h; subst h
      unfold openHandle; simp only []; split
      · exact onlyBy_set i _ s _
      · split
        · exact onlyBy_set i _ s _
        · exact onlyBy_word i _ s _ _ _ _ _ (fun q hq _ => hq)
  | die i =>
    simp only [lstep] at h; split at h
    · injection h with h; subst h
      exact onlyBy_word i _ s _ _ _ _ _ (fun q hq hp => unlockWord_other hp hq)
    · exact absurd h (by simp)

/-- What is recorded as locked is locked. -/
structure Owns (p : Nat) (s : LSys) (x : LHandle) : Prop where
  acc : x.isOpen = true → 2 ≤ x.access
  own : x.locked = true → s.word = some p
  closed : x.isOpen = false → x.locked = false

theorem owns_off {i p : Nat} {s : LSys} (h : Owns p s (s.h i)) (ho : (s.h i).isOpen = true) (lvl : Nat) (fl : Bool) :
    Owns p (startOff s i lvl fl) ((startOff s i lvl fl).h i) := by
  have ha : accRead < (s.h i).access := h.acc ho
  unfold startOff
  simp only [ha, if_true]
  split
  · exact h
  · split
    · refine ⟨fun _ => ?_, fun hl => ?_, fun hc => ?_⟩
      · rw [set_same, flush_h_same, set_same]; exact h.acc ho
      · rw [set_same, flush_h_same, set_same] at hl
        rw [set_word, flush_word]; exact h.own hl
      · rw [set_same, flush_h_same, set_same] at hc; exact absurd (ho.symm.trans hc) (by simp)
    · split
      · split
        · refine ⟨fun _ => ?_, fun hl => ?_, fun hc => ?_⟩
          · rw [set_same, flush_h_same, set_same]; exact h.acc ho
          · rw [set_same, flush_h_same, set_same] at hl
            rw [set_word, flush_word]; exact h.own hl
          · rw [set_same, flush_h_same, set_same] at hc; exact absurd (ho.symm.trans hc) (by simp)
        · refine ⟨fun _ => ?_, fun hl => ?_, fun hc => ?_⟩
          · rw [flush_h_same, set_same]; exact h.acc ho
          · rw [flush_h_same, set_same] at hl
            rw [flush_word]; exact h.own hl
          · rw [flush_h_same, set_same] at hc; exact absurd (ho.symm.trans hc) (by simp)
      · refine ⟨fun _ => ?_, fun hl => ?_, fun hc => ?_⟩
        · rw [set_same]; exact h.acc ho
        · rw [set_same] at hl; exact h.own hl
        · rw [set_same] at hc; exact absurd (ho.symm.trans hc) (by simp)

/-- A handle whose new state keeps `locked`, and the word, keeps the invariant. -/
theorem owns_set {i p : Nat} {s : LSys} (h : Owns p s (s.h i)) (x : LHandle) (ho : x.isOpen = true)
    (ha : 2 ≤ x.access) (hl : x.locked = true → (s.h i).locked = true) : Owns p (s.set i x) ((s.set i x).h i) := by
  rw [set_same]
  exact ⟨fun _ => ha, fun hx => h.own (hl hx), fun hc => absurd (ho.symm.trans hc) (by simp)⟩

theorem readHeader_keeps (x : LHandle) (d : List Nat) :
    (readHeader x d).isOpen = x.isOpen ∧ (readHeader x d).access = x.access ∧ (readHeader x d).locked = x.locked ∧
    (readHeader x d).writing = x.writing := by
  unfold readHeader; split <;> exact ⟨rfl, rfl, rfl, rfl⟩

theorem owns_adv {i p : Nat} {s s' : LSys} (hi : Owns p s (s.h i)) (ho : (s.h i).isOpen = true)
    (h : advance s i p = some s') : Owns p s' (s'.h i) := by
  have ha : 2 ≤ (s.h i).access := hi.acc ho
  have key : ∀ (x : LHandle) (w xw : Option Nat) (ws rs : List (Option Nat)), x.isOpen = true → 2 ≤ x.access →
      (x.locked = true → w = some p) →
      Owns p { s.set i x with word := w, xword := xw, wslots := ws, rslots := rs }
        (({ s.set i x with word := w, xword := xw, wslots := ws, rslots := rs } : LSys).h i) := by
    intro x w xw ws rs h1 h2 h3
    have e : ({ s.set i x with word := w, xword := xw, wslots := ws, rslots := rs } : LSys).h i = x := set_same s i x
    rw [e]
    exact ⟨fun _ => h2, h3, fun hc => absurd (h1.symm.trans hc) (by simp)⟩
  unfold advance at h
  simp only [] at h
  split at h
  · exact absurd h (by simp)
  · split at h
    · split at h
      · injection h with h; subst h; exact owns_set hi _ ho ha (fun h => h)
      · injection h with h; subst h; exact key _ _ _ _ _ ho ha hi.own
    · injection h with h; subst h; exact owns_set hi _ ho ha (fun h => h)
  · injection h with h; subst h
    refine owns_set hi _ ho ?_ (fun h => h)
    show 2 ≤ (if _ then accMulti else (s.h i).access)
    split
    · exact Nat.le_refl 2
    · exact ha
  · split at h
    · injection h with h; subst h; exact owns_set hi _ ho ha (fun h => h)
    · injection h with h; subst h; exact owns_set hi _ ho ha (fun h => h)
  · split at h
    · split at h
      · injection h with h; subst h; exact owns_set hi _ ho ha (fun h => h)
      · injection h with h; subst h; exact key _ _ _ _ _ ho ha (fun _ => rfl)
    · split at h
      · injection h with h; subst h; exact owns_set hi _ ho ha (fun h => h)
      · injection h with h; subst h; exact key _ _ _ _ _ ho ha (fun _ => rfl)
  · split at h
    · exact absurd h (by simp)
    · injection h with h; subst h
      refine owns_set hi _ ho ?_ (fun h => h)
      show 2 ≤ (if _ then accMulti else (s.h i).access)
      split
      · exact Nat.le_refl 2
      · exact ha
  · split at h
    · exact absurd h (by simp)
    · injection h with h; subst h; exact key _ _ _ _ _ ho ha (fun _ => rfl)
  · injection h with h; subst h
    rename_i fl _
    cases fl
    · exact owns_set hi _ ho ha (fun h => h)
    · obtain ⟨r1, r2, r3, -⟩ := readHeader_keeps (s.h i) s.disk
      refine owns_set hi _ ?_ ?_ ?_
      · show (readHeader (s.h i) s.disk).isOpen = true; rw [r1]; exact ho
      · show 2 ≤ (readHeader (s.h i) s.disk).access; rw [r2]; exact ha
      · show (readHeader (s.h i) s.disk).locked = true → _; rw [r3]; exact fun h => h
  · split at h
    · injection h with h; subst h; exact owns_set hi _ ho ha (fun h => h)
    · injection h with h; subst h; exact owns_set hi _ ho ha (fun h => h)
  · injection h with h; subst h
    exact key _ _ _ _ _ ho ha (fun h => absurd h (by simp))
  · injection h with h; subst h
    exact key _ _ _ _ _ ho ha (fun h => absurd h (by simp))

theorem owns_step {pr : Nat → Nat} {s s' : LSys} {e : LEv} (hm : WriterMode e)
    (hi : Owns (pr e.actor) s (s.h e.actor)) (h : lstep pr s e = some s') :
    Owns (pr e.actor) s' (s'.h e.actor) := by
  cases e with
  | lockOn i lvl fl =>
    simp only [lstep] at h; split at h
    · rename_i hc
      injection h with h; subst h
      have ha : accRead < (s.h i).access := hi.acc hc.1
      show Owns (pr i) (startOn s i lvl fl) ((startOn s i lvl fl).h i)
      unfold startOn; simp only [ha, if_true]; split
      · exact hi
      · exact owns_set hi _ hc.1 ha (fun h => h)
    · exact absurd h (by simp)
  | lockOff i lvl fl =>
    simp only [lstep] at h; split at h
    · rename_i hc; injection h with h; subst h; exact owns_off hi hc.1 lvl fl
    · exact absurd h (by simp)
  | adv i =>
    simp only [lstep] at h; split at h
    · rename_i hc; exact owns_adv hi hc h
    · exact absurd h (by simp)
  | giveUp i =>
    simp only [lstep] at h; split at h
    · rename_i hc
      unfold giveUp at h; simp only [] at h; split at h
      · split at h
        · injection h with h; subst h
          have := owns_set hi { s.h i with pc := LPc.idle } hc (hi.acc hc) (fun h => h)
          exact ⟨this.acc, this.own, this.closed⟩
        · exact absurd h (by simp)
      · split at h
        · injection h with h; subst h; exact owns_set hi _ hc (hi.acc hc) (fun h => h)
        · exact absurd h (by simp)
      · exact absurd h (by simp)
    · exact absurd h (by simp)
  | write i u =>
    simp only [lstep] at h; split at h
    · rename_i hc
      injection h with h; subst h; exact owns_set hi _ hc.1 (hi.acc hc.1) (fun h => h)
    · exact absurd h (by simp)
  | setAccess i a =>
    simp only [lstep] at h; split at h
    · rename_i hc
      injection h with h; subst h; exact owns_set hi _ hc.1 hm (fun h => h)
    · exact absurd h (by simp)
  | openF i a =>
    simp only [lstep] at h; split at h
    · exact absurd h (by simp)
    · injection h with h; subst h
      have ha : 2 ≤ (if a = 0 then accAdvisory else a) := by
        split
        · decide
        · have : a ≠ 1 := hm; omega
      show Owns (pr i) (openHandle s i (pr i) a) ((openHandle s i (pr i) a).h i)
      unfold openHandle; simp only []; split
      · exact owns_set hi _ rfl ha (fun h => absurd h (by simp))
      · split
        · exact owns_set hi _ rfl ha (fun h => absurd h (by simp))
        · rename_i k rs _
          have := owns_set hi { isOpen := true, access := if a = 0 then accAdvisory else a, header := s.disk, rslot := some k } rfl ha (fun h => absurd h (by simp))
          exact ⟨this.acc, this.own, this.closed⟩
  | die i =>
    simp only [lstep] at h; split at h
    · injection h with h; subst h
      have e : (dieHandle s i (pr i)).h i = {} := set_same s i {}
      show Owns (pr i) (dieHandle s i (pr i)) ((dieHandle s i (pr i)).h i)
      rw [e]
      exact ⟨fun h => absurd h (by simp), fun h => absurd h (by simp), fun _ => rfl⟩
    · exact absurd h (by simp)

/-- Every handle keeps the invariant in every step. -/
theorem owns_all_step {pr : Nat → Nat} (hinj : ∀ a b, pr a = pr b → a = b) {s s' : LSys} {e : LEv} (hm : WriterMode e)
    (hi : ∀ j, Owns (pr j) s (s.h j)) (h : lstep pr s e = some s') : ∀ j, Owns (pr j) s' (s'.h j) := by
  intro j
  by_cases hj : j = e.actor
  · subst hj; exact owns_step hm (hi _) h
  · have o := onlyBy_step h
    rw [o.h j hj]
    exact ⟨(hi j).acc, fun hl => o.word _ ((hi j).own hl) (fun hp => hj (hinj _ _ hp.symm)), (hi j).closed⟩

theorem owns_run {pr : Nat → Nat} (hinj : ∀ a b, pr a = pr b → a = b) (t : List LEv) :
    ∀ s s' : LSys, (∀ e ∈ t, WriterMode e) → (∀ j, Owns (pr j) s (s.h j)) → lrun pr s t = some s' →
    ∀ j, Owns (pr j) s' (s'.h j) := by
  induction t with
  | nil => intro s s' _ hi h; simp only [lrun] at h; injection h with h; subst h; exact hi
  | cons e es ih =>
    intro s s' hm hi h
    simp only [lrun] at h
    split at h
    · exact absurd h (by simp)
    · rename_i s1 h1
      exact ih s1 s' (fun e he => hm e (List.mem_cons_of_mem _ he)) (owns_all_step hinj (hm _ List.mem_cons_self) hi h1) h

theorem owns_start (pr : Nat → Nat) (n : Nat) : ∀ j, Owns (pr j) (lstart n) ((lstart n).h j) :=
  fun _ => ⟨fun h => absurd h (by simp [lstart]), fun h => absurd h (by simp [lstart]), fun _ => rfl⟩

theorem canWrite_iff (pr : Nat → Nat) (s : LSys) (i : Nat) :
    CanWrite pr s i ↔ (s.h i).isOpen = true ∧ (s.h i).pc = .idle ∧ (s.h i).locked = true := by
  constructor
  · rintro ⟨u, s', h⟩
    simp only [lstep] at h
    split at h
    · rename_i hc; exact hc
    · exact absurd h (by simp)
  · intro h
    exact ⟨0, _, by simp only [lstep]; rw [if_pos h]⟩

end Hec
