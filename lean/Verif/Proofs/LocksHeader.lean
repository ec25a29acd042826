import Verif.Proofs.Locks
/-!
The file header under concurrent writers.
-/
namespace Hec
open _root_.Spec (WriterMode WithFlush CanWrite)

/-- What each place inside zlockActive knows. -/
def PcOk (x : LHandle) : Prop :=
  match x.pc with
  | .users _ _ => x.locked = false
  | .attempt _ fl => x.locked = false ∧ fl = true
  | .testX _ fl => x.locked = false ∧ fl = true
  | .wait _ fl => x.locked = false ∧ fl = true
  | .header fl => x.locked = true ∧ fl = true ∧ x.writing = false
  | .record => x.locked = true
  | .unlock => x.locked = true ∧ x.writing = false
  | .unlockBoth => x.writing = false
  | _ => True

/-- Variant of `PcOk` for the two places that only pass the flush flag on. -/
def FlagOk (x : LHandle) : Prop :=
  match x.pc with
  | .slot _ fl => fl = true
  | .look _ fl => fl = true
  | .users _ fl => fl = true
  | _ => True

def atHeader : LPc → Bool
  | .header _ => true
  | _ => false

/-- The copy of the header of a handle that has the file locked is the one on disk, plus what this
handle wrote since. -/
structure Clean (d : List Nat) (x : LHandle) : Prop where
  quiet : x.locked = false → x.writing = false
  pcs : PcOk x
  flag : FlagOk x
  hdr : x.locked = true → atHeader x.pc = false → ∃ own, x.header = d ++ own ∧ (x.writing = false → own = [])

/-- The step of the actor: how its own state and the disk change. -/
structure Eff (s s' : LSys) (i : Nat) : Prop where
  clean : Clean s'.disk (s'.h i)
  disk : s'.disk = s.disk ∨ ((s.h i).locked = true ∧ s'.disk = (s.h i).header ∧ (s.h i).pc = .idle)
  keeps : (s.h i).writing = true → (s.h i).locked = true →
    ((s'.h i).header = (s.h i).header ∨ ∃ u, (s'.h i).header = (s.h i).header ++ [u]) ∧
      (((s'.h i).writing = true ∧ (s'.h i).locked = true) ∨ s'.disk = (s.h i).header)

theorem clean_start (d : List Nat) : Clean d {} :=
  ⟨fun _ => rfl, trivial, trivial, fun h => absurd h (by simp)⟩

theorem eff_refl {s : LSys} {i : Nat} (h : Clean s.disk (s.h i)) : Eff s s i :=
  ⟨h, Or.inl rfl, fun h1 h2 => ⟨Or.inl rfl, Or.inl ⟨h1, h2⟩⟩⟩

/-- A step that leaves disk, header, `locked` and `writing`. -/
theorem eff_same {s s' : LSys} {i : Nat} (x : LHandle) (hx : s'.h i = x) (hd : s'.disk = s.disk)
    (hl : x.locked = (s.h i).locked) (hw : x.writing = (s.h i).writing) (hh : x.header = (s.h i).header)
    (c : Clean s.disk (s.h i)) (hp : PcOk x) (hf : FlagOk x) (ha : atHeader (s.h i).pc = false ∨ x.locked = false) : Eff s s' i := by
  refine ⟨?_, Or.inl hd, fun h1 h2 => ⟨?_, Or.inl ?_⟩⟩
  · rw [hx, hd]
    refine ⟨fun h => ?_, hp, hf, fun h h' => ?_⟩
    · rw [hw]; exact c.quiet (by rw [← hl]; exact h)
    · rw [hh, hw]
      cases ha with
      | inl ha => exact c.hdr (by rw [← hl]; exact h) ha
      | inr ha => rw [ha] at h; exact absurd h (by simp)
  · rw [hx, hh]; exact Or.inl rfl
  · rw [hx, hw, hl]; exact ⟨h1, h2⟩

theorem eff_on {s : LSys} {i : Nat} (c : Clean s.disk (s.h i)) (hpc : (s.h i).pc = .idle)
    (ha : accRead < (s.h i).access) (lvl : Nat) : Eff s (startOn s i lvl true) i := by
  unfold startOn
  simp only [ha, if_true]
  split
  · exact eff_refl c
  · exact eff_same _ (set_same s i _) rfl rfl rfl rfl c trivial rfl (by rw [hpc]; exact Or.inl rfl)

theorem clean_flushed {d : List Nat} {x : LHandle} (c : Clean d x) (hpc : x.pc = .idle) (hl : x.locked = true) :
    (if x.writing = true then x.header else d) = x.header := by
  split
  · rfl
  · rename_i hw
    obtain ⟨own, h1, h2⟩ := c.hdr hl (by rw [hpc]; rfl)
    rw [h1, h2 (by simpa using hw), List.append_nil]

theorem eff_off {s : LSys} {i : Nat} (c : Clean s.disk (s.h i)) (hpc : (s.h i).pc = .idle)
    (ha : accRead < (s.h i).access) (lvl : Nat) : Eff s (startOff s i lvl true) i ∧
      ((s.h i).level ≤ lvl → ((startOff s i lvl true).h i).writing = false) := by
  unfold startOff
  simp only [ha, if_true]
  split
  · rename_i hlt; exact ⟨eff_refl c, fun h => by omega⟩
  · -- the disk after flushing
    have hfd : (flushHeader (s.set i { s.h i with level := 0 }) i true).disk
        = if (s.h i).writing = true ∧ (s.h i).locked = true then (s.h i).header else s.disk := by
      rw [flush_disk, set_same]; simp [set_disk]
    have hfh : (flushHeader (s.set i { s.h i with level := 0 }) i true).h i = { s.h i with level := 0, writing := false } := by
      rw [flush_h_same, set_same]; simp
    generalize hF : flushHeader (s.set i { s.h i with level := 0 }) i true = F at hfd hfh
    rcases (Bool.eq_false_or_eq_true (s.h i).locked) with hl | hl
    · have hfd' : F.disk = (s.h i).header := by
        rw [hfd]; simp only [hl, and_true]; exact clean_flushed c hpc hl
      have mk : ∀ (s' : LSys) (pc : LPc), s'.disk = (s.h i).header → s'.h i = { s.h i with level := 0, writing := false, pc := pc } →
          (pc = .idle ∨ pc = .unlock ∨ pc = .unlockBoth) → Eff s s' i := by
        intro s' pc hd hh hp
        refine ⟨?_, Or.inr ⟨hl, hd, hpc⟩, fun h1 h2 => ⟨?_, Or.inr hd⟩⟩
        · rw [hd, hh]
          refine ⟨fun _ => rfl, ?_, ?_, fun _ _ => ⟨[], by simp, fun _ => rfl⟩⟩
          · rcases hp with rfl | rfl | rfl
            · exact trivial
            · exact ⟨hl, rfl⟩
            · exact rfl
          · rcases hp with rfl | rfl | rfl <;> exact trivial
        · rw [hh]; exact Or.inl rfl
      split
      · refine ⟨mk _ .unlockBoth (by rw [set_disk]; exact hfd') (by rw [set_same, hfh]) (Or.inr (Or.inr rfl)), fun _ => ?_⟩
        rw [set_same, hfh]
      · try rw [if_pos hl]
        split
        · refine ⟨mk _ .unlock (by rw [set_disk]; exact hfd') (by rw [set_same, hfh]) (Or.inr (Or.inl rfl)), fun _ => ?_⟩
          rw [set_same, hfh]
        · refine ⟨mk _ .idle hfd' ?_ (Or.inl rfl), fun _ => ?_⟩
          · rw [hfh, ← hpc]
          · rw [hfh]
    · have hw : (s.h i).writing = false := c.quiet hl
      have hfd' : F.disk = s.disk := by
        rw [hfd]; simp [hl]
      split
      · refine ⟨eff_same { s.h i with level := 0, writing := false, pc := .unlockBoth } (by rw [set_same, hfh])
          (by rw [set_disk]; exact hfd') rfl (by show false = _; rw [hw]) rfl c rfl trivial (Or.inr hl), fun _ => ?_⟩
        rw [set_same, hfh]
      · try rw [if_neg (by rw [hl]; simp)]
        refine ⟨eff_same { s.h i with level := 0 } (set_same s i _) rfl rfl rfl rfl c ?_ ?_ (Or.inr hl), fun _ => ?_⟩
        · show PcOk _; unfold PcOk; simp only [hpc]
        · show FlagOk _; unfold FlagOk; simp only [hpc]
        · rw [set_same]; exact hw

theorem eff_lock {s s' : LSys} {i : Nat} (lvl : Nat) (c : Clean s.disk (s.h i)) (hl : (s.h i).locked = false)
    (hx : s'.h i = gotLock (s.h i) lvl true) (hd : s'.disk = s.disk) : Eff s s' i := by
  refine ⟨?_, Or.inl hd, fun _ h => absurd h (by rw [hl]; simp)⟩
  rw [hx, hd]
  exact ⟨fun h => absurd h (by simp [gotLock]), ⟨rfl, rfl, c.quiet hl⟩, trivial, fun _ h => absurd h (by simp [gotLock, atHeader])⟩

theorem eff_adv {s s' : LSys} {i p : Nat} (c : Clean s.disk (s.h i)) (h : advance s i p = some s') : Eff s s' i := by
  have hp := c.pcs
  have hf := c.flag
  unfold PcOk at hp
  unfold FlagOk at hf
  unfold advance at h
  simp only [] at h
  split at h
  · exact absurd h (by simp)
  · rename_i lvl fl e
    rw [e] at hf
    have hh : atHeader (s.h i).pc = false := by rw [e]; rfl
    split at h
    · split at h
      · injection h with h; subst h; exact eff_same _ (set_same s i _) rfl rfl rfl rfl c trivial hf (Or.inl hh)
      · injection h with h; subst h; exact eff_same _ (set_same s i _) rfl rfl rfl rfl c trivial hf (Or.inl hh)
    · injection h with h; subst h; exact eff_same _ (set_same s i _) rfl rfl rfl rfl c trivial hf (Or.inl hh)
  · rename_i lvl fl e
    rw [e] at hf
    have hh : atHeader (s.h i).pc = false := by rw [e]; rfl
    injection h with h; subst h
    refine eff_same _ (set_same s i _) rfl rfl rfl rfl c ?_ ?_ (Or.inl hh)
    · cases hl : (s.h i).locked with
      | true => simp only [PcOk, if_true]
      | false =>
        simp only [PcOk, Bool.false_eq_true, if_false]
        split <;> rename_i e2 <;> (try split at e2) <;> (try split at e2) <;> simp_all
    · cases hl : (s.h i).locked with
      | true => simp only [FlagOk, if_true]
      | false =>
        simp only [FlagOk, Bool.false_eq_true, if_false]
        split <;> rename_i e2 <;> (try split at e2) <;> (try split at e2) <;> simp_all
  · rename_i lvl fl e
    rw [e] at hp hf
    have hh : atHeader (s.h i).pc = false := by rw [e]; rfl
    split at h
    · injection h with h; subst h; exact eff_same _ (set_same s i _) rfl rfl rfl rfl c trivial trivial (Or.inl hh)
    · injection h with h; subst h; exact eff_same _ (set_same s i _) rfl rfl rfl rfl c ⟨hp, hf⟩ trivial (Or.inl hh)
  · rename_i lvl fl e
    rw [e] at hp
    obtain ⟨hl, rfl⟩ := hp
    have hh : atHeader (s.h i).pc = false := by rw [e]; rfl
    split at h
    · split at h
      · injection h with h; subst h; exact eff_same _ (set_same s i _) rfl rfl rfl rfl c trivial trivial (Or.inl hh)
      · injection h with h; subst h; exact eff_lock lvl c hl (set_same s i _) rfl
    · split at h
      · injection h with h; subst h; exact eff_same _ (set_same s i _) rfl rfl rfl rfl c ⟨hl, rfl⟩ trivial (Or.inl hh)
      · injection h with h; subst h; exact eff_lock lvl c hl (set_same s i _) rfl
  · rename_i lvl fl e
    rw [e] at hp
    obtain ⟨hl, rfl⟩ := hp
    have hh : atHeader (s.h i).pc = false := by rw [e]; rfl
    split at h
    · exact absurd h (by simp)
    · injection h with h; subst h; exact eff_same _ (set_same s i _) rfl rfl rfl rfl c ⟨hl, rfl⟩ trivial (Or.inl hh)
  · rename_i lvl fl e
    rw [e] at hp
    obtain ⟨hl, rfl⟩ := hp
    split at h
    · exact absurd h (by simp)
    · injection h with h; subst h; exact eff_lock lvl c hl (set_same s i _) rfl
  · rename_i fl e
    rw [e] at hp
    obtain ⟨hl, rfl, hw⟩ := hp
    injection h with h; subst h
    simp only [if_true]
    have hr : readHeader (s.h i) s.disk = { s.h i with header := s.disk } := by
      unfold readHeader; simp [hw]
    refine ⟨?_, Or.inl rfl, fun h _ => absurd h (by rw [hw]; simp)⟩
    rw [set_same, hr]
    exact ⟨fun h => absurd (hl.symm.trans h) (by simp), hl, trivial, fun _ _ => ⟨[], by simp [set_disk], fun _ => rfl⟩⟩
  · rename_i e
    rw [e] at hp
    have hh : atHeader (s.h i).pc = false := by rw [e]; rfl
    split at h
    · injection h with h; subst h; exact eff_same _ (set_same s i _) rfl rfl rfl rfl c trivial trivial (Or.inl hh)
    · injection h with h; subst h
      obtain ⟨own, h1, h2⟩ := c.hdr hp hh
      refine ⟨?_, Or.inl rfl, fun h h' => ⟨by rw [set_same]; exact Or.inl rfl, Or.inl ⟨by rw [set_same], by rw [set_same]; exact h'⟩⟩⟩
      rw [set_same]
      exact ⟨fun h => absurd (hp.symm.trans h) (by simp), trivial, trivial, fun _ _ => ⟨own, h1, fun h => absurd h (by simp)⟩⟩
  · rename_i e
    rw [e] at hp
    injection h with h; subst h
    refine ⟨?_, Or.inl rfl, fun h h' => absurd h (by rw [hp.2]; simp)⟩
    show Clean s.disk ((s.set i _).h i)
    rw [set_same]
    exact ⟨fun _ => hp.2, trivial, trivial, fun h => absurd h (by simp)⟩
  · rename_i e
    rw [e] at hp
    injection h with h; subst h
    refine ⟨?_, Or.inl rfl, fun h h' => absurd h (by rw [hp]; simp)⟩
    show Clean s.disk ((s.set i _).h i)
    rw [set_same]
    exact ⟨fun _ => hp, trivial, trivial, fun h => absurd h (by simp)⟩

/-- Every step but the end of a process. -/
theorem eff_step {pr : Nat → Nat} {s s' : LSys} {e : LEv} (hwf : WithFlush e) (hd : e ≠ .die e.actor)
    (o : Owns (pr e.actor) s (s.h e.actor)) (c : Clean s.disk (s.h e.actor)) (h : lstep pr s e = some s') : Eff s s' e.actor := by
  cases e with
  | lockOn i lvl fl =>
    have : fl = true := hwf
    subst this
    simp only [lstep] at h; split at h
    · rename_i hc; injection h with h; subst h
      exact eff_on c hc.2 (o.acc hc.1) lvl
    · exact absurd h (by simp)
  | lockOff i lvl fl =>
    have : fl = true := hwf
    subst this
    simp only [lstep] at h; split at h
    · rename_i hc; injection h with h; subst h; exact (eff_off c hc.2 (o.acc hc.1) lvl).1
    · exact absurd h (by simp)
  | adv i =>
    simp only [lstep] at h; split at h
    · exact eff_adv c h
    · exact absurd h (by simp)
  | giveUp i =>
    simp only [lstep] at h; split at h
    · have hp : PcOk (s.h i) := c.pcs
      unfold PcOk at hp
      unfold giveUp at h; simp only [] at h; split at h
      · rename_i e; rw [e] at hp
        split at h
        · injection h with h; subst h; exact eff_same _ (set_same s i _) rfl rfl rfl rfl c trivial trivial (Or.inr hp.1)
        · exact absurd h (by simp)
      · rename_i e; rw [e] at hp
        split at h
        · injection h with h; subst h; exact eff_same _ (set_same s i _) rfl rfl rfl rfl c trivial trivial (Or.inr hp.1)
        · exact absurd h (by simp)
      · exact absurd h (by simp)
    · exact absurd h (by simp)
  | write i u =>
    simp only [lstep] at h; split at h
    · rename_i hc
      injection h with h; subst h
      obtain ⟨own, h1, h2⟩ := c.hdr hc.2.2 (by show atHeader (s.h i).pc = false; rw [hc.2.1]; rfl)
      refine ⟨?_, Or.inl rfl, fun h h' => ?_⟩
      · show Clean s.disk ((s.set i _).h i)
        rw [set_same]
        refine ⟨fun h => absurd (hc.2.2.symm.trans h) (by simp), ?_, ?_, fun _ _ => ⟨own ++ [u], ?_, fun h => absurd h (by simp)⟩⟩
        · unfold PcOk; simp only [hc.2.1]
        · unfold FlagOk; simp only [hc.2.1]
        · show (s.h i).header ++ [u] = _
          rw [← List.append_assoc, ← h1]; rfl
      · refine ⟨Or.inr ⟨u, ?_⟩, Or.inl ⟨?_, ?_⟩⟩
        · show ((s.set i _).h i).header = _; rw [set_same]; rfl
        · show ((s.set i _).h i).writing = _; rw [set_same]
        · show ((s.set i _).h i).locked = _; rw [set_same]; exact h'
    · exact absurd h (by simp)
  | setAccess i a =>
    simp only [lstep] at h; split at h
    · rename_i hc
      injection h with h; subst h
      refine eff_same _ (set_same s i _) rfl rfl rfl rfl c ?_ ?_ (Or.inl ?_)
      · unfold PcOk; simp only [hc.2]
      · unfold FlagOk; simp only [hc.2]
      · show atHeader (s.h i).pc = false; rw [hc.2]; rfl
    · exact absurd h (by simp)
  | openF i a =>
    simp only [lstep] at h; split at h
    · exact absurd h (by simp)
    · rename_i hc
      injection h with h; subst h
      have hl : (s.h i).locked = false := o.closed (by show (s.h i).isOpen = false; simpa using hc)
      have mk : ∀ (s' : LSys) (x : LHandle), s'.disk = s.disk → s'.h i = x → x.locked = false → x.writing = false → x.pc = .idle → Eff s s' i := by
        intro s' x hd hh h1 h2 h3
        refine ⟨?_, Or.inl hd, fun _ h' => absurd (hl.symm.trans h') (by simp)⟩
        rw [hd, hh]
        refine ⟨fun _ => h2, ?_, ?_, fun h => absurd (h1.symm.trans h) (by simp)⟩
        · unfold PcOk; rw [h3]; trivial
        · unfold FlagOk; rw [h3]; trivial
      show Eff s (openHandle s i (pr i) a) i
      unfold openHandle; simp only []; split
      · exact mk _ _ rfl (set_same s i _) rfl rfl rfl
      · split
        · exact mk _ _ rfl (set_same s i _) rfl rfl rfl
        · exact mk _ _ rfl (set_same s i _) rfl rfl rfl
  | die i => exact absurd rfl hd

/-- All that is known of a state. -/
structure LInv (pr : Nat → Nat) (s : LSys) : Prop where
  owns : ∀ j, Owns (pr j) s (s.h j)
  clean : ∀ j, Clean s.disk (s.h j)

theorem linv_excl {pr : Nat → Nat} (hinj : ∀ a b, pr a = pr b → a = b) {s : LSys} (h : LInv pr s) {i j : Nat}
    (hi : (s.h i).locked = true) (hj : (s.h j).locked = true) : i = j := by
  have a := (h.owns i).own hi
  have b := (h.owns j).own hj
  rw [a] at b
  exact hinj _ _ (Option.some.inj b)

theorem disk_die {pr : Nat → Nat} {s s' : LSys} {i : Nat} (h : lstep pr s (.die i) = some s') : s'.disk = s.disk ∧ s'.h i = {} := by
  simp only [lstep] at h; split at h
  · injection h with h; subst h; exact ⟨rfl, set_same s i {}⟩
  · exact absurd h (by simp)

theorem linv_step {pr : Nat → Nat} (hinj : ∀ a b, pr a = pr b → a = b) {s s' : LSys} {e : LEv} (hm : WriterMode e)
    (hwf : WithFlush e) (hi : LInv pr s) (h : lstep pr s e = some s') :
    LInv pr s' ∧ ∃ own, s'.disk = s.disk ++ own := by
  have ow := owns_all_step hinj hm hi.owns h
  have ob := onlyBy_step h
  by_cases hd : e = .die e.actor
  · have hdie : lstep pr s (.die e.actor) = some s' := by rw [← hd]; exact h
    obtain ⟨d1, d2⟩ := disk_die hdie
    refine ⟨⟨ow, fun j => ?_⟩, [], by rw [d1, List.append_nil]⟩
    by_cases hj : j = e.actor
    · rw [hj, d2]; exact clean_start _
    · rw [ob.h j hj, d1]; exact hi.clean j
  · have ef := eff_step hwf hd (hi.owns _) (hi.clean _) h
    refine ⟨⟨ow, fun j => ?_⟩, ?_⟩
    · by_cases hj : j = e.actor
      · rw [hj]; exact ef.clean
      · rw [ob.h j hj]
        rcases ef.disk with hdk | ⟨hl, _, _⟩
        · rw [hdk]; exact hi.clean j
        · have c := hi.clean j
          refine ⟨c.quiet, c.pcs, c.flag, fun hlj => absurd (linv_excl hinj hi hlj hl) hj⟩
    · rcases ef.disk with hdk | ⟨hl, hdk, hpc⟩
      · exact ⟨[], by rw [hdk, List.append_nil]⟩
      · obtain ⟨own, h1, _⟩ := (hi.clean e.actor).hdr hl (by rw [hpc]; rfl)
        exact ⟨own, by rw [hdk, h1]⟩

theorem linv_run {pr : Nat → Nat} (hinj : ∀ a b, pr a = pr b → a = b) (t : List LEv) :
    ∀ s s' : LSys, (∀ e ∈ t, WriterMode e) → (∀ e ∈ t, WithFlush e) → LInv pr s → lrun pr s t = some s' →
    LInv pr s' ∧ ∃ own, s'.disk = s.disk ++ own := by
  induction t with
  | nil => intro s s' _ _ hi h; simp only [lrun] at h; injection h with h; subst h; exact ⟨hi, [], by simp⟩
  | cons e es ih =>
    intro s s' hm hw hi h
    simp only [lrun] at h
    split at h
    · exact absurd h (by simp)
    · rename_i s1 h1
      obtain ⟨i1, o1, e1⟩ := linv_step hinj (hm _ List.mem_cons_self) (hw _ List.mem_cons_self) hi h1
      obtain ⟨i2, o2, e2⟩ := ih s1 s' (fun e he => hm e (List.mem_cons_of_mem _ he)) (fun e he => hw e (List.mem_cons_of_mem _ he)) i1 h
      exact ⟨i2, o1 ++ o2, by rw [e2, e1, List.append_assoc]⟩

theorem linv_start (pr : Nat → Nat) (n : Nat) : LInv pr (lstart n) :=
  ⟨owns_start pr n, fun _ => clean_start _⟩

/-- Update `u` of handle `i` is on disk, or waits in the header of handle `i`. -/
def Pending (s : LSys) (i u : Nat) : Prop :=
  u ∈ s.disk ∨ (u ∈ (s.h i).header ∧ (s.h i).locked = true ∧ (s.h i).writing = true)

theorem pending_step {pr : Nat → Nat} (hinj : ∀ a b, pr a = pr b → a = b) {s s' : LSys} {e : LEv} (hm : WriterMode e)
    (hwf : WithFlush e) (hi : LInv pr s) (h : lstep pr s e = some s') {i u : Nat} (hd : e ≠ .die i)
    (hp : Pending s i u) : Pending s' i u := by
  rcases hp with hp | ⟨p1, p2, p3⟩
  · obtain ⟨-, own, e1⟩ := linv_step hinj hm hwf hi h
    exact Or.inl (by rw [e1]; exact List.mem_append_left _ hp)
  · by_cases hj : i = e.actor
    · subst hj
      have ef := eff_step hwf hd (hi.owns _) (hi.clean _) h
      obtain ⟨k1, k2⟩ := ef.keeps p3 p2
      rcases k2 with ⟨w, l⟩ | k2
      · refine Or.inr ⟨?_, l, w⟩
        rcases k1 with k1 | ⟨v, k1⟩
        · rw [k1]; exact p1
        · rw [k1]; exact List.mem_append_left _ p1
      · exact Or.inl (by rw [k2]; exact p1)
    · have ob := (onlyBy_step h).h i hj
      exact Or.inr (by rw [ob]; exact ⟨p1, p2, p3⟩)

theorem pending_run {pr : Nat → Nat} (hinj : ∀ a b, pr a = pr b → a = b) (t : List LEv) (i u : Nat) :
    ∀ s s' : LSys, (∀ e ∈ t, WriterMode e) → (∀ e ∈ t, WithFlush e) → LEv.die i ∉ t → LInv pr s → lrun pr s t = some s' →
    Pending s i u → Pending s' i u := by
  induction t with
  | nil => intro s s' _ _ _ hi h hp; simp only [lrun] at h; injection h with h; subst h; exact hp
  | cons e es ih =>
    intro s s' hm hw hd hi h hp
    simp only [lrun] at h
    split at h
    · exact absurd h (by simp)
    · rename_i s1 h1
      obtain ⟨i1, -⟩ := linv_step hinj (hm _ List.mem_cons_self) (hw _ List.mem_cons_self) hi h1
      refine ih s1 s' (fun e he => hm e (List.mem_cons_of_mem _ he)) (fun e he => hw e (List.mem_cons_of_mem _ he))
        (fun hc => hd (List.mem_cons_of_mem _ hc)) i1 h ?_
      exact pending_step hinj (hm _ List.mem_cons_self) (hw _ List.mem_cons_self) hi h1
        (fun hc => hd (by rw [hc]; exact List.mem_cons_self)) hp

theorem lrun_append (pr : Nat → Nat) (a b : List LEv) : ∀ s s' : LSys,
    lrun pr s (a ++ b) = some s' → ∃ m, lrun pr s a = some m ∧ lrun pr m b = some s' := by
  induction a with
  | nil => intro s s' h; exact ⟨s, rfl, h⟩
  | cons e es ih =>
    intro s s' h
    simp only [List.cons_append, lrun] at h ⊢
    split at h
    · exact absurd h (by simp)
    · exact ih _ _ h

end Hec
