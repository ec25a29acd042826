import Verif.Spec.FileTimes
import Verif.Props.Undelete
import Verif.Props.Rename
import Verif.Props.OldNames
import Verif.Proofs.SeriesLoop
/-!
C101: the times in the header after one call, against the abstract contents of the file.
-/
namespace Hec
set_option linter.unusedSimpArgs false
set_option linter.unusedVariables false
open _root_.Spec (Op Store Step Steps run runs Allowed AllAllowed Reachable GoodSizes create join keepDates renamed SixParts IsPart Set DropOne stored
  Timed readings Rising timesAfter timesRuns)
open Hec.Spec (sameUpToCase)

variable {c : Cfg}

/-- There is a record `R`, or a deleted one. -/
def Held (S : Store) (R : Rec) : Prop := (∃ p, S.live p = some R) ∨ ∃ p, R ∈ S.trash p

/-- What a call does to the times. -/
structure TimesStep (S S' : Store) (x : Timed) (t t' : FileTimes) : Prop where
  /-- Either nothing happened, or the time is new. -/
  moved : (t' = t ∧ S' = S) ∨ (t'.last ∈ readings x ∧ (t'.mine = t.mine ∨ t'.mine = t'.last))
  /-- A record was there before, or was written now. -/
  from_ : ∀ R, Held S' R → Held S R ∨ ∃ r, x.1 = .write r ∧ R.lastWrite = r.now ∧ t'.last = r.now
  written : ∀ r, x.1 = .write r → t' = ⟨r.now, r.now⟩

theorem held_drop {f f' : Bytes → List Rec} (h : DropOne f f') {q : Bytes} {R : Rec} (hq : R ∈ f' q) : R ∈ f q := by
  obtain ⟨t, i, h⟩ := h
  by_cases ht : sameUpToCase t q
  · rw [(h q).1 ht] at hq; exact List.mem_of_mem_eraseIdx hq
  · rwa [(h q).2 ht] at hq

theorem held_delete {S S' : Store} {p : Bytes} {res : Res} (h : Step S (.delete p) res S') {R : Rec} (hR : Held S' R) : Held S R := by
  cases h with
  | deleteMissing _ => exact hR
  | @delete _ _ T h1 h2 h3 =>
    rcases hR with ⟨q, hq⟩ | ⟨q, hq⟩
    · by_cases hs : sameUpToCase p q
      · rw [(h2 q).1 hs] at hq; cases hq
      · rw [(h2 q).2 hs] at hq; exact Or.inl ⟨q, hq⟩
    · by_cases hs : sameUpToCase p q
      · rw [(h3 q).1 hs] at hq
        rcases List.mem_cons.mp hq with rfl | hq
        · exact Or.inl ⟨p, h1⟩
        · exact Or.inr ⟨p, hq⟩
      · rw [(h3 q).2 hs] at hq; exact Or.inr ⟨q, hq⟩

/-- Every record after a call was there before, or is the one written. -/
theorem held_step {S S' : Store} {op : Op} {res : Res} (h : Step S op res S') {R : Rec} (hR : Held S' R) :
    Held S R ∨ ∃ r v, op = .write r ∧ R = stored r v := by
  cases h with
  | @writeNew _ r h1 h2 h3 =>
    rcases hR with ⟨q, hq⟩ | ⟨q, hq⟩
    · by_cases hs : sameUpToCase r.path q
      · rw [(h2 q).1 hs] at hq; exact Or.inr ⟨r, 1, rfl, (Option.some.inj hq).symm⟩
      · rw [(h2 q).2 hs] at hq; exact Or.inl (Or.inl ⟨q, hq⟩)
    · exact Or.inl (Or.inr ⟨q, held_drop h3 hq⟩)
  | @overwrite _ r T h1 h2 h3 h4 =>
    rcases hR with ⟨q, hq⟩ | ⟨q, hq⟩
    · by_cases hs : sameUpToCase r.path q
      · rw [(h3 q).1 hs] at hq; exact Or.inr ⟨r, _, rfl, (Option.some.inj hq).symm⟩
      · rw [(h3 q).2 hs] at hq; exact Or.inl (Or.inl ⟨q, hq⟩)
    · rw [h4] at hq; exact Or.inl (Or.inr ⟨q, hq⟩)
  | refused _ _ => exact Or.inl hR
  | delete h1 h2 h3 => exact Or.inl (held_delete (.delete h1 h2 h3) hR)
  | deleteMissing _ => exact Or.inl hR
  | @undelete _ p T rest h1 h2 h3 =>
    left
    rcases hR with ⟨q, hq⟩ | ⟨q, hq⟩
    · by_cases hs : sameUpToCase p q
      · rw [(h2 q).1 hs] at hq
        exact Or.inr ⟨p, by rw [h1, ← Option.some.inj hq]; simp⟩
      · rw [(h2 q).2 hs] at hq; exact Or.inl ⟨q, hq⟩
    · by_cases hs : sameUpToCase p q
      · rw [(h3 q).1 hs] at hq
        exact Or.inr ⟨p, by rw [h1]; exact List.mem_cons_of_mem _ hq⟩
      · rw [(h3 q).2 hs] at hq; exact Or.inr ⟨q, hq⟩
  | undeleteMissing _ => exact Or.inl hR
  | @rename st1 _ o n _ res1 T mid hd hsome hmid hfin htr =>
    left
    refine held_delete hd ?_
    rcases hR with ⟨q, hq⟩ | ⟨q, hq⟩
    · by_cases hs : sameUpToCase (renamed T.dataType o n) q
      · rw [(hfin q).1 hs] at hq
        exact Or.inl ⟨join o, by rw [← Option.some.inj hq]; exact hsome⟩
      · rw [(hfin q).2 hs] at hq
        by_cases ho : sameUpToCase (join o) q
        · rw [(hmid q).1 ho] at hq; cases hq
        · rw [(hmid q).2 ho] at hq; exact Or.inl ⟨q, hq⟩
    · exact Or.inr ⟨q, held_drop htr hq⟩
  | renameMissing hd _ => exact Or.inl (held_delete hd hR)

theorem times_from {s s' : Eng} {old new : Bytes} {r : RenEnv} {res : Res} (hr : renameFrom c s old new r = some (s', res)) (now : Nat) (t : FileTimes) :
    ∃ t', renameTimesFrom c s old new r now t = some t' ∧ ((t' = t ∧ s' = s ∧ res = .notFound) ∨ t' = ⟨now, now⟩) := by
  have hr0 := hr
  unfold renameFrom at hr
  rw [Option.bind_eq_some_iff] at hr
  obtain ⟨k, hk, hr⟩ := hr
  unfold renameTimesFrom
  rw [hk, Option.bind_some]
  by_cases hf : k.found = false
  · rw [if_pos hf] at hr ⊢
    simp only [Option.some.injEq, Prod.mk.injEq] at hr
    exact ⟨t, rfl, Or.inl ⟨rfl, hr.1.symm, hr.2.symm⟩⟩
  · rw [if_neg hf, hr0, Option.map_some]
    exact ⟨_, rfl, Or.inr rfl⟩

theorem times_step (hc : c.OK) {G G' : Ghost} {s s' : Eng} {past : List Op} (H : HInv c G s past) {op : Op} (ha : Allowed c past s op) {res : Res}
    (hr : run c s op = some (s', res)) (S : Stepped c op G s res G' s') (now : Nat → Nat) (t : FileTimes) :
    ∃ t', timesAfter c s t (op, now) = some t' ∧ TimesStep (abs c G s.disk) (abs c G' s'.disk) (op, now) t t' := by
  have hst := S.step
  have hf : ∀ t' : FileTimes, (∀ r, op = .write r → t' = ⟨r.now, r.now⟩) → ∀ R, Held (abs c G' s'.disk) R →
      Held (abs c G s.disk) R ∨ ∃ r, op = .write r ∧ R.lastWrite = r.now ∧ t'.last = r.now := by
    intro t' ht R hR
    rcases held_step hst hR with h | ⟨r, v, rfl, rfl⟩
    · exact Or.inl h
    · exact Or.inr ⟨r, rfl, rfl, by rw [ht r rfl]⟩
  cases op with
  | write r =>
    have hz : zwrite c s r = some (s', res) := hr
    refine ⟨⟨r.now, r.now⟩, by simp only [timesAfter, timesWrite, hz, Option.map_some], Or.inr ⟨by simp [readings], Or.inr rfl⟩, hf _ ?_, ?_⟩
    · intro r' h; cases h; rfl
    · intro r' h; cases h; rfl
  | delete p =>
    have hz : zdeleteInternal c s p false = some (s', res) := hr
    exact ⟨⟨now 0, t.mine⟩, by simp only [timesAfter, timesDelete, hz, Option.map_some], Or.inr ⟨by simp [readings], Or.inl rfl⟩,
      hf _ (by intro r h; cases h), by intro r h; cases h⟩
  | undelete p =>
    have hz : zdeleteInternal c s p true = some (s', res) := hr
    exact ⟨⟨now 0, t.mine⟩, by simp only [timesAfter, timesDelete, hz, Option.map_some], Or.inr ⟨by simp [readings], Or.inl rfl⟩,
      hf _ (by intro r h; cases h), by intro r h; cases h⟩
  | rename o n v =>
    obtain ⟨ho, hn, hlo, hln, hne, hg⟩ := ha
    have hz : zrename c s (join o) (join n) v = some (s', res) := hr
    have hcase := not_case_only (fun h : Same (join o) (join n) => hne (same_iff.mpr h))
    unfold zrename at hz
    rw [if_neg hcase] at hz
    unfold zrenameTo at hz
    show ∃ t', timesRename c s (join o) (join n) v now t = some t' ∧ _
    unfold timesRename
    rw [if_neg hcase]
    unfold renameTimesTo
    obtain ⟨k, hk, hkf⟩ := zcheck_found hc H.inv hln
    rw [hk, Option.bind_some] at hz ⊢
    by_cases hfd : k.found = true
    · rw [if_pos hfd] at hz ⊢
      rw [Option.bind_eq_some_iff] at hz
      obtain ⟨⟨s1, res1⟩, hd, hz⟩ := hz
      simp only [timesDelete, hd, Option.map_some, Option.bind_some] at hz ⊢
      by_cases hok : res1 = .ok
      · rw [if_pos hok] at hz ⊢
        obtain ⟨t', h1, h2⟩ := times_from hz (now 1) ⟨now 0, t.mine⟩
        refine ⟨t', h1, Or.inr ?_, hf _ (by intro r h; cases h), by intro r h; cases h⟩
        rcases h2 with ⟨rfl, _⟩ | rfl
        · exact ⟨by simp [readings], Or.inl rfl⟩
        · exact ⟨by simp [readings], Or.inr rfl⟩
      · rw [if_neg hok] at hz; cases hz
    · rw [if_neg hfd] at hz ⊢
      obtain ⟨t', h1, h2⟩ := times_from hz (now 1) t
      refine ⟨t', h1, ?_, hf _ (by intro r h; cases h), by intro r h; cases h⟩
      rcases h2 with ⟨rfl, _, rfl⟩ | rfl
      · left
        refine ⟨rfl, ?_⟩
        have hnone : (abs c G s.disk).live (join n) = none := by
          rw [hkf] at hfd
          cases h : (abs c G s.disk).live (join n) with
          | none => rfl
          | some R => rw [h] at hfd; exact absurd rfl hfd
        generalize abs c G' s'.disk = S' at hst ⊢
        generalize abs c G s.disk = S0 at hst hnone ⊢
        cases hst with
        | renameMissing hd _ =>
          cases hd with
          | delete h _ _ => rw [hnone] at h; cases h
          | deleteMissing _ => rfl
      · exact Or.inr ⟨by simp [readings], Or.inr rfl⟩

/-- The file's time is not before that of any record. -/
structure TimesInv (S : Store) (t : FileTimes) : Prop where
  held : ∀ R, Held S R → R.lastWrite ≤ t.last
  mine : t.mine ≤ t.last

theorem TimesInv.step {S S' : Store} {x : Timed} {t t' : FileTimes} (V : TimesInv S t) (h : TimesStep S S' x t t')
    (hx : ∀ y ∈ readings x, t.last ≤ y) : TimesInv S' t' ∧ t.last ≤ t'.last := by
  have hle : t.last ≤ t'.last := by
    rcases h.moved with ⟨rfl, _⟩ | ⟨h1, _⟩
    · omega
    · exact hx _ h1
  refine ⟨⟨fun R hR => ?_, ?_⟩, hle⟩
  · rcases h.from_ R hR with hR | ⟨r, _, h1, h2⟩
    · have := V.held R hR; omega
    · omega
  · have := V.mine
    rcases h.moved with ⟨rfl, _⟩ | ⟨_, h1⟩
    · exact this
    · omega

/-- The times after a history. -/
structure TimesRun (S S' : Store) (calls : List Timed) (t t' : FileTimes) : Prop where
  inv : TimesInv S' t'
  up : t.last ≤ t'.last
  mem : t'.last = t.last ∨ t'.last ∈ calls.flatMap readings
  mine : t'.mine = t.mine ∨ t'.mine ∈ calls.flatMap readings
  mineUp : t.mine ≤ t'.mine
  writes : ∀ x ∈ calls, ∀ r, x.1 = .write r → r.now ≤ t'.mine
  own : (∀ x ∈ calls, ∃ r, x.1 = .write r) → t.mine = t.last → t'.mine = t'.last

theorem times_runs (hc : c.OK) (calls : List Timed) : ∀ {G : Ghost} {s s' : Eng} {past : List Op} {t : FileTimes} {ress : List Res}, HInv c G s past →
    TimesInv (abs c G s.disk) t → Rising t.last calls → AllAllowed c past s (calls.map (·.1)) → runs c s (calls.map (·.1)) = some (s', ress) →
    ∃ G' t', timesRuns c s t calls = some t' ∧ HInv c G' s' (past ++ calls.map (·.1)) ∧ TimesRun (abs c G s.disk) (abs c G' s'.disk) calls t t' := by
  induction calls with
  | nil =>
    intro G s s' past t ress H V hx _ hr
    simp only [List.map_nil, runs, Option.some.injEq, Prod.mk.injEq] at hr
    obtain ⟨rfl, _⟩ := hr
    exact ⟨G, t, rfl, by simpa using H, V, Nat.le_refl _, Or.inl rfl, Or.inl rfl, Nat.le_refl _, by simp, fun _ h => h⟩
  | cons x calls ih =>
    intro G s s' past t ress H V hx ha hr
    obtain ⟨op, now⟩ := x
    simp only [List.map_cons] at ha hr
    obtain ⟨G1, s1, res, hr1, S, H1⟩ := H.step hc ha.1
    obtain ⟨t1, ht1, hstep⟩ := times_step hc H ha.1 hr1 S now t
    simp only [runs, hr1, Option.bind_some, Option.map_eq_some_iff] at hr
    obtain ⟨⟨s2, r2⟩, hr2, he⟩ := hr
    simp only [Prod.mk.injEq] at he
    obtain ⟨rfl, _⟩ := he
    unfold Rising at hx
    rw [List.flatMap_cons, List.pairwise_cons, List.pairwise_append] at hx
    obtain ⟨hx1, hx2, hx3, hx4⟩ := hx
    obtain ⟨V1, hle⟩ := V.step hstep (fun y hy => hx1 y (List.mem_append_left _ hy))
    have hrise : Rising t1.last calls := by
      unfold Rising
      rw [List.pairwise_cons]
      refine ⟨fun y hy => ?_, hx3⟩
      rcases hstep.moved with ⟨rfl, _⟩ | ⟨h1, _⟩
      · exact hx1 y (List.mem_append_right _ hy)
      · exact hx4 _ h1 y hy
    obtain ⟨G', t', k1, k2, K⟩ := ih H1 V1 hrise (ha.2 s1 res hr1) hr2
    refine ⟨G', t', ?_, by simpa using k2, K.inv, Nat.le_trans hle K.up, ?_, ?_, ?_, ?_, ?_⟩
    · simp only [timesRuns, ht1, hr1, Option.bind_some]
      exact k1
    · rw [List.flatMap_cons]
      rcases K.mem with h | h
      · rcases hstep.moved with ⟨rfl, _⟩ | ⟨h1, _⟩
        · exact Or.inl h
        · exact Or.inr (List.mem_append_left _ (by rw [h]; exact h1))
      · exact Or.inr (List.mem_append_right _ h)
    · rw [List.flatMap_cons]
      rcases K.mine with h | h
      · rcases hstep.moved with ⟨rfl, _⟩ | ⟨h1, h2 | h2⟩
        · exact Or.inl h
        · exact Or.inl (by rw [h, h2])
        · exact Or.inr (List.mem_append_left _ (by rw [h, h2]; exact h1))
      · exact Or.inr (List.mem_append_right _ h)
    · have h1 := K.mineUp
      have h2 := V.mine
      rcases hstep.moved with ⟨rfl, _⟩ | ⟨_, h3 | h3⟩
      · exact h1
      · omega
      · omega
    · intro y hy r hyr
      rcases List.mem_cons.mp hy with rfl | hy
      · have := hstep.written r hyr
        have := K.mineUp
        subst t1
        exact this
      · exact K.writes y hy r hyr
    · intro hw hm
      refine K.own (fun y hy => hw y (List.mem_cons_of_mem _ hy)) ?_
      obtain ⟨r, hr⟩ := hw (op, now) (by simp)
      rw [hstep.written r hr]

/-- If the time did not move, nothing changed. -/
theorem times_still (hc : c.OK) (calls : List Timed) : ∀ {G : Ghost} {s s' : Eng} {past : List Op} {t t' : FileTimes} {T : Nat} {ress : List Res}, HInv c G s past →
    T ≤ t.last → Rising t.last calls → (∀ x ∈ calls.flatMap readings, T < x) → AllAllowed c past s (calls.map (·.1)) → runs c s (calls.map (·.1)) = some (s', ress) →
    timesRuns c s t calls = some t' →
    ∃ G', HInv c G' s' (past ++ calls.map (·.1)) ∧ t.last ≤ t'.last ∧ (t'.last = T → abs c G' s'.disk = abs c G s.disk) := by
  induction calls with
  | nil =>
    intro G s s' past t t' T ress H _ _ _ _ hr ht
    simp only [List.map_nil, runs, Option.some.injEq, Prod.mk.injEq] at hr
    obtain ⟨rfl, _⟩ := hr
    have := Option.some.inj ht
    subst this
    exact ⟨G, by simpa using H, Nat.le_refl _, fun _ => rfl⟩
  | cons x calls ih =>
    intro G s s' past t t' T ress H hT hx hlt ha hr ht
    obtain ⟨op, now⟩ := x
    simp only [List.map_cons] at ha hr
    obtain ⟨G1, s1, res, hr1, S, H1⟩ := H.step hc ha.1
    obtain ⟨t1, ht1, hstep⟩ := times_step hc H ha.1 hr1 S now t
    simp only [runs, hr1, Option.bind_some, Option.map_eq_some_iff] at hr
    obtain ⟨⟨s2, r2⟩, hr2, he⟩ := hr
    simp only [Prod.mk.injEq] at he
    obtain ⟨rfl, _⟩ := he
    simp only [timesRuns, ht1, hr1, Option.bind_some] at ht
    unfold Rising at hx
    rw [List.flatMap_cons, List.pairwise_cons, List.pairwise_append] at hx
    obtain ⟨hx1, hx2, hx3, hx4⟩ := hx
    rw [List.flatMap_cons] at hlt
    have hrise : Rising t1.last calls := by
      unfold Rising
      rw [List.pairwise_cons]
      refine ⟨fun y hy => ?_, hx3⟩
      rcases hstep.moved with ⟨rfl, _⟩ | ⟨h1, _⟩
      · exact hx1 y (List.mem_append_right _ hy)
      · exact hx4 _ h1 y hy
    have hle : t.last ≤ t1.last := by
      rcases hstep.moved with ⟨rfl, _⟩ | ⟨h1, _⟩
      · omega
      · exact hx1 _ (List.mem_append_left _ h1)
    obtain ⟨G', k1, k2, k3⟩ := ih H1 (by omega : T ≤ t1.last) hrise (fun y hy => hlt y (List.mem_append_right _ hy)) (ha.2 s1 res hr1) hr2 ht
    refine ⟨G', by simpa using k1, by omega, fun h => ?_⟩
    rcases hstep.moved with ⟨_, h1⟩ | ⟨h1, _⟩
    · rw [k3 h, h1]
    · have := hlt _ (List.mem_append_left _ h1)
      omega

theorem empty_times (t0 : Nat) : TimesInv Store.empty (newTimes t0) :=
  ⟨fun R h => (by rcases h with ⟨p, h⟩ | ⟨p, h⟩; exact absurd h (by simp [Store.empty]); exact absurd h (by simp [Store.empty])), Nat.le_refl _⟩

end Hec
