import Verif.Model.AliasChain
/-!
C107: after any history of adding and removing aliases of a record, its aliases are those that were added and not removed since, the last one first, and
each of them leads to the record.
-/
namespace Spec
open Hec

/-- The aliases there should be. -/
def aliasesAfter : List Nat → List AliasOp → List Nat
  | l, [] => l
  | l, .add a :: ops => aliasesAfter (a :: l) ops
  | l, .remove a :: ops => aliasesAfter (l.filter (· ≠ a)) ops

/-- A new entry has an address (not 0, not that of the information block) at which there is no alias of the record; what is removed is an alias of it. -/
def AliasOpsOk (info : Nat) : List Nat → List AliasOp → Prop
  | _, [] => True
  | l, .add a :: ops => a ≠ 0 ∧ a ≠ info ∧ a ∉ l ∧ AliasOpsOk info (a :: l) ops
  | l, .remove a :: ops => a ∈ l ∧ AliasOpsOk info (l.filter (· ≠ a)) ops

end Spec

namespace Hec
open _root_.Spec (aliasesAfter AliasOpsOk)

/-- From `p` through the entries to the information block. -/
def AliasLeads (next : Nat → Nat) (info : Nat) : Nat → List Nat → Prop
  | p, [] => p = info
  | p, x :: xs => p = x ∧ AliasLeads next info (next x) xs

structure AliasLinked (info : Nat) (s : AliasChain) (l : List Nat) : Prop where
  nodup : l.Nodup
  info_out : info ∉ l
  zero_out : 0 ∉ l
  live : ∀ x ∈ l, s.status x = 2
  only : ∀ x, s.status x = 2 → x ∈ l
  empty : l = [] → s.head = 0
  path : l ≠ [] → AliasLeads s.next info s.head l
  counted : s.count = l.length

theorem AliasLeads.congr {n m : Nat → Nat} {info : Nat} {l : List Nat} (h : ∀ x ∈ l, n x = m x) {p : Nat} (hp : AliasLeads n info p l) : AliasLeads m info p l := by
  induction l generalizing p with
  | nil => exact hp
  | cons x xs ih =>
    refine ⟨hp.1, ?_⟩
    rw [← h x (by simp)]
    exact ih (fun y hy => h y (by simp [hy])) hp.2

theorem AliasLinked.head_ne {info : Nat} {s : AliasChain} {l : List Nat} (h : AliasLinked info s l) (hl : l ≠ []) : s.head ≠ 0 ∧ s.head ∈ l := by
  cases l with
  | nil => exact absurd rfl hl
  | cons x xs =>
    have := (h.path hl).1
    rw [this]
    exact ⟨fun e => h.zero_out (by simp [e]), by simp⟩

theorem alias_link_ok {info a : Nat} {s : AliasChain} {l : List Nat} (h : AliasLinked info s l) (h0 : a ≠ 0) (hi : a ≠ info) (ha : a ∉ l) :
    AliasLinked info (aliasLink info s a) (a :: l) where
  nodup := List.nodup_cons.2 ⟨ha, h.nodup⟩
  info_out := by simp only [List.mem_cons, not_or]; exact ⟨fun e => hi e.symm, h.info_out⟩
  zero_out := by simp only [List.mem_cons, not_or]; exact ⟨fun e => h0 e.symm, h.zero_out⟩
  live := by
    intro x hx
    simp only [aliasLink]
    split
    · rfl
    · rename_i hne
      rcases List.mem_cons.1 hx with e | e
      · exact absurd e hne
      · exact h.live x e
  only := by
    intro x hx
    simp only [aliasLink] at hx
    by_cases e : x = a
    · simp [e]
    · rw [if_neg e] at hx
      exact List.mem_cons_of_mem _ (h.only x hx)
  empty := by simp
  path := by
    intro _
    refine ⟨rfl, ?_⟩
    simp only [aliasLink, if_true]
    have hc : ∀ x ∈ l, s.next x = (fun x => if x = a then (if s.head = 0 then info else s.head) else s.next x) x := by
      intro x hx
      have hne : x ≠ a := fun e => ha (e ▸ hx)
      simp only []
      rw [if_neg hne]
    by_cases hl : l = []
    · subst hl
      rw [if_pos (h.empty rfl)]
      rfl
    · simp only [if_neg (h.head_ne hl).1] at hc ⊢
      exact AliasLeads.congr hc (h.path hl)
  counted := by simp only [aliasLink, List.length_cons, h.counted]; omega

/-- Cutting an entry that is not the first out of the chain. -/
theorem alias_cut_ok (info a : Nat) (s : AliasChain) : ∀ (l : List Nat) (fuel last : Nat), AliasLeads s.next info (s.next last) l → last ∉ l → l.Nodup →
    info ∉ l → (∀ x ∈ l, s.status x = 2) → a ∈ l → a ≠ last → l.length ≤ fuel →
    ∃ n, aliasCut info s a fuel (s.next last) last = some { s with status := fun x => if x = a then 13 else s.status x, next := n } ∧
      AliasLeads n info (n last) (l.filter (· ≠ a)) ∧ ∀ x, x ∉ last :: l → n x = s.next x := by
  intro l
  induction l with
  | nil => intro fuel last _ _ _ _ _ ha; simp at ha
  | cons x xs ih =>
    intro fuel last hp hl hn hi hs ha hal hf
    obtain ⟨e, hp⟩ := hp
    cases fuel with
    | zero => simp at hf
    | succ fuel =>
      have hx : x ≠ info := fun e => hi (by simp [e])
      have hxs := List.nodup_cons.1 hn
      unfold aliasCut
      rw [e, if_neg hx, if_neg (by rw [hs x (by simp)]; decide)]
      by_cases hxa : x = a
      · subst hxa
        refine ⟨_, by rw [if_pos rfl], ?_, ?_⟩
        · show AliasLeads _ info (if last = last then s.next x else s.next last) _
          rw [if_pos rfl]
          have hf : (x :: xs).filter (· ≠ x) = xs := by
            rw [List.filter_cons_of_neg (by simp)]
            exact List.filter_eq_self.2 (fun y hy => by simp; intro e; exact hxs.1 (e ▸ hy))
          rw [hf]
          refine AliasLeads.congr ?_ hp
          intro y hy
          rw [if_neg (fun e => hl (by simp [← e, hy]))]
        · intro y hy
          simp only [List.mem_cons, not_or] at hy
          show (if y = last then s.next x else s.next y) = s.next y
          rw [if_neg hy.1]
      · rw [if_neg hxa]
        have ha' : a ∈ xs := by
          rcases List.mem_cons.1 ha with e | e
          · exact absurd e.symm hxa
          · exact e
        obtain ⟨n, h1, h2, h3⟩ := ih fuel x hp hxs.1 hxs.2 (fun h => hi (by simp [h])) (fun y hy => hs y (by simp [hy])) ha' (fun e => hxa e.symm)
          (by simp at hf; omega)
        refine ⟨n, h1, ?_, ?_⟩
        · rw [List.filter_cons_of_pos (by simpa using hxa)]
          have hlast : n last = s.next last := h3 last (fun hm => hl hm)
          rw [hlast, e]
          exact ⟨rfl, h2⟩
        · intro y hy
          exact h3 y (fun hm => hy (by simp at hm ⊢; exact Or.inr hm))

theorem alias_filter_length {a : Nat} : ∀ {l : List Nat}, l.Nodup → a ∈ l → (l.filter (· ≠ a)).length + 1 = l.length := by
  intro l
  induction l with
  | nil => intro _ h; simp at h
  | cons x xs ih =>
    intro hn ha
    have hxs := List.nodup_cons.1 hn
    by_cases hxa : x = a
    · subst hxa
      rw [List.filter_cons_of_neg (by simp), List.filter_eq_self.2 (fun y hy => by simp; intro e; exact hxs.1 (e ▸ hy))]
      rfl
    · rw [List.filter_cons_of_pos (by simpa using hxa), List.length_cons, List.length_cons, ih hxs.2]
      rcases List.mem_cons.1 ha with e | e
      · exact absurd e.symm hxa
      · exact e

theorem alias_unlink_ok {info a fuel : Nat} {s : AliasChain} {l : List Nat} (h : AliasLinked info s l) (ha : a ∈ l) (hf : l.length ≤ fuel) :
    ∃ t, aliasUnlink info s a fuel = some t ∧ AliasLinked info t (l.filter (· ≠ a)) := by
  have hl : l ≠ [] := by intro e; subst e; simp at ha
  have hlen := alias_filter_length h.nodup ha
  have hcount : ((l.filter (· ≠ a)).length : Int) = s.count - 1 := by rw [h.counted]; omega
  -- what does not depend on the three cases
  have mk : ∀ t : AliasChain, t.status = (fun x => if x = a then 13 else s.status x) → t.count = s.count - 1 →
      (l.filter (· ≠ a) = [] → t.head = 0) → (l.filter (· ≠ a) ≠ [] → AliasLeads t.next info t.head (l.filter (· ≠ a))) →
      AliasLinked info t (l.filter (· ≠ a)) := by
    intro t hst hc h1 h2
    refine ⟨h.nodup.filter _, fun hm => h.info_out (List.mem_filter.1 hm).1, fun hm => h.zero_out (List.mem_filter.1 hm).1, ?_, ?_, h1, h2, by rw [hc, hcount]⟩
    rotate_left
    · intro x hx
      rw [hst] at hx
      by_cases e : x = a
      · simp [e] at hx
      · simp only [if_neg e] at hx
        exact List.mem_filter.2 ⟨h.only x hx, by simpa using e⟩
    intro x hx
    obtain ⟨hx1, hx2⟩ := List.mem_filter.1 hx
    rw [hst]
    simp only []
    rw [if_neg (by simpa using hx2)]
    exact h.live x hx1
  unfold aliasUnlink
  rw [if_neg (by rw [h.live a ha]; decide), if_neg (h.head_ne hl).1]
  cases l with
  | nil => exact absurd rfl hl
  | cons x xs =>
    obtain ⟨e, hp⟩ := h.path hl
    have hxs := List.nodup_cons.1 h.nodup
    by_cases hxa : x = a
    · subst hxa
      have hfil : (x :: xs).filter (· ≠ x) = xs := by
        rw [List.filter_cons_of_neg (by simp)]
        exact List.filter_eq_self.2 (fun y hy => by simp; intro e; exact hxs.1 (e ▸ hy))
      rw [hfil] at mk ⊢
      cases xs with
      | nil =>
        have hp' : s.next x = info := hp
        refine ⟨_, by simp only []; rw [if_pos ⟨e, hp'⟩]; rfl, mk _ rfl rfl (fun _ => rfl) (fun hc => absurd rfl hc)⟩
      | cons y ys =>
        have hy : s.next x ≠ info := by
          rw [hp.1]; intro e2; exact h.info_out (by simp [← e2])
        refine ⟨_, by simp only []; rw [if_neg (fun hc => hy hc.2), if_pos e]; rfl, mk _ rfl rfl (fun hc => by simp at hc) (fun _ => hp)⟩
    · have ha' : a ∈ xs := by
        rcases List.mem_cons.1 ha with e | e
        · exact absurd e.symm hxa
        · exact e
      have hne : s.head ≠ a := by rw [e]; exact hxa
      have hfil : (x :: xs).filter (· ≠ a) = x :: xs.filter (· ≠ a) := List.filter_cons_of_pos (by simpa using hxa)
      cases fuel with
      | zero => simp at hf
      | succ fuel =>
        have hstep : aliasCut info s a (fuel + 1) s.head s.head = aliasCut info s a fuel (s.next x) x := by
          conv => lhs; unfold aliasCut
          rw [e, if_neg (fun e => h.info_out (by simp [e])), if_neg (by rw [h.live x (by simp)]; decide), if_neg hxa]
        obtain ⟨n, h1, h2, _⟩ := alias_cut_ok info a s xs fuel x hp hxs.1 hxs.2 (fun hm => h.info_out (by simp [hm])) (fun y hy => h.live y (by simp [hy])) ha'
          (fun e => hxa e.symm) (by simp at hf; omega)
        rw [hfil] at mk ⊢
        refine ⟨_, by simp only []; rw [if_neg (fun hc => hne hc.1), if_neg hne, hstep, h1]; rfl, mk _ rfl rfl (fun hc => by simp at hc) ?_⟩
        intro _
        exact ⟨e, h2⟩

theorem alias_run_ok (info fuel : Nat) : ∀ (ops : List AliasOp) (s : AliasChain) (l : List Nat), AliasLinked info s l → AliasOpsOk info l ops →
    l.length + ops.length ≤ fuel → ∃ t, aliasRun info fuel s ops = some t ∧ AliasLinked info t (aliasesAfter l ops) ∧
      (aliasesAfter l ops).length ≤ l.length + ops.length := by
  intro ops
  induction ops with
  | nil => intro s l h _ _; exact ⟨s, rfl, h, by simp [aliasesAfter]⟩
  | cons op ops ih =>
    intro s l h hok hf
    cases op with
    | add a =>
      obtain ⟨h0, hi, ha, hok⟩ := hok
      obtain ⟨t, h1, h2, h3⟩ := ih _ _ (alias_link_ok h h0 hi ha) hok (by simp at hf ⊢; omega)
      exact ⟨t, h1, h2, by simp only [aliasesAfter, List.length_cons] at *; omega⟩
    | remove a =>
      obtain ⟨ha, hok⟩ := hok
      obtain ⟨u, hu, hlu⟩ := alias_unlink_ok (fuel := fuel) h ha (by omega)
      have hle : (l.filter (· ≠ a)).length ≤ l.length := List.length_filter_le _ _
      obtain ⟨t, h1, h2, h3⟩ := ih _ _ hlu hok (by simp only [List.length_cons] at hf; omega)
      refine ⟨t, by unfold aliasRun; rw [hu]; exact h1, h2, ?_⟩
      simp only [aliasesAfter, List.length_cons]
      omega

theorem alias_passed_ok (info : Nat) (s : AliasChain) : ∀ (l : List Nat) (fuel p : Nat), AliasLeads s.next info p l → info ∉ l → (∀ x ∈ l, s.status x = 2) →
    l.length < fuel → aliasPassed info s fuel p = some l ∧ aliasPrimary info s fuel p = some info := by
  intro l
  induction l with
  | nil =>
    intro fuel p hp _ _ hf
    cases fuel with
    | zero => simp at hf
    | succ fuel =>
      have : p = info := hp
      unfold aliasPassed aliasPrimary
      rw [if_pos this, if_pos this, this]
      exact ⟨rfl, rfl⟩
  | cons x xs ih =>
    intro fuel p hp hi hs hf
    obtain ⟨e, hp⟩ := hp
    cases fuel with
    | zero => simp at hf
    | succ fuel =>
      have hx : p ≠ info := fun e2 => hi (by simp [← e2, e])
      have hst : ¬ s.status p ≠ 2 := by rw [e, hs x (by simp)]; decide
      obtain ⟨h1, h2⟩ := ih fuel (s.next x) hp (fun hm => hi (by simp [hm])) (fun y hy => hs y (by simp [hy])) (by simp at hf; omega)
      unfold aliasPassed aliasPrimary
      rw [if_neg hx, if_neg hst, if_neg hx, if_neg hst, e, h2]
      refine ⟨?_, rfl⟩
      by_cases hn : s.next x = info
      · rw [if_pos hn]
        cases xs with
        | nil => rfl
        | cons y ys => exact absurd (hn.symm.trans hp.1) (fun e2 => hi (by simp [e2]))
      · rw [if_neg hn, h1]
        rfl

theorem alias_leads_from (next : Nat → Nat) (info : Nat) : ∀ (l : List Nat) (p a : Nat), AliasLeads next info p l → a ∈ l →
    ∃ m, AliasLeads next info a m ∧ m.length ≤ l.length ∧ ∀ x ∈ m, x ∈ l := by
  intro l
  induction l with
  | nil => intro p a _ ha; simp at ha
  | cons x xs ih =>
    intro p a hp ha
    rcases List.mem_cons.1 ha with e | e
    · exact ⟨x :: xs, ⟨e, hp.2⟩, Nat.le_refl _, fun _ h => h⟩
    · obtain ⟨m, h1, h2, h3⟩ := ih (next x) a hp.2 e
      exact ⟨m, h1, by simp; omega, fun y hy => by simp [h3 y hy]⟩

theorem alias_none_linked (info : Nat) : AliasLinked info noAliases [] :=
  ⟨List.nodup_nil, by simp, by simp, by simp, fun x h => by simp [noAliases] at h, fun _ => rfl, fun h => absurd rfl h, rfl⟩

/-- **C107**: after any history, without an error, zaliasNumber and zaliasList find the aliases that were added and not removed since, the last first;
knumberAliases is their number; zaliasGetPrimary leads from each of them to the record; the entries marked as aliases are theirs.  (`fuel` bounds the steps of the loops: any number above the number
of operations will do, so the loops end.) -/
theorem C107_history_partial (info : Nat) (ops : List AliasOp) (hok : AliasOpsOk info [] ops) (fuel : Nat) (hf : ops.length < fuel) :
    ∃ t, aliasRun info fuel noAliases ops = some t ∧ aliasesOf info t fuel = some (aliasesAfter [] ops) ∧
      t.count = (aliasesAfter [] ops).length ∧ (∀ a, t.status a = 2 ↔ a ∈ aliasesAfter [] ops) ∧
      ∀ a ∈ aliasesAfter [] ops, aliasPrimary info t fuel a = some info := by
  obtain ⟨t, h1, h2, h3⟩ := alias_run_ok info fuel ops noAliases [] (alias_none_linked info) hok (by simp; omega)
  simp only [List.length_nil, Nat.zero_add] at h3
  refine ⟨t, h1, ?_, h2.counted, fun a => ⟨h2.only a, h2.live a⟩, ?_⟩
  · unfold aliasesOf
    by_cases hl : aliasesAfter [] ops = []
    · rw [if_neg (by rw [h2.empty hl]; simp), hl]
    · rw [if_pos (h2.head_ne hl).1]
      exact (alias_passed_ok info t _ fuel _ (h2.path hl) h2.info_out h2.live (by omega)).1
  · intro a ha
    have hl : aliasesAfter [] ops ≠ [] := fun e => by rw [e] at ha; simp at ha
    obtain ⟨m, hm1, hm2, hm3⟩ := alias_leads_from t.next info _ _ a (h2.path hl) ha
    exact (alias_passed_ok info t m fuel a hm1 (fun hm => h2.info_out (hm3 _ hm)) (fun x hx => h2.live x (hm3 x hx)) (by omega)).2

example : AliasOpsOk 7 [] [.add 100, .add 200, .add 300, .remove 200, .add 400, .remove 100] := by
  simp [AliasOpsOk]

example : aliasesAfter [] [.add 100, .add 200, .add 300, .remove 200, .add 400, .remove 100] = [400, 300] := by decide

end Hec
