import Verif.Spec.OldNames
namespace Hec
open _root_.Spec (OldMinute IsOldName minuteName)

theorem bounds_five : ∀ (p : Bytes) (i st : Nat), (ePartBounds p i 5 st = none ∧ p.count 47 = 0) ∨
    ∃ e rest, p = e ++ 47 :: rest ∧ 47 ∉ e ∧ ePartBounds p i 5 st = some (st, i + e.length)
  | [], _, _ => Or.inl ⟨rfl, rfl⟩
  | b :: bs, i, st => by
    by_cases h : b = 47
    · subst h
      exact Or.inr ⟨[], bs, rfl, by simp, by simp [ePartBounds]⟩
    · rcases bounds_five bs (i + 1) st with ⟨h1, h2⟩ | ⟨e, rest, h1, h2, h3⟩
      · refine Or.inl ⟨by simp [ePartBounds, h, h1], ?_⟩
        rw [List.count_cons_of_ne h, h2]
      · refine Or.inr ⟨b :: e, rest, by rw [h1]; rfl, ?_, ?_⟩
        · intro hm
          rcases List.mem_cons.1 hm with hm | hm
          · exact h hm.symm
          · exact h2 hm
        · simp only [ePartBounds, if_neg h, h3, List.length_cons]
          congr 2; omega

theorem bounds_four : ∀ (p : Bytes) (i n st : Nat), n ≤ 4 → (ePartBounds p i n st = none ∧ p.count 47 + n < 6) ∨
    ∃ front e rest, p = front ++ 47 :: (e ++ 47 :: rest) ∧ front.count 47 + n = 4 ∧ 47 ∉ e ∧
      ePartBounds p i n st = some (i + front.length, i + front.length + 1 + e.length)
  | [], _, _, _, hn => Or.inl ⟨rfl, by simp; omega⟩
  | b :: bs, i, n, st, hn => by
    by_cases h : b = 47
    · subst h
      by_cases h4 : n = 4
      · subst h4
        rcases bounds_five bs (i + 1) i with ⟨h1, h2⟩ | ⟨e, rest, h1, h2, h3⟩
        · refine Or.inl ⟨by simp [ePartBounds, h1], by rw [List.count_cons_self, h2]; omega⟩
        · refine Or.inr ⟨[], e, rest, by rw [h1]; rfl, by simp, h2, ?_⟩
          simp [ePartBounds, h3]
      · rcases bounds_four bs (i + 1) (n + 1) st (by omega) with ⟨h1, h2⟩ | ⟨f, e, rest, h1, h2, h3, h5⟩
        · refine Or.inl ⟨?_, by rw [List.count_cons_self]; omega⟩
          simp only [ePartBounds, if_true]
          rw [if_neg (by omega), if_neg (by omega), h1]
        · refine Or.inr ⟨47 :: f, e, rest, by rw [h1]; rfl, by rw [List.count_cons_self]; omega, h3, ?_⟩
          simp only [ePartBounds, if_true]
          rw [if_neg (by omega), if_neg (by omega), h5, List.length_cons]
          congr 2 <;> omega
    · rcases bounds_four bs (i + 1) n st hn with ⟨h1, h2⟩ | ⟨f, e, rest, h1, h2, h3, h5⟩
      · refine Or.inl ⟨by simp [ePartBounds, h, h1], by rw [List.count_cons_of_ne h]; omega⟩
      · refine Or.inr ⟨b :: f, e, rest, by rw [h1]; rfl, by rw [List.count_cons_of_ne h]; omega, h3, ?_⟩
        simp only [ePartBounds, if_neg h, h5, List.length_cons]
        congr 2 <;> omega

/-- The decomposition is unique. -/
theorem split_unique : ∀ {f f' e e' r r' : Bytes}, f ++ 47 :: (e ++ 47 :: r) = f' ++ 47 :: (e' ++ 47 :: r') → f.count 47 = f'.count 47 →
    47 ∉ e → 47 ∉ e' → f = f' ∧ e = e' ∧ r = r'
  | [], [], e, e', r, r', h, _, h1, h2 => by
    simp only [List.nil_append, List.cons.injEq, true_and] at h
    refine ⟨rfl, ?_⟩
    have aux : ∀ (e e' : Bytes), e ++ 47 :: r = e' ++ 47 :: r' → 47 ∉ e → 47 ∉ e' → e = e' ∧ r = r' := by
      intro e
      induction e with
      | nil =>
        intro e' h _ h2
        rcases e' with _ | ⟨x, e'⟩
        · simpa using h
        · simp only [List.nil_append, List.cons_append, List.cons.injEq] at h
          exact absurd (by rw [h.1]; simp) h2
      | cons x e ih =>
        intro e' h h1 h2
        rcases e' with _ | ⟨y, e'⟩
        · simp only [List.nil_append, List.cons_append, List.cons.injEq] at h
          exact absurd (by rw [h.1]; simp) h1
        · simp only [List.cons_append, List.cons.injEq] at h
          simp only [List.mem_cons, not_or] at h1 h2
          obtain ⟨a, b⟩ := ih e' h.2 h1.2 h2.2
          exact ⟨by rw [h.1, a], b⟩
    exact aux e e' h h1 h2
  | [], y :: f', e, e', r, r', h, hc, h1, h2 => by
    simp only [List.nil_append, List.cons_append, List.cons.injEq] at h
    rw [← h.1, List.count_cons_self] at hc
    simp at hc
  | x :: f, [], e, e', r, r', h, hc, h1, h2 => by
    simp only [List.nil_append, List.cons_append, List.cons.injEq] at h
    rw [h.1, List.count_cons_self] at hc
    simp at hc
  | x :: f, y :: f', e, e', r, r', h, hc, h1, h2 => by
    simp only [List.cons_append, List.cons.injEq] at h
    obtain ⟨hx, h⟩ := h
    subst hx
    have hc' : f.count 47 = f'.count 47 := by
      by_cases h47 : x = 47
      · subst h47; rw [List.count_cons_self, List.count_cons_self] at hc; omega
      · rw [List.count_cons_of_ne h47, List.count_cons_of_ne h47] at hc; exact hc
    obtain ⟨a, b, c⟩ := split_unique h hc' h1 h2
    exact ⟨by rw [a], b, c⟩

theorem getD_front {f t : Bytes} (k : Nat) : (f ++ t).getD (f.length + k) 0 = t.getD k 0 := by
  simp [List.getD_eq_getElem?_getD, List.getElem?_append_right]

/-- When and what the lookup tries a second time. -/
theorem compatible_iff (p q : Bytes) : ztsPathCompatible p = some q ↔ ∃ front e rest, IsOldName p front e rest ∧ q = minuteName front e rest := by
  rcases bounds_four p 0 0 0 (by omega) with ⟨h1, h2⟩ | ⟨f, e, rest, h1, h2, h3, h5⟩
  · constructor
    · intro h
      unfold ztsPathCompatible at h
      rw [h1] at h; cases h
    · rintro ⟨front, e, rest, ⟨h, hc, _⟩, _⟩
      rw [h, List.count_append, List.count_cons_self, List.count_append, List.count_cons_self] at h2
      omega
  · have huniq : (∃ front e rest, IsOldName p front e rest ∧ q = minuteName front e rest) ↔ (OldMinute e ∧ q = minuteName f e rest) := by
      constructor
      · rintro ⟨f', e', r', ⟨k1, k2, k3, k4⟩, hq⟩
        rw [h1] at k1
        obtain ⟨a, b, c⟩ := split_unique k1 (by omega) h3 k3
        subst a; subst b; subst c
        exact ⟨k4, hq⟩
      · rintro ⟨h, hq⟩
        exact ⟨f, e, rest, ⟨h1, by omega, h3, h⟩, hq⟩
    rw [huniq]
    simp only [Nat.zero_add] at h5
    unfold ztsPathCompatible
    rw [h5]
    simp only [Option.bind_some, show f.length + 1 + e.length - f.length - 1 = e.length by omega]
    have hat : ∀ k, p.getD (f.length + k) 0 = (47 :: (e ++ 47 :: rest)).getD k 0 := fun k => by rw [h1]; exact getD_front k
    rw [show f.length + 2 = f.length + (1 + 1) by omega, show f.length + 3 = f.length + (2 + 1) by omega, hat, hat]
    simp only [List.getD_cons_succ]
    by_cases hl4 : e.length < 4
    · rw [if_pos hl4]
      constructor
      · intro h; cases h
      · rintro ⟨⟨a, m, i, n, he, _, _, _, ha⟩, _⟩
        rcases ha with ha | ⟨x, y, rfl, _⟩
        · rw [he] at hl4; simp [ha] at hl4
        · rw [he] at hl4; simp at hl4
    · rw [if_neg hl4]
      by_cases hl5 : e.length > 5
      · have : ∀ o : Option Nat, (o.bind fun istart => if e.length > 5 then (none : Option Bytes) else
            if toupper (p.getD (istart + 1) 0) = 73 ∧ toupper (p.getD (istart + 2) 0) = 78 ∧ p.getD (istart + 3) 0 = 47 then
              some (p.take istart ++ MINUTE ++ p.drop (f.length + 1 + e.length)) else none) = none := by
          intro o; cases o with
          | none => rfl
          | some x => simp [hl5]
        rw [this]
        constructor
        · intro h; cases h
        · rintro ⟨⟨a, m, i, n, he, _, _, _, ha⟩, _⟩
          rcases ha with ha | ⟨x, y, rfl, _⟩
          · rw [he] at hl5; simp [ha] at hl5
          · rw [he] at hl5; simp at hl5
      · simp only [if_neg hl5]
        have hdrop : p.drop (f.length + 1 + e.length) = 47 :: rest := by
          rw [h1, show f ++ 47 :: (e ++ 47 :: rest) = (f ++ 47 :: e) ++ 47 :: rest by simp, List.drop_left' (by simp; omega)]
        rw [hdrop]
        have htake : ∀ k, k ≤ e.length → p.take (f.length + (1 + k)) = f ++ 47 :: e.take k := by
          intro k hk
          rw [h1, List.take_append, List.take_of_length_le (by omega), show f.length + (1 + k) - f.length = k + 1 by omega,
            List.take_succ_cons, List.take_append_of_le_length hk]
        have h4or : e.length = 4 ∨ e.length = 5 := by omega
        rcases h4or with hl | hl
        · match e, hl, h3 with
          | [e0, e1, e2, e3], _, h3 =>
            simp only [List.mem_cons, List.not_mem_nil, or_false, not_or] at h3
            simp only [List.cons_append, List.nil_append, List.getD_cons_succ, List.getD_cons_zero]
            by_cases hm : toupper e1 = 77
            · rw [if_pos hm, Option.bind_some]
              rw [show f.length + (1 + 1) + 1 = f.length + 3 by omega, show f.length + (1 + 1) + 2 = f.length + 4 by omega,
                show f.length + (1 + 1) + 3 = f.length + 5 by omega, hat, hat, hat, htake 1 (by simp)]
              simp only [List.cons_append, List.nil_append, List.getD_cons_succ, List.getD_cons_zero, List.take_succ_cons, List.take_zero]
              by_cases hin : toupper e2 = 73 ∧ toupper e3 = 78
              · rw [if_pos ⟨hin.1, hin.2, trivial⟩]
                constructor
                · intro h
                  injection h with h
                  refine ⟨⟨[e0], e1, e2, e3, rfl, hm, hin.1, hin.2, Or.inl rfl⟩, ?_⟩
                  rw [← h]; simp [minuteName, MINUTE]
                · rintro ⟨_, h⟩
                  rw [h]; simp [minuteName, MINUTE]
              · rw [if_neg (fun h => hin ⟨h.1, h.2.1⟩)]
                constructor
                · intro h; cases h
                · rintro ⟨⟨a, m, i, n, he, k1, k2, k3, ha⟩, _⟩
                  rcases ha with ha | ⟨x, y, rfl, _⟩
                  · match a, ha with
                    | [a0], _ =>
                      simp only [List.cons_append, List.nil_append, List.cons.injEq, and_true] at he
                      obtain ⟨_, _, r2, r3⟩ := he
                      exact absurd ⟨by rw [r2]; exact k2, by rw [r3]; exact k3⟩ hin
                  · simp at he
            · rw [if_neg hm]
              have hno : ¬ OldMinute [e0, e1, e2, e3] := by
                rintro ⟨a, m, i, n, he, k1, k2, k3, ha⟩
                rcases ha with ha | ⟨x, y, rfl, _⟩
                · match a, ha with
                  | [a0], _ =>
                    simp only [List.cons_append, List.nil_append, List.cons.injEq, and_true] at he
                    exact hm (by rw [he.2.1]; exact k1)
                · simp at he
              constructor
              · intro h
                exfalso
                by_cases hm2 : toupper e2 = 77
                · rw [if_pos hm2, Option.bind_some, show f.length + (2 + 1) + 2 = f.length + 5 by omega, hat] at h
                  simp only [List.cons_append, List.nil_append, List.getD_cons_succ, List.getD_cons_zero] at h
                  rw [if_neg (fun hh => absurd hh.2.1 (by decide))] at h
                  cases h
                · rw [if_neg hm2] at h; cases h
              · rintro ⟨h, _⟩; exact absurd h hno
        · match e, hl, h3 with
          | [e0, e1, e2, e3, e4], _, h3 =>
            simp only [List.mem_cons, List.not_mem_nil, or_false, not_or] at h3
            simp only [List.cons_append, List.nil_append, List.getD_cons_succ, List.getD_cons_zero]
            by_cases hm : toupper e1 = 77
            · rw [if_pos hm, Option.bind_some]
              rw [show f.length + (1 + 1) + 3 = f.length + 5 by omega, hat (5 : Nat)]
              simp only [List.cons_append, List.nil_append, List.getD_cons_succ, List.getD_cons_zero]
              rw [if_neg (fun hh => h3.2.2.2.2 hh.2.2.symm)]
              constructor
              · intro h; cases h
              · rintro ⟨⟨a, m, i, n, he, k1, k2, k3, ha⟩, _⟩
                rcases ha with ha | ⟨x, y, rfl, hy⟩
                · match a, ha with
                  | [a0], _ => simp at he
                · simp only [List.cons_append, List.nil_append, List.cons.injEq, and_true] at he
                  exact absurd (by rw [← he.2.1]; exact hm) hy
            · rw [if_neg hm]
              by_cases hm2 : toupper e2 = 77
              · rw [if_pos hm2, Option.bind_some]
                rw [show f.length + (2 + 1) + 1 = f.length + 4 by omega, show f.length + (2 + 1) + 2 = f.length + 5 by omega,
                  show f.length + (2 + 1) + 3 = f.length + 6 by omega, hat, hat, hat, show 2 + 1 = 1 + 2 by omega, htake 2 (by simp)]
                simp only [List.cons_append, List.nil_append, List.getD_cons_succ, List.getD_cons_zero, List.take_succ_cons, List.take_zero]
                by_cases hin : toupper e3 = 73 ∧ toupper e4 = 78
                · rw [if_pos ⟨hin.1, hin.2, trivial⟩]
                  constructor
                  · intro h
                    injection h with h
                    refine ⟨⟨[e0, e1], e2, e3, e4, rfl, hm2, hin.1, hin.2, Or.inr ⟨e0, e1, rfl, hm⟩⟩, ?_⟩
                    rw [← h]; simp [minuteName, MINUTE]
                  · rintro ⟨_, h⟩
                    rw [h]; simp [minuteName, MINUTE]
                · rw [if_neg (fun h => hin ⟨h.1, h.2.1⟩)]
                  constructor
                  · intro h; cases h
                  · rintro ⟨⟨a, m, i, n, he, k1, k2, k3, ha⟩, _⟩
                    rcases ha with ha | ⟨x, y, rfl, hy⟩
                    · match a, ha with
                      | [a0], _ => simp at he
                    · simp only [List.cons_append, List.nil_append, List.cons.injEq, and_true] at he
                      exact absurd ⟨by rw [he.2.2.2.1]; exact k2, by rw [he.2.2.2.2]; exact k3⟩ hin
              · rw [if_neg hm2]
                constructor
                · intro h; cases h
                · rintro ⟨⟨a, m, i, n, he, k1, k2, k3, ha⟩, _⟩
                  rcases ha with ha | ⟨x, y, rfl, hy⟩
                  · match a, ha with
                    | [a0], _ => simp at he
                  · simp only [List.cons_append, List.nil_append, List.cons.injEq, and_true] at he
                    exact absurd (by rw [he.2.2.1]; exact k1) hm2

end Hec
