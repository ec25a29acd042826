import Verif.Model.Trim
import Verif.Spec.Trim
/-! Proofs about trimming. -/
namespace Hec
open _root_.Spec (trimEnds noteAt)

theorem readFrom_eq {E : Type} {src : List E} : ∀ (n s : Nat), s + n ≤ src.length →
    readFrom src (s : Int) n = some ((src.drop s).take n) := by
  intro n
  induction n with
  | zero => intro s _; simp [readFrom]
  | succ n ih =>
    intro s h
    unfold readFrom
    rw [if_neg (by omega), Int.toNat_natCast, List.getElem?_eq_getElem (by omega)]
    simp only
    have := ih (s + 1) (by omega)
    rw [show ((s : Int) + 1) = ((s + 1 : Nat) : Int) by omega, this]
    simp only [Option.map_some, Option.some.injEq]
    rw [List.drop_eq_getElem_cons (show s < src.length by omega), List.take_succ_cons]

theorem copyElements_eq {E : Type} {src : List E} {size first number : Nat} (h : (first + number) * size ≤ src.length) :
    copyElements src size (first : Int) number = some ((src.drop (first * size)).take (number * size)) := by
  unfold copyElements
  rw [show (first : Int) * (size : Int) = ((first * size : Nat) : Int) by simp]
  rw [Nat.add_mul] at h
  exact readFrom_eq _ _ h

/-- Elements of position `k`. -/
def groupAt {E : Type} (l : List E) (size k : Nat) : List E := (l.drop (k * size)).take size

theorem groupAt_cut {E : Type} (l : List E) (size first number k : Nat) (hk : k < number) :
    groupAt ((l.drop (first * size)).take (number * size)) size k = groupAt l size (first + k) := by
  unfold groupAt
  rw [List.drop_take, List.take_take, List.drop_drop]
  have : size ≤ number * size - k * size := by
    rw [← Nat.sub_mul]
    exact Nat.le_mul_of_pos_left _ (by omega)
  rw [Nat.min_eq_left this, Nat.add_mul]

theorem trimFirst_spec {V : Type} (m : V → Bool) (size : Nat) : ∀ (n : Nat) (vs : List V) (i : Nat),
    (trimFirst m size vs n i = -1 ∧ ∀ k, k < n → (groupAt vs size k).all m = true) ∨
    (∃ f : Nat, f < n ∧ trimFirst m size vs n i = (i + f : Nat) ∧ (groupAt vs size f).all m = false ∧
      ∀ k, k < f → (groupAt vs size k).all m = true) := by
  intro n
  induction n with
  | zero => intro vs i; exact Or.inl ⟨rfl, fun k hk => absurd hk (by omega)⟩
  | succ n ih =>
    intro vs i
    have h0 : groupAt vs size 0 = vs.take size := by simp [groupAt]
    have hs : ∀ k, groupAt (vs.drop size) size k = groupAt vs size (k + 1) := by
      intro k; unfold groupAt; rw [List.drop_drop, Nat.add_mul, Nat.one_mul, Nat.add_comm]
    unfold trimFirst
    cases hm : (vs.take size).all m with
    | false =>
      right
      refine ⟨0, by omega, by simp, by rw [h0, hm], fun k hk => absurd hk (by omega)⟩
    | true =>
      rw [if_pos rfl]
      rcases ih (vs.drop size) (i + 1) with ⟨h1, h2⟩ | ⟨f, h1, h2, h3, h4⟩
      · left
        refine ⟨h1, ?_⟩
        intro k hk
        cases k with
        | zero => rw [h0, hm]
        | succ k => rw [← hs]; exact h2 k (by omega)
      · right
        refine ⟨f + 1, by omega, by rw [h2]; omega, by rw [← hs]; exact h3, ?_⟩
        intro k hk
        cases k with
        | zero => rw [h0, hm]
        | succ k => rw [← hs]; exact h4 k (by omega)

theorem trimLast_spec {V : Type} (m : V → Bool) (size : Nat) (vs : List V) (d : Int) : ∀ (n : Nat),
    (trimLast m size vs d n = d ∧ ∀ k, k < n → (groupAt vs size k).all m = true) ∨
    (∃ l : Nat, l < n ∧ trimLast m size vs d n = l ∧ (groupAt vs size l).all m = false ∧
      ∀ k, l < k → k < n → (groupAt vs size k).all m = true) := by
  intro n
  induction n with
  | zero => exact Or.inl ⟨rfl, fun k hk => absurd hk (by omega)⟩
  | succ n ih =>
    unfold trimLast
    cases hm : ((vs.drop (n * size)).take size).all m with
    | false => exact Or.inr ⟨n, by omega, by simp, hm, fun k h1 h2 => by omega⟩
    | true =>
      rw [if_pos rfl]
      rcases ih with ⟨h1, h2⟩ | ⟨l, h1, h2, h3, h4⟩
      · refine Or.inl ⟨h1, fun k hk => ?_⟩
        rcases Nat.lt_or_ge k n with h | h
        · exact h2 k h
        · have : k = n := by omega
          subst this; exact hm
      · refine Or.inr ⟨l, by omega, h2, h3, fun k hk1 hk2 => ?_⟩
        rcases Nat.lt_or_ge k n with h | h
        · exact h4 k hk1 h
        · have : k = n := by omega
          subst this; exact hm

theorem dropWhile_append_all {R : Type} {m : R → Bool} {A B : List R} (h : ∀ a ∈ A, m a = true) :
    (A ++ B).dropWhile m = B.dropWhile m := by
  induction A with
  | nil => rfl
  | cons a A ih =>
    rw [List.cons_append, List.dropWhile_cons, if_pos (h a (by simp))]
    exact ih (fun x hx => h x (by simp [hx]))

theorem trimEnds_eq {R : Type} {m : R → Bool} {rows : List R} {f l : Nat} (hfl : f ≤ l) (hl : l < rows.length)
    (h1 : ∀ k (hk : k < rows.length), k < f → m rows[k] = true) (h2 : m rows[f] = false) (h3 : m rows[l] = false)
    (h4 : ∀ k (hk : k < rows.length), l < k → m rows[k] = true) :
    trimEnds m rows = (rows.drop f).take (l + 1 - f) := by
  have e : rows = rows.take f ++ ((rows.drop f).take (l + 1 - f) ++ rows.drop (l + 1)) := by
    have : rows.drop (l + 1) = (rows.drop f).drop (l + 1 - f) := by rw [List.drop_drop]; congr 1; omega
    rw [this, List.take_append_drop, List.take_append_drop]
  have hA : ∀ a ∈ rows.take f, m a = true := by
    intro a ha
    obtain ⟨k, hk, rfl⟩ := List.getElem_of_mem ha
    rw [List.getElem_take]
    rw [List.length_take] at hk
    exact h1 k (by omega) (by omega)
  have hC : ∀ a ∈ rows.drop (l + 1), m a = true := by
    intro a ha
    obtain ⟨k, hk, rfl⟩ := List.getElem_of_mem ha
    rw [List.getElem_drop]
    simp at hk
    exact h4 (l + 1 + k) (by omega) (by omega)
  have hBne : (rows.drop f).take (l + 1 - f) = rows[f] :: ((rows.drop (f + 1)).take (l - f)) := by
    rw [List.drop_eq_getElem_cons (by omega), show l + 1 - f = l - f + 1 by omega, List.take_succ_cons]
  have hBlast : ∃ B, (rows.drop f).take (l + 1 - f) = B ++ [rows[l]] := by
    refine ⟨(rows.drop f).take (l - f), ?_⟩
    rw [show l + 1 - f = l - f + 1 by omega, List.take_add_one, List.getElem?_drop,
      show f + (l - f) = l by omega, List.getElem?_eq_getElem hl]
    rfl
  unfold trimEnds
  conv => lhs; rw [e]
  rw [dropWhile_append_all hA]
  have d1 : ((rows.drop f).take (l + 1 - f) ++ rows.drop (l + 1)).dropWhile m =
      (rows.drop f).take (l + 1 - f) ++ rows.drop (l + 1) := by
    rw [hBne, List.cons_append, List.dropWhile_cons, if_neg (by rw [h2]; simp)]
  rw [d1, List.reverse_append, dropWhile_append_all (by intro a ha; exact hC a (by simpa using ha))]
  obtain ⟨B, hB⟩ := hBlast
  rw [hB, List.reverse_append]
  simp only [List.reverse_cons, List.reverse_nil, List.nil_append, List.cons_append]
  rw [List.dropWhile_cons, if_neg (by rw [h3]; simp)]
  simp

/-! ### Character notes -/

/-- Null terminated lines, one after the other. -/
def flat (ls : List (List Nat)) : List Nat := (ls.map (fun l => l ++ [0])).flatten

theorem flat_cons (l : List Nat) (ls : List (List Nat)) : flat (l :: ls) = l ++ 0 :: flat ls := by
  simp [flat]

theorem lines_exist : ∀ (n : Nat) (bytes : List Nat), bytes.length ≤ n → (bytes = [] ∨ bytes.getLast? = some 0) →
    ∃ ls : List (List Nat), bytes = flat ls ∧ ∀ l ∈ ls, ∀ c ∈ l, c ≠ 0 := by
  intro n
  induction n with
  | zero =>
    intro bytes h _
    have : bytes = [] := List.length_eq_zero_iff.1 (by omega)
    exact ⟨[], by rw [this]; rfl, by simp⟩
  | succ n ih =>
    intro bytes h hl
    rcases hl with rfl | hl
    · exact ⟨[], rfl, by simp⟩
    · have hsplit := List.takeWhile_append_dropWhile (p := fun c : Nat => decide (c ≠ 0)) (l := bytes)
      have htw : ∀ c ∈ bytes.takeWhile (fun c => decide (c ≠ 0)), c ≠ 0 := by
        intro c hc
        have := List.all_takeWhile (p := fun c : Nat => decide (c ≠ 0)) (l := bytes)
        rw [List.all_eq_true] at this
        simpa using this c hc
      cases hd : bytes.dropWhile (fun c => decide (c ≠ 0)) with
      | nil =>
        rw [hd, List.append_nil] at hsplit
        have hmem := List.mem_of_getLast? hl
        rw [← hsplit] at hmem
        exact absurd rfl (htw 0 hmem)
      | cons z rest =>
        have hz : z = 0 := by
          have := List.head?_dropWhile_not (fun c : Nat => decide (c ≠ 0)) bytes
          rw [hd] at this
          simpa using this
        subst hz
        rw [hd] at hsplit
        have hlen : rest.length ≤ n := by
          have := congrArg List.length hsplit
          simp at this
          omega
        have hrest : rest = [] ∨ rest.getLast? = some 0 := by
          cases rest with
          | nil => exact Or.inl rfl
          | cons r rs =>
            right
            rw [← hsplit, List.getLast?_append] at hl
            simpa [List.getLast?_cons_cons] using hl
        obtain ⟨ls, e1, e2⟩ := ih rest hlen hrest
        refine ⟨bytes.takeWhile (fun c => decide (c ≠ 0)) :: ls, ?_, ?_⟩
        · rw [flat_cons, ← e1, hsplit]
        · intro l hl' c hc
          rcases List.mem_cons.1 hl' with rfl | h'
          · exact htw c hc
          · exact e2 l h' c hc

theorem takeWhile_line {l rest : List Nat} (h : ∀ c ∈ l, c ≠ 0) :
    (l ++ 0 :: rest).takeWhile (fun c => decide (c ≠ 0)) = l ∧
    (l ++ 0 :: rest).dropWhile (fun c => decide (c ≠ 0)) = 0 :: rest := by
  induction l with
  | nil => simp
  | cons a l ih =>
    have ha := h a (by simp)
    obtain ⟨i1, i2⟩ := ih (fun c hc => h c (by simp [hc]))
    rw [List.cons_append, List.takeWhile_cons, List.dropWhile_cons, if_pos (by simpa using ha), if_pos (by simpa using ha), i1, i2]
    exact ⟨rfl, rfl⟩

theorem noteAt_flat : ∀ (k : Nat) (ls : List (List Nat)), (∀ l ∈ ls, ∀ c ∈ l, c ≠ 0) →
    noteAt (flat ls) k = (ls[k]?).getD [] := by
  intro k
  induction k with
  | zero =>
    intro ls h
    cases ls with
    | nil => simp [flat, noteAt]
    | cons l ls =>
      rw [flat_cons]
      unfold noteAt
      rw [(takeWhile_line (h l (by simp))).1]; rfl
  | succ k ih =>
    intro ls h
    cases ls with
    | nil =>
      unfold noteAt
      have e : ((flat []).dropWhile (fun c => decide (c ≠ 0))).drop 1 = flat [] := by simp [flat]
      rw [e, ih [] (by simp)]
      simp
    | cons l ls =>
      rw [flat_cons]
      unfold noteAt
      rw [(takeWhile_line (h l (by simp))).2]
      simp only [List.drop_succ_cons, List.drop_zero, List.getElem?_cons_succ]
      exact ih ls (fun l' hl' => h l' (by simp [hl']))

theorem strnlen_line {l rest : List Nat} (h : ∀ c ∈ l, c ≠ 0) : ∀ n, l.length < n → strnlen (l ++ 0 :: rest) n = l.length := by
  induction l with
  | nil =>
    intro n hn
    cases n with
    | zero => simp at hn
    | succ n => simp [strnlen]
  | cons a l ih =>
    intro n hn
    cases n with
    | zero => simp at hn
    | succ n =>
      have ha := h a (by simp)
      rw [List.cons_append]
      unfold strnlen
      simp only
      rw [if_neg ha, ih (fun c hc => h c (by simp [hc])) n (by simp at hn; omega)]
      rfl

theorem flat_append (a b : List (List Nat)) : flat (a ++ b) = flat a ++ flat b := by simp [flat]

theorem flat_pos {ls : List (List Nat)} (h : ls ≠ []) : 1 ≤ (flat ls).length := by
  cases ls with
  | nil => exact absurd rfl h
  | cons l ls => rw [flat_cons]; simp; omega

theorem linesEnd_flat : ∀ (n : Nat) (a b : List (List Nat)), b ≠ [] → (∀ l ∈ b, ∀ c ∈ l, c ≠ 0) →
    linesEnd (flat (a ++ b)) (flat (a ++ b)).length n (flat a).length = (flat (a ++ b.take n)).length := by
  intro n
  induction n with
  | zero => intro a b _ _; simp [linesEnd]
  | succ n ih =>
    intro a b hb h
    cases b with
    | nil => exact absurd rfl hb
    | cons l b =>
      unfold linesEnd
      have e1 : (flat (a ++ l :: b)).drop (flat a).length = l ++ 0 :: flat b := by
        rw [flat_append, flat_cons, List.drop_left]
      have e2 : (flat (a ++ l :: b)).length = (flat a).length + (l.length + ((flat b).length + 1)) := by
        rw [flat_append, flat_cons]; simp
      simp only [e1]
      rw [strnlen_line (h l (by simp)) _ (by omega)]
      have e3 : (flat a).length + l.length + 1 = (flat (a ++ [l])).length := by
        rw [flat_append]; simp [flat]; omega
      have e4 : a ++ l :: b = (a ++ [l]) ++ b := by simp
      cases b with
      | nil =>
        rw [if_pos (by rw [e2]; simp [flat]; omega), e3]
        simp
      | cons l2 b =>
        have := flat_pos (ls := l2 :: b) (by simp)
        rw [if_neg (by omega), e3, e4, ih (a ++ [l]) (l2 :: b) (by simp) (fun l' hl' => h l' (by simp [hl']))]
        simp

theorem countLines_flat {ls : List (List Nat)} (h : ∀ l ∈ ls, ∀ c ∈ l, c ≠ 0) (n : Nat) :
    countLines (flat ls) (flat ls).length n = (flat (ls.take n)).length := by
  unfold countLines
  cases ls with
  | nil => simp [flat]
  | cons l ls =>
    have hp := flat_pos (ls := l :: ls) (by simp)
    rw [if_neg (by omega)]
    have := linesEnd_flat n [] (l :: ls) (by simp) h
    simp only [List.nil_append, show (flat ([] : List (List Nat))).length = 0 from rfl] at this
    exact this

theorem flat_take_drop (ls : List (List Nat)) (n : Nat) : (flat ls).drop (flat (ls.take n)).length = flat (ls.drop n) := by
  conv => lhs; rw [← List.take_append_drop n ls, flat_append]
  simp

theorem flat_take (ls : List (List Nat)) (n : Nat) : (flat ls).take (flat (ls.take n)).length = flat (ls.take n) := by
  conv => lhs; rw [← List.take_append_drop n ls, flat_append]
  simp

theorem copyLines_flat {ls : List (List Nat)} (h : ∀ l ∈ ls, ∀ c ∈ l, c ≠ 0) (n : Nat) :
    copyLines (flat ls).length (flat ls) (flat ls).length n = flat (ls.take n) := by
  unfold copyLines
  cases ls with
  | nil => simp [flat]
  | cons l ls =>
    have hp := flat_pos (ls := l :: ls) (by simp)
    rw [if_neg (by omega), if_neg (by omega)]
    have := linesEnd_flat n [] (l :: ls) (by simp) h
    simp only [List.nil_append, show (flat ([] : List (List Nat))).length = 0 from rfl] at this
    rw [this, flat_take, List.take_of_length_le]
    have := congrArg List.length (flat_take (l :: ls) n)
    rw [List.length_take] at this
    omega

end Hec
