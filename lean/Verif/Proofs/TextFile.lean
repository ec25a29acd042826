import Verif.Model.TextFile
/-! Pieces of text files. -/
namespace Hec
set_option linter.unusedSimpArgs false

theorem fgets_append (n : Nat) (s : Bytes) : (fgets n s).1 ++ (fgets n s).2 = s := by
  induction n generalizing s with
  | zero => cases s <;> rfl
  | succ n ih =>
    cases s with
    | nil => rfl
    | cons b s =>
      unfold fgets
      by_cases h : b = 10
      · rw [if_pos h]; simp
      · rw [if_neg h]; simp [ih]

theorem fgets_pos {m : Nat} (hm : 1 ≤ m) (b : UInt8) (s : Bytes) : 1 ≤ (fgets m (b :: s)).1.length := by
  cases m with
  | zero => omega
  | succ n =>
    unfold fgets
    split <;> simp

theorem readPieces_spec (n : Nat) (s : Bytes) (h : s.length ≤ n) :
    (readPieces n s).flatten = s ∧ (readPieces n s).length ≤ s.length ∧ ∀ l ∈ readPieces n s, l ≠ [] := by
  induction n generalizing s with
  | zero =>
    have : s = [] := List.length_eq_zero_iff.mp (by omega)
    subst this
    exact ⟨rfl, Nat.le_refl _, fun l hl => by cases hl⟩
  | succ n ih =>
    cases s with
    | nil => exact ⟨rfl, Nat.le_refl _, fun l hl => by cases hl⟩
    | cons b s =>
      unfold readPieces
      have h1 := fgets_append 999 (b :: s)
      have h2 := fgets_pos (show 1 ≤ 999 by decide) b s
      have h3 := congrArg List.length h1
      rw [List.length_append] at h3
      have h4 : (b :: s).length = s.length + 1 := rfl
      obtain ⟨i1, i2, i3⟩ := ih (fgets 999 (b :: s)).2 (by omega)
      refine ⟨?_, ?_, ?_⟩
      · rw [List.flatten_cons, i1, h1]
      · rw [List.length_cons]
        omega
      · intro l hl
        rcases List.mem_cons.mp hl with rfl | hl
        · intro h5
          rw [h5] at h2
          simp at h2
        · exact i3 l hl

theorem pieces_flatten (s : Bytes) : (pieces s).flatten = s := (readPieces_spec _ s (Nat.le_refl _)).1

theorem pieces_length (s : Bytes) : (pieces s).length ≤ s.length := (readPieces_spec _ s (Nat.le_refl _)).2.1

theorem pieces_ne (s : Bytes) : ∀ l ∈ pieces s, l ≠ [] := (readPieces_spec _ s (Nat.le_refl _)).2.2

theorem upToZero_self {b : Bytes} (h : (0 : UInt8) ∉ b) : upToZero b = b := by
  induction b with
  | nil => rfl
  | cons a b ih =>
    have h1 : a ≠ 0 := fun h0 => h (by simp [h0])
    have h2 : (0 : UInt8) ∉ b := fun h0 => h (by simp [h0])
    unfold upToZero
    rw [List.takeWhile_cons_of_pos (by simp [h1])]
    congr 1
    exact ih h2

theorem upToZero_free (b : Bytes) : (0 : UInt8) ∉ upToZero b := by
  induction b with
  | nil => simp [upToZero]
  | cons a b ih =>
    unfold upToZero
    by_cases h : a = 0
    · rw [List.takeWhile_cons_of_neg (by simp [h])]; simp
    · rw [List.takeWhile_cons_of_pos (by simp [h])]
      intro h0
      rcases List.mem_cons.mp h0 with h0 | h0
      · exact h h0.symm
      · exact ih h0

theorem upToZero_end {b : Bytes} (h : (0 : UInt8) ∉ b) (rest : Bytes) : upToZero (b ++ 0 :: rest) = b := by
  induction b with
  | nil => rfl
  | cons a b ih =>
    have h1 : a ≠ 0 := fun h0 => h (by simp [h0])
    have h2 : (0 : UInt8) ∉ b := fun h0 => h (by simp [h0])
    unfold upToZero
    rw [List.cons_append, List.takeWhile_cons_of_pos (by simp [h1])]
    congr 1
    exact ih h2

theorem table_length (L : List Bytes) : (L.flatMap fun l => upToZero l ++ [0]).length = (L.flatMap upToZero).length + L.length := by
  induction L with
  | nil => rfl
  | cons a L ih =>
    simp only [List.flatMap_cons, List.length_append, List.length_cons, List.length_nil, ih]
    omega

theorem flatMap_le (L : List Bytes) : (L.flatMap upToZero).length ≤ L.flatten.length := by
  induction L with
  | nil => exact Nat.le_refl _
  | cons a L ih =>
    simp only [List.flatMap_cons, List.flatten_cons, List.length_append]
    have : (upToZero a).length ≤ a.length := (List.takeWhile_sublist _).length_le
    omega

theorem flatMap_self (L : List Bytes) (h : (0 : UInt8) ∉ L.flatten) : L.flatMap upToZero = L.flatten := by
  induction L with
  | nil => rfl
  | cons a L ih =>
    rw [List.flatten_cons, List.mem_append, not_or] at h
    rw [List.flatMap_cons, List.flatten_cons, upToZero_self h.1, ih h.2]

theorem flatMap_free (L : List Bytes) : (0 : UInt8) ∉ L.flatMap upToZero := by
  intro h
  obtain ⟨l, _, h1⟩ := List.mem_flatMap.mp h
  exact upToZero_free l h1

theorem writeRows_spec (L : List Bytes) (pre : Bytes) :
    writeRows L.length (pre ++ L.flatMap fun l => upToZero l ++ [0]) pre.length = some (L.flatMap upToZero) := by
  induction L generalizing pre with
  | nil => rfl
  | cons a L ih =>
    rw [List.length_cons]
    unfold writeRows
    rw [if_neg (by rw [List.length_append]; omega)]
    simp only
    have e1 : upToZero ((pre ++ (a :: L).flatMap fun l => upToZero l ++ [0]).drop pre.length) = upToZero a := by
      rw [List.drop_left]
      simp only [List.flatMap_cons, List.append_assoc, List.cons_append, List.nil_append]
      exact upToZero_end (upToZero_free a) _
    rw [e1]
    have e2 : (pre ++ (a :: L).flatMap fun l => upToZero l ++ [0]) = (pre ++ (upToZero a ++ [0])) ++ L.flatMap fun l => upToZero l ++ [0] := by
      simp only [List.flatMap_cons, List.append_assoc]
    have e3 : pre.length + (upToZero a).length + 1 = (pre ++ (upToZero a ++ [0])).length := by
      simp only [List.length_append, List.length_cons, List.length_nil]; omega
    rw [e2, e3, ih]
    simp only [Option.map_some, List.flatMap_cons]

theorem pieces_pos {s : Bytes} (h : s ≠ []) : 1 ≤ (pieces s).length := by
  cases hp : pieces s with
  | nil =>
    have := pieces_flatten s
    rw [hp] at this
    exact absurd this.symm h
  | cons a L => simp

end Hec
