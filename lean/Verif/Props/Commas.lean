import Verif.Spec.Commas
/-!
C104: a number with commas.
-/
namespace Hec
open _root_.Spec (WithCommas signed)

/-- The text with commas, from the right. -/
def groups : Bytes → Nat → Bytes
  | [], _ => []
  | c :: cs, i => if i + 1 = 3 ∧ cs ≠ [] then c :: 44 :: groups cs 0 else c :: groups cs (i + 1)

theorem loop_groups (room : Nat) : ∀ (l : Bytes) (i : Nat) (temp : Bytes), temp.length < room →
    commaLoop room l i temp = if (temp ++ groups l i).length < room then some (temp ++ groups l i) else none := by
  intro l
  induction l with
  | nil =>
    intro i temp h
    simp [commaLoop, groups, h]
  | cons c cs ih =>
    intro i temp h
    unfold commaLoop groups
    by_cases h1 : (temp ++ [c]).length = room
    · rw [if_pos h1, if_neg]
      simp only [List.length_append, List.length_cons, List.length_nil] at h1
      split <;> simp only [List.length_append, List.length_cons] <;> omega
    · rw [if_neg h1]
      have h1' : temp.length + 1 < room := by simp at h1; omega
      by_cases h2 : i + 1 = 3 ∧ cs ≠ []
      · rw [if_pos h2, if_pos h2]
        by_cases h3 : (temp ++ [c] ++ [44]).length = room
        · rw [if_pos h3, if_neg]
          simp only [List.length_append, List.length_cons, List.length_nil] at h3 ⊢
          omega
        · rw [if_neg h3, ih _ _ (by simp at h3 ⊢; omega)]
          simp
      · rw [if_neg h2, if_neg h2, ih _ _ (by simp; omega)]
        simp

theorem groups_digits : ∀ (l : Bytes) (i : Nat), 44 ∉ l → (groups l i).filter (· ≠ 44) = l := by
  intro l
  induction l with
  | nil => intro i _; rfl
  | cons c cs ih =>
    intro i h
    simp only [List.mem_cons, not_or] at h
    have hc : c ≠ 44 := fun x => h.1 x.symm
    unfold groups
    split
    · simpa [hc] using ih 0 h.2
    · simpa [hc] using ih (i + 1) h.2

theorem groups_places : ∀ (l : Bytes) (i : Nat), i < 3 → 44 ∉ l → ∀ k, k < (groups l i).length → ((groups l i)[k]? = some 44 ↔ (k + i) % 4 = 3) := by
  intro l
  induction l with
  | nil => intro i _ _ k hk; simp [groups] at hk
  | cons c cs ih =>
    intro i hi h k hk
    simp only [List.mem_cons, not_or] at h
    have hc : c ≠ 44 := fun x => h.1 x.symm
    unfold groups at hk ⊢
    split
    · next h2 =>
      rw [if_pos h2] at hk
      match k with
      | 0 => simp [hc]; omega
      | 1 => simp; omega
      | k + 2 =>
        simp only [List.length_cons] at hk
        simp only [List.getElem?_cons_succ]
        rw [ih 0 (by omega) h.2 k (by omega)]
        omega
    · next h2 =>
      rw [if_neg h2] at hk
      match k with
      | 0 => simp [hc]; omega
      | k + 1 =>
        simp only [List.length_cons] at hk
        simp only [List.getElem?_cons_succ]
        by_cases hi3 : i + 1 = 3
        · have : cs = [] := Decidable.byContradiction fun hh => h2 ⟨hi3, hh⟩
          subst this
          simp [groups] at hk
        · rw [ih (i + 1) (by omega) h.2 k (by omega)]
          omega

theorem groups_last : ∀ (l : Bytes) (i : Nat), 44 ∉ l → (groups l i).getLast? ≠ some 44 := by
  intro l
  induction l with
  | nil => intro i _; simp [groups]
  | cons c cs ih =>
    intro i h
    simp only [List.mem_cons, not_or] at h
    have hc : c ≠ 44 := fun x => h.1 x.symm
    have e0 : ∀ x i, (groups x i) = [] → x = [] := by
      intro x i hx
      cases x with
      | nil => rfl
      | cons a y => unfold groups at hx; split at hx <;> cases hx
    unfold groups
    split
    · next h2 =>
      have := ih 0 h.2
      cases hg : groups cs 0 with
      | nil => exact absurd (e0 _ _ hg) h2.2
      | cons a y =>
        rw [hg] at this
        rw [List.getLast?_cons_cons, List.getLast?_cons_cons]
        exact this
    · have := ih (i + 1) h.2
      cases hg : groups cs (i + 1) with
      | nil => simp [hc]
      | cons a y =>
        rw [hg] at this
        rw [List.getLast?_cons_cons]
        exact this

theorem digits_no_comma (n : Nat) : (44 : UInt8) ∉ digitText n := by
  unfold digitText
  rw [List.mem_map]
  rintro ⟨c, hc, h⟩
  have hd := Nat.isDigit_of_mem_toDigits (b := 10) (by decide) (by decide) hc
  simp only [Char.isDigit, Bool.and_eq_true, decide_eq_true_eq] at hd
  have h1 : 48 ≤ c.toNat := hd.1
  have h2 : c.toNat ≤ 57 := hd.2
  have := congrArg UInt8.toNat h
  simp only [UInt8.toNat_ofNat'] at this
  rw [Nat.mod_eq_of_lt (by omega)] at this
  have h44 : (44 : UInt8).toNat = 44 := rfl
  omega

theorem groups_length : ∀ (l : Bytes) (i : Nat), l.length ≤ (groups l i).length := by
  intro l
  induction l with
  | nil => intro i; simp [groups]
  | cons c cs ih =>
    intro i
    unfold groups
    split
    · have := ih 0; simp; omega
    · have := ih (i + 1); simp; omega

theorem grouped (n : Nat) : WithCommas (digitText n) (groups (digitText n).reverse 0).reverse := by
  have h : (44 : UInt8) ∉ (digitText n).reverse := by rw [List.mem_reverse]; exact digits_no_comma n
  refine ⟨?_, fun k hk => ?_, ?_⟩
  · rw [List.filter_reverse, groups_digits _ _ h, List.reverse_reverse]
  · rw [List.reverse_reverse]
    rw [List.length_reverse] at hk
    exact groups_places _ 0 (by omega) h k hk
  · rw [List.head?_reverse]
    exact groups_last _ 0 h

/-- C104.  There is a text with commas for every number; if it fits with its sign and the end, it is what is written, and its length is returned. -/
theorem C104_fits_partial (n : Int) : ∃ text, WithCommas (digitText n.natAbs) text ∧
    ∀ room, (signed n text).length < room → longWithCommas room n = some (signed n text, ((signed n text).length : Int)) := by
  refine ⟨_, grouped n.natAbs, fun room h => ?_⟩
  generalize ht : (groups (digitText n.natAbs).reverse 0).reverse = text at h
  have hl : (digitText n.natAbs).length ≤ text.length := by
    rw [← ht, List.length_reverse]
    have := groups_length (digitText n.natAbs).reverse 0
    rw [List.length_reverse] at this
    exact this
  have hs : text.length ≤ (signed n text).length := by unfold signed; split <;> simp
  have hg : (groups (digitText n.natAbs).reverse 0).length = text.length := by rw [← ht, List.length_reverse]
  unfold longWithCommas
  rw [if_neg (by omega)]
  simp only
  rw [List.take_of_length_le (by omega), loop_groups _ _ _ _ (by simp; omega), List.nil_append, if_pos (by omega)]
  simp only
  rw [ht]
  have : (if n < 0 then 45 :: text else text) = signed n text := rfl
  rw [this, if_pos h]

/-- C104.  A number that is not negative never makes it write outside. -/
theorem C104_inside_partial (n : Int) (hn : 0 ≤ n) (room : Nat) (hr : 0 < room) :
    ∃ text ret, longWithCommas room n = some (text, ret) ∧ text.length < room ∧ (ret = -1 ∨ ret = text.length) := by
  unfold longWithCommas
  rw [if_neg (by omega)]
  simp only
  rw [loop_groups _ _ _ _ (by simpa using hr), List.nil_append]
  split
  · next h => split at h <;> first | exact ⟨_, _, rfl, by simp; omega, Or.inl rfl⟩ | cases h
  · next temp h =>
    split at h
    · next hl =>
      injection h with h
      rw [h] at hl
      have hn' : ¬ n < 0 := by omega
      simp only [hn', if_false]
      rw [if_pos (by simpa using hl)]
      exact ⟨_, _, rfl, by simpa using hl, Or.inr rfl⟩
    · cases h

/-- Some numbers. -/
example : longWithCommas 20 12345678 = some ("12,345,678".toUTF8.toList, 10) ∧ longWithCommas 20 (-1000) = some ("-1,000".toUTF8.toList, 6) ∧
    longWithCommas 20 0 = some ("0".toUTF8.toList, 1) ∧ longWithCommas 20 999 = some ("999".toUTF8.toList, 3) ∧ (longWithCommas 9 12345678).map (·.2) = some (-1) := by decide +kernel

/-- The full claim is for arrays of all lengths: -1 if the array is too short.  It fails: of 12345 in 4 bytes, `123` is written, with no error. -/
theorem C104_short_violation : longWithCommas 4 12345 = some ("123".toUTF8.toList, 3) := by decide +kernel

/-- Failing part: of -123 in 4 bytes, the end is written behind the array. -/
theorem C104_outside_violation : longWithCommas 4 (-123) = none := by decide +kernel

end Hec
