import Verif.Spec.Open
import Verif.Proofs.EngineCopy2
/-! Names of DSS files; words of files. -/
namespace Hec
set_option linter.unusedSimpArgs false
open _root_.Spec (HasExtension NoQuotes quoted WordIs IsDss7)

theorem byte_all {P : UInt8 → Prop} (h : ∀ n, n < 256 → P (UInt8.ofNat n)) (x : UInt8) : P x := by
  have := h x.toNat x.toNat_lt
  rwa [UInt8.ofNat_toNat] at this

theorem tolower_dot (x : UInt8) : tolower x = 46 ↔ x = 46 := byte_all (P := fun x => tolower x = 46 ↔ x = 46) (by decide +kernel) x
theorem tolower_d (x : UInt8) : tolower x = 100 ↔ x = 68 ∨ x = 100 := byte_all (P := fun x => tolower x = 100 ↔ x = 68 ∨ x = 100) (by decide +kernel) x
theorem tolower_s (x : UInt8) : tolower x = 115 ↔ x = 83 ∨ x = 115 := byte_all (P := fun x => tolower x = 115 ↔ x = 83 ∨ x = 115) (by decide +kernel) x
theorem tolower_minus (x : UInt8) : tolower x = 45 ↔ x = 45 := byte_all (P := fun x => tolower x = 45 ↔ x = 45) (by decide +kernel) x

/-- The test for the extension: `n` the name without quotes behind it. -/
theorem extension_iff (n : Bytes) :
    (decide (4 < n.length) && (decide (((n.drop (n.length - 4)).take 4).map tolower = DOT_DSS) ||
      decide (((n.drop (n.length - 4)).take 4).map tolower = DOT_DS))) = true ↔ HasExtension n := by
  rw [Bool.and_eq_true, Bool.or_eq_true, decide_eq_true_eq, decide_eq_true_eq, decide_eq_true_eq]
  constructor
  · rintro ⟨h1, h2⟩
    have hl : (n.drop (n.length - 4)).length = 4 := by rw [List.length_drop]; omega
    have ht : (n.drop (n.length - 4)).take 4 = n.drop (n.length - 4) := List.take_of_length_le (by omega)
    rw [ht] at h2
    have hsplit := (List.take_append_drop (n.length - 4) n).symm
    match hd : n.drop (n.length - 4), hl with
    | [a, b, c, d], _ =>
      rw [hd] at h2 hsplit
      refine ⟨n.take (n.length - 4), b, c, d, ?_, ?_, ?_⟩
      · have ha : a = 46 := by
          rcases h2 with h2 | h2
          · simp only [List.map_cons, List.map_nil, DOT_DSS, List.cons.injEq] at h2; exact (tolower_dot a).mp h2.1
          · simp only [List.map_cons, List.map_nil, DOT_DS, List.cons.injEq] at h2; exact (tolower_dot a).mp h2.1
        rw [ha] at hsplit
        exact hsplit
      · intro h0
        have := congrArg List.length h0
        rw [List.length_take] at this
        simp at this
        omega
      · rcases h2 with h2 | h2
        · simp only [List.map_cons, List.map_nil, DOT_DSS, List.cons.injEq] at h2
          refine ⟨(tolower_d b).mp h2.2.1, (tolower_s c).mp h2.2.2.1, ?_⟩
          rcases (tolower_s d).mp h2.2.2.2.1 with h | h
          · exact Or.inl h
          · exact Or.inr (Or.inl h)
        · simp only [List.map_cons, List.map_nil, DOT_DS, List.cons.injEq] at h2
          exact ⟨(tolower_d b).mp h2.2.1, (tolower_s c).mp h2.2.2.1, Or.inr (Or.inr ((tolower_minus d).mp h2.2.2.2.1))⟩
  · rintro ⟨stem, b, c, d, rfl, h1, h2, h3, h4⟩
    have hs : 1 ≤ stem.length := by
      cases stem with
      | nil => exact absurd rfl h1
      | cons a s => simp
    have e : (stem ++ [46, b, c, d]).length - 4 = stem.length := by simp
    refine ⟨by simp; omega, ?_⟩
    rw [e, List.drop_left]
    simp only [List.take_succ_cons, List.take_zero, List.map_cons, List.map_nil, DOT_DSS, DOT_DS, List.cons.injEq, and_true]
    rcases h4 with h4 | h4 | h4
    · exact Or.inl ⟨(tolower_dot _).mpr rfl, (tolower_d _).mpr h2, (tolower_s _).mpr h3, (tolower_s _).mpr (Or.inl h4)⟩
    · exact Or.inl ⟨(tolower_dot _).mpr rfl, (tolower_d _).mpr h2, (tolower_s _).mpr h3, (tolower_s _).mpr (Or.inr h4)⟩
    · exact Or.inr ⟨(tolower_dot _).mpr rfl, (tolower_d _).mpr h2, (tolower_s _).mpr h3, (tolower_minus _).mpr h4⟩

theorem stringCat_dss (n : Bytes) (h : n.length ≤ 1019) : stringCat 1024 n DOT_DSS 4 = n ++ DOT_DSS := by
  unfold stringCat
  rw [if_neg (by decide)]
  simp only
  rw [if_neg (by omega)]
  rfl

/-- A name without quotes. -/
theorem dssName_plain {n : Bytes} (h : NoQuotes n) :
    dssName n = some (if (decide (4 < n.length) && (decide (((n.drop (n.length - 4)).take 4).map tolower = DOT_DSS) ||
      decide (((n.drop (n.length - 4)).take 4).map tolower = DOT_DS))) = true then n.take 1023 else stringCat 1024 (n.take 1023) DOT_DSS 4) := by
  obtain ⟨h0, h1, h2⟩ := h
  unfold dssName
  have hl : ¬ n.length = 0 := fun h => h0 (List.length_eq_zero_iff.mp h)
  rw [if_neg hl]
  simp only
  rw [if_neg h2, if_neg h1]
  have : n.take (min n.length 1023) = n.take 1023 := by
    by_cases hc : n.length ≤ 1023
    · rw [Nat.min_eq_left hc, List.take_of_length_le (Nat.le_refl _), List.take_of_length_le hc]
    · rw [Nat.min_eq_right (by omega)]
  rw [this]

theorem dssName_ext {n : Bytes} (h : NoQuotes n) (he : HasExtension n) (hl : n.length ≤ 1023) : dssName n = some n := by
  rw [dssName_plain h, if_pos ((extension_iff n).mpr he), List.take_of_length_le hl]

theorem dssName_bare {n : Bytes} (h : NoQuotes n) (he : ¬ HasExtension n) (hl : n.length ≤ 1019) : dssName n = some (n ++ DOT_DSS) := by
  rw [dssName_plain h, if_neg (fun hc => he ((extension_iff n).mp hc)), List.take_of_length_le (by omega), stringCat_dss n hl]

/-- A name in quotes, longer than an extension. -/
theorem dssName_quoted {n : Bytes} (h4 : 4 < n.length) (hl : n.length ≤ 1023) :
    dssName (quoted n) = some (if (decide (4 < n.length) && (decide (((n.drop (n.length - 4)).take 4).map tolower = DOT_DSS) ||
      decide (((n.drop (n.length - 4)).take 4).map tolower = DOT_DS))) = true then n else stringCat 1024 n DOT_DSS 4) := by
  unfold dssName quoted
  have e1 : ([34] ++ n ++ [34] : Bytes).length = n.length + 2 := by simp
  rw [if_neg (by omega)]
  simp only
  have e2 : ([34] ++ n ++ [34] : Bytes).getLast? = some 34 := List.getLast?_concat
  have e3 : ([34] ++ n ++ [34] : Bytes).head? = some 34 := by simp
  rw [if_pos e2, if_pos e3]
  have e4 : (([34] ++ n ++ [34] : Bytes).drop (([34] ++ n ++ [34] : Bytes).length - 1 - 4)).take 4 = (n.drop (n.length - 4)).take 4 := by
    rw [e1, show n.length + 2 - 1 - 4 = 1 + (n.length - 4) by omega]
    show (((34 :: n) ++ [34]).drop (1 + (n.length - 4))).take 4 = _
    rw [List.drop_append_of_le_length (by rw [List.length_cons]; omega), ← List.drop_drop]
    show ((n.drop (n.length - 4)) ++ [34]).take 4 = _
    rw [List.take_append_of_le_length (by rw [List.length_drop]; omega)]
  have e5 : (([34] ++ n ++ [34] : Bytes).drop 1).take (min (([34] ++ n ++ [34] : Bytes).length - 1 - 1) 1023) = n := by
    rw [e1, Nat.min_eq_left (by omega)]
    show (n ++ [34]).take (n.length + 2 - 1 - 1) = n
    rw [show n.length + 2 - 1 - 1 = n.length by omega, List.take_left]
  rw [e4, e5, e1]
  have e6 : decide (4 < n.length + 2 - 1) = decide (4 < n.length) := by
    rw [decide_eq_true (by omega), decide_eq_true h4]
  rw [e6]

/-- A short name in quotes. -/
theorem dssName_quoted_short {n : Bytes} (h4 : n.length ≤ 4) (he : ∀ d s t, n = [46, d, s, t] →
      ¬ ((d = 68 ∨ d = 100) ∧ (s = 83 ∨ s = 115) ∧ (t = 83 ∨ t = 115 ∨ t = 45))) (hq : n.head? ≠ some 34) :
    dssName (quoted n) = some (n ++ DOT_DSS) := by
  unfold dssName quoted
  have e1 : ([34] ++ n ++ [34] : Bytes).length = n.length + 2 := by simp
  rw [if_neg (by omega)]
  simp only
  have e2 : ([34] ++ n ++ [34] : Bytes).getLast? = some 34 := List.getLast?_concat
  have e3 : ([34] ++ n ++ [34] : Bytes).head? = some 34 := by simp
  rw [if_pos e2, if_pos e3]
  have e5 : (([34] ++ n ++ [34] : Bytes).drop 1).take (min (([34] ++ n ++ [34] : Bytes).length - 1 - 1) 1023) = n := by
    rw [e1, Nat.min_eq_left (by omega)]
    show (n ++ [34]).take (n.length + 2 - 1 - 1) = n
    rw [show n.length + 2 - 1 - 1 = n.length by omega, List.take_left]
  rw [e5, stringCat_dss n (by omega), e1]
  congr 1
  rw [if_neg]
  intro hc
  rw [Bool.and_eq_true, Bool.or_eq_true, decide_eq_true_eq, decide_eq_true_eq, decide_eq_true_eq] at hc
  obtain ⟨h1, h2⟩ := hc
  have hn : n.length = 4 := by omega
  match n, hn with
  | [a, b, c, d], _ =>
    simp only [List.length_cons, List.length_nil, List.cons_append, List.nil_append, show 0 + 1 + 1 + 1 + 1 + 2 - 1 - 4 = 1 from rfl,
      List.drop_succ_cons, List.drop_zero, List.take_succ_cons, List.take_zero, List.map_cons, List.map_nil, DOT_DSS, DOT_DS,
      List.cons.injEq, and_true] at h2
    rcases h2 with ⟨k1, k2, k3, k4⟩ | ⟨k1, k2, k3, k4⟩
    · have := (tolower_dot a).mp k1
      subst this
      refine he b c d rfl ⟨(tolower_d b).mp k2, (tolower_s c).mp k3, ?_⟩
      rcases (tolower_s d).mp k4 with h | h
      · exact Or.inl h
      · exact Or.inr (Or.inl h)
    · have := (tolower_dot a).mp k1
      subst this
      exact he b c d rfl ⟨(tolower_d b).mp k2, (tolower_s c).mp k3, Or.inr (Or.inr ((tolower_minus d).mp k4))⟩

/-! ### Words -/

theorem wordAt_lt (b : Bytes) (i : Nat) : wordAt b i < 2 ^ 64 := by
  have key : ∀ l : Bytes, l.foldr (fun x n => x.toNat + 256 * n) 0 < 256 ^ l.length := by
    intro l
    induction l with
    | nil => decide
    | cons a l ih =>
      simp only [List.foldr_cons, List.length_cons, Nat.pow_succ]
      have := a.toNat_lt
      omega
  unfold wordAt
  refine Nat.lt_of_lt_of_le (key _) ?_
  have : (256 : Nat) ^ ((b.drop (8 * i)).take 8).length ≤ 256 ^ 8 := Nat.pow_le_pow_right (by decide) (by rw [List.length_take]; omega)
  exact this

theorem asLong_mod {w : Nat} (h : w < 2 ^ 64) : asLong w % 2 ^ 64 = (w : Int) := by
  unfold asLong
  split <;> omega

theorem asLong_of {w : Nat} {n : Int} (h : w < 2 ^ 64) (h2 : -2 ^ 63 ≤ n) (h3 : n < 2 ^ 63) (h4 : n % 2 ^ 64 = (w : Int)) : asLong w = n := by
  unfold asLong
  split <;> omega

theorem asLong_range {w : Nat} (h : w < 2 ^ 64) : -2 ^ 63 ≤ asLong w ∧ asLong w < 2 ^ 63 := by
  unfold asLong
  split <;> omega

theorem eight_bytes (a b c d e f g h : Nat) :
    a + 256 * (b + 256 * (c + 256 * (d + 256 * (e + 256 * (f + 256 * (g + 256 * (h + 256 * 0))))))) =
      a + 256 * b + 256 ^ 2 * c + 256 ^ 3 * d + 256 ^ 4 * e + 256 ^ 5 * f + 256 ^ 6 * g + 256 ^ 7 * h := by
  omega

/-- The number in a word. -/
theorem wordIs_iff (b : Bytes) (i : Nat) (n : Int) (h : 8 * i + 8 ≤ b.length) : WordIs b i n ↔ asLong (wordAt b i) = n := by
  have hl : ((b.drop (8 * i)).take 8).length = 8 := by rw [List.length_take, List.length_drop]; omega
  constructor
  · rintro ⟨pre, rest, b0, b1, b2, b3, b4, b5, b6, b7, rfl, h1, h2, h3, h4⟩
    have e : wordAt (pre ++ [b0, b1, b2, b3, b4, b5, b6, b7] ++ rest) i =
        b0.toNat + 256 * b1.toNat + 256 ^ 2 * b2.toNat + 256 ^ 3 * b3.toNat + 256 ^ 4 * b4.toNat + 256 ^ 5 * b5.toNat +
          256 ^ 6 * b6.toNat + 256 ^ 7 * b7.toNat := by
      unfold wordAt
      rw [List.append_assoc, ← h1, List.drop_left]
      simp only [List.cons_append, List.nil_append, List.take_succ_cons, List.take_zero, List.foldr_cons, List.foldr_nil]
      exact eight_bytes _ _ _ _ _ _ _ _
    rw [← e] at h4
    have := wordAt_lt (pre ++ [b0, b1, b2, b3, b4, b5, b6, b7] ++ rest) i
    clear e
    exact asLong_of this h2 h3 h4
  · intro h1
    have hsplit : b = b.take (8 * i) ++ (b.drop (8 * i)).take 8 ++ (b.drop (8 * i)).drop 8 := by
      rw [List.append_assoc, List.take_append_drop, List.take_append_drop]
    have hw := wordAt_lt b i
    match hd : (b.drop (8 * i)).take 8, hl with
    | [b0, b1, b2, b3, b4, b5, b6, b7], _ =>
      rw [hd] at hsplit
      refine ⟨b.take (8 * i), (b.drop (8 * i)).drop 8, b0, b1, b2, b3, b4, b5, b6, b7, hsplit, by rw [List.length_take]; omega, ?_, ?_, ?_⟩
      · rw [← h1]; exact (asLong_range hw).1
      · rw [← h1]; exact (asLong_range hw).2
      · have e : wordAt b i = b0.toNat + 256 * b1.toNat + 256 ^ 2 * b2.toNat + 256 ^ 3 * b3.toNat + 256 ^ 4 * b4.toNat + 256 ^ 5 * b5.toNat +
          256 ^ 6 * b6.toNat + 256 ^ 7 * b7.toNat := by
          unfold wordAt
          rw [hd]
          simp only [List.foldr_cons, List.foldr_nil]
          exact eight_bytes _ _ _ _ _ _ _ _
        rw [← e, ← h1]
        clear e
        exact asLong_mod hw

end Hec
