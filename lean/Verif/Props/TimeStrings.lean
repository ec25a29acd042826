import Verif.Model.Intervals
import Verif.Proofs.Times
/-!
C15: times of day written as text and read back (secondsToTimeString, timeStringToSeconds).
-/
namespace Hec

/-! ### Rounding to `float` -/

theorem spacing_pos (n : Nat) : 0 < spacing n := by
  induction n using Nat.strongRecOn with
  | _ n ih =>
    rw [spacing]
    split
    · omega
    · have := ih (n / 2) (by omega)
      omega

/-- The spacing is at most `n / 2^23`. -/
theorem spacing_le (n : Nat) : spacing n ≤ 1 ∨ spacing n * 8388608 ≤ n := by
  induction n using Nat.strongRecOn with
  | _ n ih =>
    rw [spacing]
    split
    · left; omega
    · right
      have e := ih (n / 2) (by omega)
      generalize spacing (n / 2) = u at e
      rw [Nat.mul_comm 2 u, Nat.mul_assoc]
      rcases e with h | h
      · have h2 : u * (2 * 8388608) ≤ 1 * (2 * 8388608) := Nat.mul_le_mul_right _ h
        omega
      · rw [Nat.mul_comm 2, ← Nat.mul_assoc]
        omega

/-- The spacing divides `2^k` when the number is below `2^(24+k)`. -/
theorem spacing_dvd (k : Nat) : ∀ n, n < 2 ^ (24 + k) → spacing n ∣ 2 ^ k := by
  induction k with
  | zero =>
    intro n h
    rw [spacing, if_pos (by simpa using h)]
    exact Nat.one_dvd _
  | succ k ih =>
    intro n h
    rw [spacing]
    split
    · exact Nat.one_dvd _
    · rw [Nat.pow_succ, Nat.mul_comm]
      apply Nat.mul_dvd_mul_right
      apply ih
      have : 2 ^ (24 + (k + 1)) = 2 ^ (24 + k) * 2 := by rw [← Nat.add_assoc, Nat.pow_succ]
      omega

theorem roundFloat_bounds (n : Nat) :
    2 * roundFloat n ≤ 2 * n + spacing n ∧ 2 * n ≤ 2 * roundFloat n + spacing n := by
  unfold roundFloat
  simp only
  generalize hu : spacing n = u
  have hup : 0 < u := by rw [← hu]; exact spacing_pos n
  have hd := Nat.div_add_mod n u
  have hl := Nat.mod_lt n hup
  have hc : n / u * u = u * (n / u) := Nat.mul_comm _ _
  split
  · rw [hc]; omega
  · rw [Nat.add_mul, hc]; omega

/-- Rounding does not pass below a multiple of the spacing. -/
theorem roundFloat_ge (n a : Nat) (h : a ≤ n) (hd : spacing n ∣ a) : a ≤ roundFloat n := by
  obtain ⟨c, rfl⟩ := hd
  unfold roundFloat
  simp only
  have hup := spacing_pos n
  have hc : c ≤ n / spacing n := by
    rw [Nat.le_div_iff_mul_le hup, Nat.mul_comm]; exact h
  split
  · rw [Nat.mul_comm]; exact Nat.mul_le_mul_right _ hc
  · rw [Nat.mul_comm]; exact Nat.mul_le_mul_right _ (by omega)

theorem roundFloat_exact (n : Nat) (h : spacing n ∣ n) : roundFloat n = n := by
  unfold roundFloat
  simp only
  have hup := spacing_pos n
  have hm : n % spacing n = 0 := Nat.mod_eq_zero_of_dvd h
  rw [if_pos (by left; omega), Nat.mul_comm]
  have := Nat.div_add_mod n (spacing n)
  omega

theorem roundFloat_small (n : Nat) (h : n < 2 ^ 24) : roundFloat n = n := by
  apply roundFloat_exact
  rw [spacing, if_pos h]
  exact Nat.one_dvd _

/-! ### Digits -/

theorem digitByte_scan (d : Nat) (hd : d < 10) :
    47 < digitByte (d : Int) ∧ digitByte (d : Int) < 58 ∧ (digitByte (d : Int)).toNat - 48 = d ∧
    digitByte (d : Int) ≠ 0 := by
  have : d = 0 ∨ d = 1 ∨ d = 2 ∨ d = 3 ∨ d = 4 ∨ d = 5 ∨ d = 6 ∨ d = 7 ∨ d = 8 ∨ d = 9 := by omega
  rcases this with h | h | h | h | h | h | h | h | h | h <;> subst h <;> decide

theorem scan_digit (d : Nat) (hd : d < 10) (cs : Bytes) (ds : List Nat) (m : Int) (hl : ds.length + 1 < 9) :
    scanDigits (digitByte (d : Int) :: cs) ds m = scanDigits cs (ds ++ [d]) m := by
  obtain ⟨h1, h2, h3, -⟩ := digitByte_scan d hd
  simp only [scanDigits]
  rw [if_pos ⟨h1, h2⟩, if_neg (by omega), h3]

theorem scan_ninth (d : Nat) (hd : d < 10) (cs : Bytes) (ds : List Nat) (m : Int) (hl : ds.length + 1 = 9) :
    scanDigits (digitByte (d : Int) :: cs) ds m = (ds ++ [d], m) := by
  obtain ⟨h1, h2, h3, -⟩ := digitByte_scan d hd
  simp only [scanDigits]
  rw [if_pos ⟨h1, h2⟩, if_pos (by omega), h3]

theorem scan_colon (cs : Bytes) (ds : List Nat) (m : Int) :
    scanDigits (58 :: cs) ds m = scanDigits cs ds m := by
  simp [scanDigits]

theorem scan_point (cs : Bytes) (ds : List Nat) (m : Int) :
    scanDigits (46 :: cs) ds m = scanDigits cs ds ds.length := by
  simp [scanDigits]

/-- Two digit numbers as written. -/
theorem two_eq (n : Nat) : two (n : Int) = [digitByte ((n / 10 : Nat) : Int), digitByte ((n % 10 : Nat) : Int)] := by
  unfold two
  have e1 : cdiv (n : Int) 10 = ((n / 10 : Nat) : Int) := by
    rw [cdiv_nonneg_eq (by omega)]; omega
  rw [e1]
  have e2 : (n : Int) - ((n / 10 : Nat) : Int) * 10 = ((n % 10 : Nat) : Int) := by omega
  rw [e2]

/-- Hours, minutes, seconds of a time of day. -/
theorem hms (s : Nat) :
    cdiv (s : Int) 3600 = ((s / 3600 : Nat) : Int) ∧
    cdiv ((s : Int) - ((s / 3600 : Nat) : Int) * 3600) 60 = ((s % 3600 / 60 : Nat) : Int) ∧
    (s : Int) - ((s / 3600 : Nat) : Int) * 3600 - ((s % 3600 / 60 : Nat) : Int) * 60 = ((s % 60 : Nat) : Int) := by
  refine ⟨?_, ?_, ?_⟩
  · rw [cdiv_nonneg_eq (by omega)]; omega
  · rw [show (s : Int) - ((s / 3600 : Nat) : Int) * 3600 = ((s % 3600 : Nat) : Int) by omega]
    rw [cdiv_nonneg_eq (by omega)]; omega
  · omega

theorem millDigits (m : Nat) :
    cdiv (m : Int) 100 = ((m / 100 : Nat) : Int) ∧
    cdiv ((m : Int) - ((m / 100 : Nat) : Int) * 100) 10 = ((m % 100 / 10 : Nat) : Int) ∧
    (m : Int) - ((m / 100 : Nat) : Int) * 100 - ((m % 100 / 10 : Nat) : Int) * 10 = ((m % 10 : Nat) : Int) := by
  refine ⟨?_, ?_, ?_⟩
  · rw [cdiv_nonneg_eq (by omega)]; omega
  · rw [show (m : Int) - ((m / 100 : Nat) : Int) * 100 = ((m % 100 : Nat) : Int) by omega]
    rw [cdiv_nonneg_eq (by omega)]; omega
  · omega

/-- The text of a time of day in each style, in a large enough buffer. -/
theorem text_of_time (s m : Nat) (hs : s ≤ 86400) (hm : m ≤ 999) (style : Int) (h0 : 0 ≤ style) (h3 : style ≤ 3)
    (size : Nat) (hz : 13 ≤ size) :
    secondsToTimeString s m style size =
      two ((s / 3600 : Nat) : Int) ++ (if style = 0 then [] else [58]) ++ two ((s % 3600 / 60 : Nat) : Int) ++
      (if 2 ≤ style then 58 :: two ((s % 60 : Nat) : Int) else []) ++
      (if style = 3 then [46, digitByte ((m / 100 : Nat) : Int), digitByte ((m % 100 / 10 : Nat) : Int),
        digitByte ((m % 10 : Nat) : Int)] else []) ++ [0] := by
  unfold secondsToTimeString SECS_IN_1_DAY
  rw [if_neg (by omega), if_neg (by omega)]
  simp only
  obtain ⟨a, b, c⟩ := hms s
  obtain ⟨a', b', c'⟩ := millDigits m
  rw [a, b, c, a', b', c']
  have l : ∀ n : Int, (two n).length = 2 := fun n => rfl
  have hstyle : style = 0 ∨ style = 1 ∨ style = 2 ∨ style = 3 := by omega
  rcases hstyle with h | h | h | h <;> subst h
  · rw [if_pos (by omega), if_pos (by simp [l]; omega)]; simp
  · rw [if_pos (by omega), if_pos (by simp [l]; omega)]; simp
  · rw [if_neg (by omega), if_pos (by omega), if_pos (by simp [l]; omega)]; simp
  · rw [if_neg (by omega), if_neg (by omega)]; simp

/-- What the reading function gets from the text: everything before the final zero. -/
def textOf (b : Bytes) : Bytes := cstr b

theorem cstr_append_zero (b : Bytes) (h : ∀ c ∈ b, c ≠ 0) : cstr (b ++ [0]) = b := by
  induction b with
  | nil => rfl
  | cons x b ih =>
    have hx := h x (by simp)
    have := ih (fun c hc => h c (by simp [hc]))
    unfold cstr at *
    rw [List.cons_append, List.takeWhile_cons_of_pos (by simpa using hx), this]

theorem digit_ne_zero (d : Nat) (hd : d < 10) : digitByte (d : Int) ≠ 0 := (digitByte_scan d hd).2.2.2

/-- Reading hours, minutes, seconds and milliseconds from digits. -/
theorem parse_hm (a b c d : Nat) (sep : Bytes) (hsep : sep = [] ∨ sep = [58])
    (ha : a < 10) (hb : b < 10) (hc : c < 10) (hd : d < 10) :
    timeStringToSecondsMills ([digitByte (a : Int), digitByte (b : Int)] ++ sep ++ [digitByte (c : Int), digitByte (d : Int)]) =
      some ((((a * 10 + b) * 3600 + (c * 10 + d) * 60) * UNIT : Nat) : Int) := by
  have hscan : scanDigits ([digitByte (a : Int), digitByte (b : Int)] ++ sep ++ [digitByte (c : Int), digitByte (d : Int)]) [] (-1)
      = ([a, b, c, d], -1) := by
    rcases hsep with h | h <;> subst h
    · simp only [List.append_nil, List.cons_append, List.nil_append]
      rw [scan_digit a ha _ _ _ (by simp), scan_digit b hb _ _ _ (by simp), scan_digit c hc _ _ _ (by simp),
        scan_digit d hd _ _ _ (by simp)]
      rfl
    · simp only [List.cons_append, List.nil_append]
      rw [scan_digit a ha _ _ _ (by simp), scan_digit b hb _ _ _ (by simp), scan_colon,
        scan_digit c hc _ _ _ (by simp), scan_digit d hd _ _ _ (by simp)]
      rfl
  unfold timeStringToSecondsMills
  simp only [hscan]
  simp only [List.length_cons, List.length_nil]
  rw [if_neg (by omega), if_neg (show ¬ (-1 : Int) > 0 by omega), if_neg (show ¬ (-1 : Int) > 0 by omega)]
  rw [if_neg (by omega)]
  simp only [List.getElem?_cons_zero, List.getElem?_cons_succ, Option.bind_some]
  rw [if_neg (by omega)]
  have r0 : roundFloat (roundFloat 0 * 8589935) = 0 := by
    rw [roundFloat_small 0 (by omega), Nat.zero_mul, roundFloat_small 0 (by omega)]
  simp only [r0, Nat.add_zero]
  rw [roundFloat_exact]
  refine Nat.dvd_trans (spacing_dvd 33 _ ?_) (Nat.dvd_mul_left (2 ^ 33) _)
  rw [show (2 : Nat) ^ (24 + 33) = 144115188075855872 from by decide]
  unfold UNIT
  omega

theorem parse_hms (a b c d e f : Nat) (ha : a < 10) (hb : b < 10) (hc : c < 10) (hd : d < 10) (he : e < 10) (hf : f < 10) :
    timeStringToSecondsMills [digitByte (a : Int), digitByte (b : Int), 58, digitByte (c : Int), digitByte (d : Int), 58,
        digitByte (e : Int), digitByte (f : Int)] =
      some ((((a * 10 + b) * 3600 + (c * 10 + d) * 60 + (e * 10 + f)) * UNIT : Nat) : Int) := by
  have hscan : scanDigits [digitByte (a : Int), digitByte (b : Int), 58, digitByte (c : Int), digitByte (d : Int), 58,
        digitByte (e : Int), digitByte (f : Int)] [] (-1) = ([a, b, c, d, e, f], -1) := by
    rw [scan_digit a ha _ _ _ (by simp), scan_digit b hb _ _ _ (by simp), scan_colon,
      scan_digit c hc _ _ _ (by simp), scan_digit d hd _ _ _ (by simp), scan_colon,
      scan_digit e he _ _ _ (by simp), scan_digit f hf _ _ _ (by simp)]
    rfl
  unfold timeStringToSecondsMills
  simp only [hscan]
  simp only [List.length_cons, List.length_nil]
  rw [if_neg (by omega), if_neg (show ¬ (-1 : Int) > 0 by omega), if_neg (show ¬ (-1 : Int) > 0 by omega)]
  rw [if_neg (by omega)]
  simp only [List.getElem?_cons_zero, List.getElem?_cons_succ, Option.bind_some]
  rw [if_pos trivial]
  have r0 : roundFloat (roundFloat 0 * 8589935) = 0 := by
    rw [roundFloat_small 0 (by omega), Nat.zero_mul, roundFloat_small 0 (by omega)]
  simp only [r0, Nat.add_zero]
  rw [roundFloat_exact]
  refine Nat.dvd_trans (spacing_dvd 33 _ ?_) (Nat.dvd_mul_left (2 ^ 33) _)
  rw [show (2 : Nat) ^ (24 + 33) = 144115188075855872 from by decide]
  unfold UNIT
  omega

theorem parse_hmsm (a b c d e f x y z : Nat) (ha : a < 10) (hb : b < 10) (hc : c < 10) (hd : d < 10) (he : e < 10)
    (hf : f < 10) (hx : x < 10) (hy : y < 10) (hz : z < 10) :
    timeStringToSecondsMills [digitByte (a : Int), digitByte (b : Int), 58, digitByte (c : Int), digitByte (d : Int), 58,
        digitByte (e : Int), digitByte (f : Int), 46, digitByte (x : Int), digitByte (y : Int), digitByte (z : Int)] =
      some ((roundFloat (((a * 10 + b) * 3600 + (c * 10 + d) * 60 + (e * 10 + f)) * UNIT +
        roundFloat ((x * 100 + y * 10 + z) * 8589935)) : Nat) : Int) := by
  have hscan : scanDigits [digitByte (a : Int), digitByte (b : Int), 58, digitByte (c : Int), digitByte (d : Int), 58,
        digitByte (e : Int), digitByte (f : Int), 46, digitByte (x : Int), digitByte (y : Int), digitByte (z : Int)] [] (-1)
        = ([a, b, c, d, e, f, x, y, z], 6) := by
    rw [scan_digit a ha _ _ _ (by simp), scan_digit b hb _ _ _ (by simp), scan_colon,
      scan_digit c hc _ _ _ (by simp), scan_digit d hd _ _ _ (by simp), scan_colon,
      scan_digit e he _ _ _ (by simp), scan_digit f hf _ _ _ (by simp), scan_point,
      scan_digit x hx _ _ _ (by simp), scan_digit y hy _ _ _ (by simp), scan_ninth z hz _ _ _ (by simp)]
    rfl
  unfold timeStringToSecondsMills
  simp only [hscan]
  simp only [List.length_cons, List.length_nil]
  rw [if_neg (by omega), if_pos (show (6 : Int) > 0 by omega), if_pos (show (6 : Int) > 0 by omega)]
  simp only [show (6 : Int).toNat = 6 from rfl]
  rw [if_neg (by omega)]
  simp only [List.getElem?_cons_zero, List.getElem?_cons_succ, Option.bind_some, if_true]
  simp only [List.drop_succ_cons, List.drop_zero, List.foldl_cons, List.foldl_nil, Nat.zero_mul, Nat.zero_add]
  have e1 : (x * 10 + y) * 10 + z = x * 100 + y * 10 + z := by omega
  rw [e1, roundFloat_small (x * 100 + y * 10 + z) (by omega)]

/-- C15. Written with seconds (style 2), every time of day is read back exactly. -/
theorem C15_seconds_roundtrip (s mills : Nat) (hs : s ≤ 86400) (hm : mills ≤ 999) (size : Nat) (hz : 13 ≤ size) :
    timeStringToSeconds (textOf (secondsToTimeString s mills 2 size)) = some (s : Int) := by
  have e : cstr ([digitByte ((s / 3600 / 10 : Nat) : Int), digitByte ((s / 3600 % 10 : Nat) : Int), 58,
      digitByte ((s % 3600 / 60 / 10 : Nat) : Int), digitByte ((s % 3600 / 60 % 10 : Nat) : Int), 58,
      digitByte ((s % 60 / 10 : Nat) : Int), digitByte ((s % 60 % 10 : Nat) : Int)] ++ [0]) =
    [digitByte ((s / 3600 / 10 : Nat) : Int), digitByte ((s / 3600 % 10 : Nat) : Int), 58,
      digitByte ((s % 3600 / 60 / 10 : Nat) : Int), digitByte ((s % 3600 / 60 % 10 : Nat) : Int), 58,
      digitByte ((s % 60 / 10 : Nat) : Int), digitByte ((s % 60 % 10 : Nat) : Int)] := by
    apply cstr_append_zero
    intro c hc
    simp only [List.mem_cons, List.not_mem_nil, or_false] at hc
    rcases hc with h | h | h | h | h | h | h | h <;> subst h
    all_goals first | exact digit_ne_zero _ (by omega) | decide
  have t : secondsToTimeString s mills 2 size = [digitByte ((s / 3600 / 10 : Nat) : Int), digitByte ((s / 3600 % 10 : Nat) : Int), 58,
      digitByte ((s % 3600 / 60 / 10 : Nat) : Int), digitByte ((s % 3600 / 60 % 10 : Nat) : Int), 58,
      digitByte ((s % 60 / 10 : Nat) : Int), digitByte ((s % 60 % 10 : Nat) : Int)] ++ [0] := by
    rw [text_of_time s mills hs hm 2 (by omega) (by omega) size hz]
    simp only [two_eq]
    rfl
  rw [t, textOf, timeStringToSeconds]
  rw [e, parse_hms _ _ _ _ _ _ (by omega) (by omega) (by omega) (by omega) (by omega) (by omega)]
  simp only [Option.map_some]
  congr 1
  rw [cdiv_nonneg_eq (by omega)]
  unfold UNIT
  omega

/-- C15. Written without seconds (styles 0 and 1), the time is read back to the minute. -/
theorem C15_minutes_roundtrip (s mills : Nat) (hs : s ≤ 86400) (hm : mills ≤ 999) (size : Nat) (hz : 13 ≤ size)
    (style : Int) (h : style = 0 ∨ style = 1) :
    timeStringToSeconds (textOf (secondsToTimeString s mills style size)) = some ((s / 60 * 60 : Nat) : Int) := by
  rw [text_of_time s mills hs hm style (by omega) (by omega) size hz]
  simp only [two_eq]
  have e : ∀ sep : Bytes, (sep = [] ∨ sep = [58]) →
    cstr ([digitByte ((s / 3600 / 10 : Nat) : Int), digitByte ((s / 3600 % 10 : Nat) : Int)] ++ sep ++
      [digitByte ((s % 3600 / 60 / 10 : Nat) : Int), digitByte ((s % 3600 / 60 % 10 : Nat) : Int)] ++ [0]) =
    [digitByte ((s / 3600 / 10 : Nat) : Int), digitByte ((s / 3600 % 10 : Nat) : Int)] ++ sep ++
      [digitByte ((s % 3600 / 60 / 10 : Nat) : Int), digitByte ((s % 3600 / 60 % 10 : Nat) : Int)] := by
    intro sep hsep
    apply cstr_append_zero
    intro c hc
    have hc : c ∈ sep ∨ c = digitByte ((s / 3600 / 10 : Nat) : Int) ∨ c = digitByte ((s / 3600 % 10 : Nat) : Int) ∨
        c = digitByte ((s % 3600 / 60 / 10 : Nat) : Int) ∨ c = digitByte ((s % 3600 / 60 % 10 : Nat) : Int) := by
      simp only [List.mem_append, List.mem_cons, List.not_mem_nil, or_false] at hc
      rcases hc with ((h | h) | h) | h | h
      · exact Or.inr (Or.inl h)
      · exact Or.inr (Or.inr (Or.inl h))
      · exact Or.inl h
      · exact Or.inr (Or.inr (Or.inr (Or.inl h)))
      · exact Or.inr (Or.inr (Or.inr (Or.inr h)))
    rcases hc with h | h | h | h | h
    · rcases hsep with h' | h' <;> subst h'
      · simp at h
      · simp at h; subst h; decide
    all_goals subst h; exact digit_ne_zero _ (by omega)
  have val : cdiv (((s / 3600 / 10 * 10 + s / 3600 % 10) * 3600 +
      (s % 3600 / 60 / 10 * 10 + s % 3600 / 60 % 10) * 60) * UNIT : Nat) UNIT = ((s / 60 * 60 : Nat) : Int) := by
    rw [cdiv_nonneg_eq (by omega)]
    unfold UNIT
    omega
  have sepc : (if style = 0 then ([] : Bytes) else [58]) = [] ∨ (if style = 0 then ([] : Bytes) else [58]) = [58] := by
    split <;> simp
  have t1 : (if 2 ≤ style then 58 :: [digitByte ((s % 60 / 10 : Nat) : Int), digitByte ((s % 60 % 10 : Nat) : Int)] else []) = [] :=
    if_neg (by omega)
  have t2 : (if style = 3 then [46, digitByte ((mills / 100 : Nat) : Int), digitByte ((mills % 100 / 10 : Nat) : Int),
        digitByte ((mills % 10 : Nat) : Int)] else []) = [] := if_neg (by omega)
  rw [t1, t2, List.append_nil, List.append_nil]
  simp only [textOf, timeStringToSeconds]
  rw [e _ sepc, parse_hm _ _ _ _ _ sepc (by omega) (by omega) (by omega) (by omega)]
  simp only [Option.map_some]
  rw [val]

/-- The text in style 3. -/
theorem text3 (s m : Nat) (hs : s ≤ 86400) (hm : m ≤ 999) (size : Nat) (hz : 13 ≤ size) :
    timeStringToSecondsMills (textOf (secondsToTimeString s m 3 size)) =
      some ((roundFloat (s * UNIT + roundFloat (m * 8589935)) : Nat) : Int) := by
  have e : cstr ([digitByte ((s / 3600 / 10 : Nat) : Int), digitByte ((s / 3600 % 10 : Nat) : Int), 58,
      digitByte ((s % 3600 / 60 / 10 : Nat) : Int), digitByte ((s % 3600 / 60 % 10 : Nat) : Int), 58,
      digitByte ((s % 60 / 10 : Nat) : Int), digitByte ((s % 60 % 10 : Nat) : Int), 46,
      digitByte ((m / 100 : Nat) : Int), digitByte ((m % 100 / 10 : Nat) : Int), digitByte ((m % 10 : Nat) : Int)] ++ [0]) =
    [digitByte ((s / 3600 / 10 : Nat) : Int), digitByte ((s / 3600 % 10 : Nat) : Int), 58,
      digitByte ((s % 3600 / 60 / 10 : Nat) : Int), digitByte ((s % 3600 / 60 % 10 : Nat) : Int), 58,
      digitByte ((s % 60 / 10 : Nat) : Int), digitByte ((s % 60 % 10 : Nat) : Int), 46,
      digitByte ((m / 100 : Nat) : Int), digitByte ((m % 100 / 10 : Nat) : Int), digitByte ((m % 10 : Nat) : Int)] := by
    apply cstr_append_zero
    intro c hc
    simp only [List.mem_cons, List.not_mem_nil, or_false] at hc
    rcases hc with h | h | h | h | h | h | h | h | h | h | h | h <;> subst h
    all_goals first | exact digit_ne_zero _ (by omega) | decide
  have t : secondsToTimeString s m 3 size = [digitByte ((s / 3600 / 10 : Nat) : Int), digitByte ((s / 3600 % 10 : Nat) : Int), 58,
      digitByte ((s % 3600 / 60 / 10 : Nat) : Int), digitByte ((s % 3600 / 60 % 10 : Nat) : Int), 58,
      digitByte ((s % 60 / 10 : Nat) : Int), digitByte ((s % 60 % 10 : Nat) : Int), 46,
      digitByte ((m / 100 : Nat) : Int), digitByte ((m % 100 / 10 : Nat) : Int), digitByte ((m % 10 : Nat) : Int)] ++ [0] := by
    rw [text_of_time s m hs hm 3 (by omega) (by omega) size hz]
    simp only [two_eq]
    rfl
  rw [t, textOf]
  rw [e, parse_hmsm _ _ _ _ _ _ _ _ _ (by omega) (by omega) (by omega) (by omega) (by omega) (by omega) (by omega)
    (by omega) (by omega)]
  have e1 : (s / 3600 / 10 * 10 + s / 3600 % 10) * 3600 + (s % 3600 / 60 / 10 * 10 + s % 3600 / 60 % 10) * 60 +
      (s % 60 / 10 * 10 + s % 60 % 10) = s := by omega
  have e2 : m / 100 * 100 + m % 100 / 10 * 10 + m % 10 = m := by omega
  rw [e1, e2]

theorem lin1 (a b c v x : Nat) (h2 : b ≤ x + 512) (h3 : a + x ≤ v + 33554432) (h4 : c ≤ b * 1000) :
    a * 1000 + c ≤ v * 1000 + 4 * 8589934592 := by omega

/-- C15. Written with milliseconds (style 3) the value read back as a `float` is within 4 milliseconds
of the time (half the distance of floats at the end of the day). -/
theorem C15_mills_close (s m : Nat) (hs : s ≤ 86400) (hm : m ≤ 999) (size : Nat) (hz : 13 ≤ size) :
    ∃ v : Nat, timeStringToSecondsMills (textOf (secondsToTimeString s m 3 size)) = some (v : Int) ∧
      s * UNIT ≤ v ∧ v * 1000 ≤ (s * 1000 + m + 4) * UNIT ∧ (s * 1000 + m) * UNIT ≤ v * 1000 + 4 * UNIT := by
  refine ⟨_, text3 s m hs hm size hz, ?_⟩
  obtain ⟨b1, b2⟩ := roundFloat_bounds (m * 8589935)
  have sp1 := spacing_le (m * 8589935)
  have hx : roundFloat (m * 8589935) ≤ UNIT := by unfold UNIT; rcases sp1 with h | h <;> omega
  generalize hxx : roundFloat (m * 8589935) = x at *
  obtain ⟨c1, c2⟩ := roundFloat_bounds (s * UNIT + x)
  have sp2 := spacing_le (s * UNIT + x)
  have hlt : s * UNIT + x < 2 ^ (24 + 26) := by
    rw [show (2 : Nat) ^ (24 + 26) = 1125899906842624 from by decide]
    unfold UNIT at *; omega
  have hdv : spacing (s * UNIT + x) ∣ s * UNIT := by
    refine Nat.dvd_trans (spacing_dvd 26 _ hlt) ?_
    unfold UNIT
    exact ⟨s * 2 ^ 7, by omega⟩
  have hspl : spacing (s * UNIT + x) ≤ 67108864 := Nat.le_of_dvd (by omega) (spacing_dvd 26 _ hlt)
  clear sp2
  have ge := roundFloat_ge (s * UNIT + x) (s * UNIT) (by omega) hdv
  clear hlt hdv
  generalize spacing (m * 8589935) = u1 at *
  generalize spacing (s * UNIT + x) = u2 at *
  generalize roundFloat (s * UNIT + x) = v at *
  clear hxx
  have hu1 : u1 ≤ 1023 := by rcases sp1 with h | h <;> omega
  clear sp1
  have hx1 : x ≤ m * 8589935 + 512 := by omega
  have hx2 : m * 8589935 ≤ x + 512 := by omega
  clear b1 b2 hu1 hx
  have hv1 : v ≤ s * UNIT + x + 33554432 := by omega
  have hv2 : s * UNIT + x ≤ v + 33554432 := by omega
  clear c1 c2 hspl
  unfold UNIT at *
  refine ⟨ge, ?_, ?_⟩
  · clear ge hx2 hv2 hs; omega
  · have h5 : (s * 1000 + m) * 8589934592 = s * 8589934592 * 1000 + m * 8589934592 := by
      clear ge hx1 hv1 hs hx2 hv2 hm; omega
    rw [h5]
    exact lin1 _ _ _ _ _ hx2 hv2 (by clear h5 ge hx1 hv1 hs hx2 hv2 hm; omega)

/-- C15, the part that holds in style 3: up to 995 milliseconds the second is read back. -/
theorem C15_mills_partial (s m : Nat) (hs : s ≤ 86400) (hm : m ≤ 995) (size : Nat) (hz : 13 ≤ size) :
    timeStringToSeconds (textOf (secondsToTimeString s m 3 size)) = some (s : Int) := by
  obtain ⟨v, e, g, u, -⟩ := C15_mills_close s m hs (by omega) size hz
  unfold timeStringToSeconds
  rw [e]
  simp only [Option.map_some]
  congr 1
  rw [cdiv_nonneg_eq (by omega)]
  unfold UNIT at *
  omega

/-- C15, failing part: the last milliseconds of a second are read back as the next second, because
the sum is a `float`. -/
theorem C15_mills_violation :
    timeStringToSeconds (textOf (secondsToTimeString 86398 999 3 13)) = some 86399 := by decide +kernel

example : timeStringToSeconds (textOf (secondsToTimeString 86399 0 2 13)) = some 86399 := by decide +kernel
example : textOf (secondsToTimeString 30600 0 0 13) = str "0830" := by decide +kernel

/-- C15. Nothing is written outside the buffer, whatever the arguments. -/
theorem C15_buffer (s m style : Int) (size : Nat) : (secondsToTimeString s m style size).length ≤ size := by
  have l : ∀ n : Int, (two n).length = 2 := fun n => rfl
  have ls : (if style ≠ 0 then ([58] : Bytes) else []).length ≤ 1 := by split <;> simp
  unfold secondsToTimeString
  generalize hsep : (if style ≠ 0 then ([58] : Bytes) else []) = sep at *
  by_cases c1 : size < 5
  · rw [if_pos c1]; simp
  rw [if_neg c1]
  by_cases c2 : style < 0 ∨ style > 3 ∨ s < 0 ∨ s > SECS_IN_1_DAY
  · rw [if_pos c2]; simp; omega
  rw [if_neg c2]
  simp only [List.length_append, l, List.length_cons, List.length_nil]
  by_cases c3 : style < 2 ∨ size < 9
  · rw [if_pos c3]
    split
    · simp only [List.length_append, l, List.length_cons, List.length_nil]; omega
    · simp only [List.length_append, l]; omega
  rw [if_neg c3]
  by_cases c4 : style < 3 ∨ size < 13 ∨ m > 999 ∨ m < 0
  · rw [if_pos c4]
    split
    · simp only [List.length_append, l, List.length_cons, List.length_nil]; omega
    · simp only [List.length_append, l, List.length_cons, List.length_nil]; omega
  rw [if_neg c4]
  simp only [List.length_append, l, List.length_cons, List.length_nil]
  omega

/-- A buffer of five bytes, the stated minimum, gets a text without its terminating zero. -/
theorem C15_unterminated_violation : (0 : UInt8) ∉ secondsToTimeString 30600 0 1 5 := by decide

/-- Reading a text such as `12.3` uses an array element that was never set. -/
theorem C15_uninitialised_violation : timeStringToSeconds (str "12.3") = none := by decide +kernel

end Hec
