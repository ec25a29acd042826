import Verif.Props.RegSeries
/-! The times of the values of a block, counted from the start of the block as ztsRegStoreBlock.c:783-788 does. -/
namespace Hec
open _root_.Spec (Date Block Period RegInterval monthLen dayOfMonth lastDay leap)

theorem adj_clean {i j s j' s' : Int} (h1 : cleanTime j s 1 = (j', s')) (h2 : cleanTime j' s' 1 = (j', s')) :
    ztsOffsetAdjustToStandard i j s = if i < 1 then (-1, j, s) else ztsOffsetAdjustToStandard i j' s' := by
  unfold ztsOffsetAdjustToStandard
  by_cases h : i < 1
  · simp only [if_pos h]
  · simp only [if_neg h, h1, h2]

theorem inc_adj {i j s j' s' k : Int} (hi : SECS_IN_TRI_MONTH ≤ i) (h : ztsOffsetAdjustToStandard i j s = ztsOffsetAdjustToStandard i j' s') :
    incrementTime i k j s = incrementTime i k j' s' := by
  have e : (864000 : Int) = SECS_IN_TRI_MONTH := by decide
  unfold incrementTime
  have h1 : ¬ i < 1 := by omega
  have h2 : ¬ i < SECS_IN_TRI_MONTH := by omega
  simp only [if_neg h1, if_neg h2, h]

/-- The day of January at which the first period of a year ends, but for whole months: 30. -/
def firstEnd : Period → Int
  | .triMonth => 10 | .semiMonth => 15 | .month => 30 | .year => 365

theorem clean_first (p : Period) {j : Int} (hj : -10000000 ≤ j) (hj2 : j ≠ UNDEFINED_TIME) : cleanTime j p.secs 1 = (j + firstEnd p - 1, 86400) := by
  have hU : UNDEFINED_TIME = -2147483647 := rfl
  have hs : p.secs = firstEnd p * 86400 := by cases p <;> decide
  have hf : 10 ≤ firstEnd p ∧ firstEnd p ≤ 365 := by cases p <;> decide
  have hT : IsTime j p.secs := by
    unfold IsTime
    refine ⟨hj2, ?_⟩
    rw [hs]; omega
  have h := cleanTime_spec (g := 1) hT (by decide)
  have h1 : dayLengthOf 1 = 86400 := by decide
  simp only [h1] at h
  obtain ⟨a, b, c⟩ := h
  have hs2 : j * 86400 + p.secs = j * 86400 + firstEnd p * 86400 := by rw [hs]
  generalize cleanTime j p.secs 1 = R at *
  refine Prod.ext ?_ ?_ <;> simp only <;> omega

theorem endDate_first (p : Period) (hp : p ≠ .year) (y : Int) : stdDay p y 1 (firstEnd p) = p.endDate (perYear p * y) ∧ 1 ≤ firstEnd p ∧ firstEnd p ≤ monthLen y 1 := by
  have hm : monthLen y 1 = 31 := by simp [monthLen]
  rw [hm]
  have hl : ∀ k : Int, k / 12 = y → k % 12 = 0 → lastDay k = ⟨y, 1, 31⟩ := by
    intro k h1 h2
    unfold lastDay
    rw [h1, h2]
    simp only [Int.zero_add, hm]
  have hd : ∀ k d : Int, k / 12 = y → k % 12 = 0 → dayOfMonth k d = ⟨y, 1, d⟩ := by
    intro k d h1 h2
    unfold dayOfMonth
    rw [h1, h2]; rfl
  cases p
  · exact absurd rfl hp
  · refine ⟨?_, by decide, by decide⟩
    simp only [stdDay, hm, Period.endDate, perYear]
    rw [hl _ (by omega) (by omega)]
  · refine ⟨?_, by decide, by decide⟩
    simp only [stdDay, Period.endDate, perYear]
    refine (if_pos (by decide)).trans (((if_pos (by omega)).trans ?_).symm)
    exact hd _ _ (by omega) (by omega)
  · refine ⟨?_, by decide, by decide⟩
    simp only [stdDay, Period.endDate, perYear]
    refine (if_pos (by decide)).trans (((if_pos (by omega)).trans ?_).symm)
    exact hd _ _ (by omega) (by omega)

theorem jan_day {y : Int} (hy : 5 ≤ y) {k : Nat} (hk : k ≤ 30) : julianOf ⟨y, 1, 1 + k⟩ = julianOf ⟨y, 1, 1⟩ + k := by
  have hm : monthLen y 1 = 31 := by simp [monthLen]
  induction k with
  | zero => show julianOf ⟨y, 1, 1 + 0⟩ = julianOf ⟨y, 1, 1⟩ + 0; rw [Int.add_zero, Int.add_zero]
  | succ k ih =>
    have hv : Date.Valid ⟨y, 1, 1 + k⟩ := by
      unfold Date.Valid
      simp only [hm]; omega
    have h := C01_julian_consecutive.2 ⟨y, 1, 1 + k⟩ hv hy
    have e : Date.next ⟨y, 1, 1 + k⟩ = ⟨y, 1, 1 + ((k + 1 : Nat) : Int)⟩ := by
      unfold Date.next
      simp only [hm]
      rw [if_pos (by omega)]
      congr 1
    rw [e, ih (by omega)] at h
    rw [h]; omega

theorem offset_first (p : Period) (hp : p ≠ .year) {y : Int} (hy : 5 ≤ y) : ztsOffset p.secs (julianOf ⟨y, 1, firstEnd p⟩) 86400 = 0 := by
  have hm : monthLen y 1 = 31 := by simp [monthLen]
  have hf := (endDate_first p hp y).2
  have hy1 : ymdOf (julianOf ⟨y, 1, firstEnd p⟩) = (y, 1, firstEnd p) := ymdOf_date (y := y) (m := 1) (d := firstEnd p) hy (by decide) (by decide) hf.1 hf.2
  unfold ztsOffset
  rw [cleanTime_normal (by decide) (by decide)]
  simp only [hy1]
  cases p
  · exact absurd rfl hp
  all_goals simp [firstEnd, Period.secs, SECS_IN_1_DAY, SECS_IN_1_WEEK, SECS_IN_1_MONTH, SECS_IN_TRI_MONTH, SECS_IN_SEMI_MONTH]

/-- Values of a decade block. -/
theorem first_period (p : Period) (hp : p ≠ .year) {y : Int} (hy : 100 ≤ y) {k : Int} (hk : 0 ≤ k) :
    incrementTime p.secs k (julianOf ⟨y, 1, 1⟩) p.secs = (julianOf (p.endDate (perYear p * y + k)), 86400) := by
  obtain ⟨e1, e2, e3⟩ := endDate_first p hp y
  have hm : monthLen y 1 = 31 := by simp [monthLen]
  have hJ : julianOf ⟨100, 1, 1⟩ ≤ julianOf ⟨y, 1, 1⟩ := by
    rcases Int.lt_or_eq_of_le hy with h | h
    · have := julian_lt (a := ⟨100, 1, 1⟩) (b := ⟨y, 1, 1⟩) (jan1_valid _) (jan1_valid _) (by decide) (by simp only; omega)
        (by unfold Date.before; simp only; omega)
      omega
    · rw [← h]; exact Int.le_refl _
  have hJ0 : -10000000 ≤ julianOf ⟨100, 1, 1⟩ := by decide
  have hday : julianOf ⟨y, 1, firstEnd p⟩ = julianOf ⟨y, 1, 1⟩ + firstEnd p - 1 := by
    have := jan_day (y := y) (by omega) (k := (firstEnd p - 1).toNat) (by omega)
    have e : (((firstEnd p - 1).toNat : Nat) : Int) = firstEnd p - 1 := by omega
    rw [e] at this
    have e' : 1 + (firstEnd p - 1) = firstEnd p := by omega
    rw [e'] at this
    omega
  have hU : UNDEFINED_TIME = -2147483647 := rfl
  have hc := clean_first p (j := julianOf ⟨y, 1, 1⟩) (by omega) (by omega)
  rw [← hday] at hc
  have hi : SECS_IN_TRI_MONTH ≤ p.secs := by cases p <;> decide
  have ht : (864000 : Int) = SECS_IN_TRI_MONTH := by decide
  have ha : ztsOffsetAdjustToStandard p.secs (julianOf ⟨y, 1, 1⟩) p.secs = (0, julianOf (p.endDate (perYear p * y)), 86400) := by
    rw [adj_clean hc (cleanTime_normal (by decide) (by decide)), if_neg (by omega)]
    have := adjStd_date p (y := y) (m := 1) (d := firstEnd p) (s := 86400) (by omega) (by decide) (by decide) e2 e3 (by decide) (by decide)
    have ho := offset_first p hp (y := y) (by omega)
    unfold julianOf at ho ⊢
    simp only at ho ⊢
    rw [this, ho, e1]
  have hY : (p.endDate (perYear p * y)).year = y := by
    rw [endDate_year, Int.mul_ediv_cancel_left]
    have := perYear_pos p; omega
  have hY2 : 5 ≤ (p.endDate (perYear p * y + k)).year := by
    rw [endDate_year]
    have hpp := perYear_pos p
    have : y ≤ (perYear p * y + k) / perYear p := by
      rw [Int.le_ediv_iff_mul_le (by omega), Int.mul_comm]; omega
    omega
  rw [inc_adj hi (ha.trans (C11_standard p _ (by omega)).2.symm)]
  exact C09_end_of_period p _ k (by omega) hY2

/-- Values of a block of a fixed interval. -/
theorem first_fixed {i P code : Int} {jbOf : Int → Int} {n0 : Int} (hi : 1 ≤ i) (hP : i * P = 86400)
    (G : Grid i code (fixedTime i) jbOf (fun n => jbOf n * P) n0) {n k : Int} (hn : n0 ≤ n) (hk : 0 ≤ k) :
    incrementTime i k (jbOf n) i = fixedTime i (jbOf n * P + 1 + k) := by
  have hile : i ≤ 86400 := Int.le_of_dvd (by decide) ⟨P, hP.symm⟩
  have e : fixedTime i (jbOf n * P + 1) = (jbOf n, i) := by
    apply fixedTime_unique hi hile
    rw [Int.add_mul, Int.mul_assoc, Int.mul_comm P i, hP]; omega
  have he := G.edge_le (m := n0) (n := n) (Int.le_refl _) hn
  have := G.inc (jbOf n * P + 1) k (by omega) hk
  rw [e] at this
  exact this

/-- `grid_of`, and the times of the values counted from the start of their block. -/
theorem grid_times (r : RegInterval) (hr : r.Ok) :
    ∃ (code : Int) (jbOf edge : Int → Int) (n0 : Int),
      Grid r.secs code (r.time julianOf) jbOf edge n0 ∧ (∀ a, InRange r a → edge n0 < a) ∧
      (∀ n, n0 ≤ n → ∃ d : Date, d.Valid ∧ 100 ≤ d.year ∧ jbOf n = julianOf (r.block.start d) ∧
        jbOf (n + 1) = julianOf (r.block.next d)) ∧ (∀ n, n0 ≤ n → edge (n + 1) - edge n ≤ 86400) ∧
      (r ≠ .period .year → ∀ n k, n0 ≤ n → 0 ≤ k → incrementTime r.secs k (jbOf n) r.secs = r.time julianOf (edge n + 1 + k)) := by
  cases r with
  | fixed i =>
    obtain ⟨hi, P, hP⟩ := hr
    have hP : i * P = 86400 := hP.symm
    have hile : i ≤ 86400 := Int.le_of_dvd (by decide) ⟨P, hP.symm⟩
    have hfirst : ∀ m a : Int, m * 86400 < a * i → m * P < a := by
      intro m a h
      have e : m * 86400 = (m * P) * i := by rw [← hP, Int.mul_assoc, Int.mul_comm P i]
      rw [e] at h
      exact Int.lt_of_mul_lt_mul_right h (by omega)
    have hPle : P ≤ 86400 := Int.le_of_dvd (by decide) ⟨i, by rw [← hP, Int.mul_comm]⟩
    by_cases h1 : i < 900
    · refine ⟨_, _, _, _, day_grid hi hP h1, fun a h => hfirst _ a h, ?_, fun n _ => by
        rw [Int.add_mul]; omega, fun _ n k hn hk => first_fixed hi hP (day_grid hi hP h1) hn hk⟩
      intro n hn
      obtain ⟨d, hv, hy, he⟩ := date_of_day hn
      refine ⟨d, hv, hy, ?_, ?_⟩
      · simp only [RegInterval.block, if_pos h1, Block.start]; omega
      · simp only [RegInterval.block, if_pos h1, Block.next]
        rw [C01_julian_consecutive.2 d hv (by omega)]; omega
    · by_cases h2 : i < 86400
      · refine ⟨_, _, _, _, month_grid (i := i) hi hP (by omega) h2, fun a h => hfirst _ a h, ?_, fun n hn => ?_, fun _ n k hn hk => first_fixed hi hP (month_grid (i := i) hi hP (by omega) h2) hn hk⟩
        rotate_left
        · have hm := month_days hn
          have hP96 : P ≤ 96 := by
            apply Decidable.byContradiction
            intro h
            have := Int.mul_le_mul (show 900 ≤ i by omega) (show 97 ≤ P by omega) (by omega) (by omega)
            omega
          have hP0 : 0 ≤ P := by
            apply Decidable.byContradiction
            intro h
            have := Int.mul_le_mul_of_nonneg_left (show P ≤ -1 by omega) (show 0 ≤ i by omega)
            omega
          rw [← Int.sub_mul]
          have := Int.mul_le_mul hm hP96 hP0 (by omega)
          omega
        intro n hn
        refine ⟨Spec.dayOfMonth n 1, first_valid n, by simp only [Spec.dayOfMonth]; omega, ?_, ?_⟩
        · simp only [RegInterval.block, if_neg h1, if_pos h2, Block.start]; rfl
        · simp only [RegInterval.block, if_neg h1, if_pos h2]
          congr 1
          unfold Block.next Spec.dayOfMonth
          by_cases h : n % 12 + 1 < 12
          · refine Eq.trans ?_ (if_pos h).symm; congr 1 <;> (try simp only) <;> omega
          · refine Eq.trans ?_ (if_neg h).symm; congr 1 <;> (try simp only) <;> omega
      · have : i = 86400 := by omega
        subst this
        refine ⟨_, _, _, _, year_grid, fun a h => ?_, ?_, fun n hn => ?_, fun _ n k hn hk => first_fixed hi (by omega) year_grid hn hk⟩
        · have : P = 1 := by omega
          subst this; exact hfirst _ a h
        · intro n hn
          exact ⟨⟨n, 1, 1⟩, jan1_valid n, hn, rfl, rfl⟩
        · have := year_days (y := n) (by omega)
          omega
  | period p =>
    refine ⟨_, _, _, _, period_grid p, ?_, ?_, fun n _ => ?_, fun hr n k hn hk => ?_⟩
    rotate_right
    · have hp : p ≠ .year := fun e => hr (by rw [e])
      have hb : 100 ≤ blockYears p * n := by cases p <;> simp only [blockYears] at * <;> omega
      have h := first_period p hp hb hk
      have e : perYear p * (blockYears p * n) - 1 + 1 + k = perYear p * (blockYears p * n) + k := by omega
      simp only [RegInterval.secs, RegInterval.time]
      rw [e]; exact h
    · intro a h
      have h : 100 ≤ (p.endDate a).year := h
      rw [endDate_year] at h
      have hp := perYear_pos p
      have := (Int.le_ediv_iff_mul_le (by omega)).1 h
      show perYear p * (blockYears p * (100 / blockYears p)) - 1 < a
      have e : blockYears p * (100 / blockYears p) = 100 := by cases p <;> decide
      rw [e, Int.mul_comm]; omega
    rotate_left
    · cases p <;> simp only [blockYears, perYear] <;> omega
    · intro n hn
      refine ⟨⟨blockYears p * n, 1, 1⟩, jan1_valid _, ?_, ?_, ?_⟩
      · cases p <;> simp only [blockYears] at * <;> omega
      · cases p <;> simp only [blockYears, RegInterval.block, Block.start] <;> congr 2 <;> omega
      · cases p <;> simp only [blockYears, RegInterval.block, Block.next] <;> congr 2 <;> omega

end Hec
