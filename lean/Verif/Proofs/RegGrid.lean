import Verif.Proofs.RegSeries
import Verif.Props.Periods
import Verif.Props.Times
import Verif.Spec.RegSeries
/-! The numbering of standard times and blocks, for every interval but weeks. -/
namespace Hec
open _root_.Spec (Date Block Period RegInterval monthLen Normal instant dayOfMonth lastDay leap)

def fixedTime (i k : Int) : Int × Int := ((k * i - 1) / 86400, (k * i - 1) % 86400 + 1)

theorem fixedTime_facts (i k : Int) : 1 ≤ (fixedTime i k).2 ∧ (fixedTime i k).2 ≤ 86400 ∧
    (fixedTime i k).1 * 86400 + (fixedTime i k).2 = k * i := by
  unfold fixedTime
  simp only
  omega

theorem fixedTime_unique {i k j s : Int} (h1 : 1 ≤ s) (h2 : s ≤ 86400) (h : j * 86400 + s = k * i) :
    fixedTime i k = (j, s) := by
  obtain ⟨a, b, c⟩ := fixedTime_facts i k
  exact normal_unique ⟨a, b⟩ ⟨h1, h2⟩ (by simp only; omega)

theorem fixed_grid {i P code n0 : Int} {jbOf : Int → Int} (hi : 1 ≤ i) (hP : i * P = 86400)
    (hlow : -1000000 ≤ jbOf n0) (hlt : ∀ n, n0 ≤ n → jbOf n < jbOf (n + 1))
    (hnext : ∀ n, n0 ≤ n → ztsIncrementBlock (jbOf n) code = jbOf (n + 1))
    (hblock : ∀ n j, n0 ≤ n → jbOf n ≤ j → j < jbOf (n + 1) → ztsRegGetBlockStart j i = (jbOf n, code)) :
    Grid i code (fixedTime i) jbOf (fun n => jbOf n * P) n0 := by
  have hP1 : 1 ≤ P := by
    rcases Int.lt_or_le 0 P with h | h
    · omega
    · have := Int.mul_le_mul_of_nonneg_left h (show 0 ≤ i by omega)
      omega
  have hile : i ≤ 86400 := Int.le_of_dvd (by decide) ⟨P, hP.symm⟩
  have hedge : ∀ m k : Int, m * P ≤ k ↔ m * 86400 ≤ k * i := by
    intro m k
    have e : m * 86400 = (m * P) * i := by rw [← hP, Int.mul_assoc, Int.mul_comm P i]
    rw [e]
    constructor
    · intro h; exact Int.mul_le_mul_of_nonneg_right h (by omega)
    · intro h; exact Int.le_of_mul_le_mul_right h (by omega)
  have hday : ∀ a, jbOf n0 * P < a → IsTime (fixedTime i a).1 (fixedTime i a).2 := by
    intro a ha
    obtain ⟨h1, h2, h3⟩ := fixedTime_facts i a
    have := (hedge (jbOf n0) a).1 (by omega)
    unfold IsTime UNDEFINED_TIME
    omega
  refine ⟨by unfold SECS_IN_1_WEEK; omega, ?_, ?_, ?_, ?_, ?_, hlt, hnext, ?_⟩
  · intro a b _ _
    obtain ⟨a1, a2, a3⟩ := fixedTime_facts i a
    obtain ⟨b1, b2, b3⟩ := fixedTime_facts i b
    unfold numberPeriods
    rw [if_neg (by omega), cleanTime_normal a1 a2, cleanTime_normal b1 b2]
    simp only
    rw [if_pos (by unfold SECS_IN_TRI_MONTH; omega)]
    have : ((fixedTime i b).1 - (fixedTime i a).1) * SECS_IN_1_DAY + ((fixedTime i b).2 - (fixedTime i a).2) = i * (b - a) := by
      have e : i * (b - a) = b * i - a * i := by rw [Int.mul_comm, Int.sub_mul]
      rw [e]
      unfold SECS_IN_1_DAY
      omega
    rw [this, cdiv_mul_cancel hi]
  · intro a n ha hn
    obtain ⟨a1, a2, a3⟩ := fixedTime_facts i a
    have hin : 0 ≤ i * n := Int.mul_nonneg (by omega) hn
    obtain ⟨r1, r2⟩ := C07_increment_adds i n (fixedTime i a).1 (fixedTime i a).2 hi (by omega) (hday a ha)
      (by unfold HitsUndefined; omega)
    generalize incrementTime i n (fixedTime i a).1 (fixedTime i a).2 = r at *
    have e : (a + n) * i = a * i + n * i := Int.add_mul a n i
    unfold instant at r2
    exact (fixedTime_unique r1.1 r1.2 (by omega)).symm
  · intro a ha
    obtain ⟨a1, a2, a3⟩ := fixedTime_facts i a
    have hcl := cleanTime_normal (j := (fixedTime i a).1) a1 a2
    have hoff : ztsOffset i (fixedTime i a).1 (fixedTime i a).2 = 0 := by
      rw [offset_intraday hi hile (by rw [hcl]; exact a1), hcl]
      simp only
      have : (fixedTime i a).2 = i * (a - (fixedTime i a).1 * P) := by
        rw [Int.mul_sub, ← Int.mul_assoc, Int.mul_comm i, Int.mul_comm i (fixedTime i a).1, Int.mul_assoc, hP]
        omega
      rw [this, Int.mul_emod_right]
    unfold ztsOffsetAdjustToStandard
    rw [if_neg (by omega), hcl]
    simp only
    rw [hoff, if_pos (by unfold SECS_IN_1_WEEK; omega), if_neg (by omega)]
  · intro n hn
    apply fixedTime_unique (by omega) (by omega)
    rw [Int.mul_assoc, Int.mul_comm P i, hP]
    omega
  · intro n hn
    exact Int.mul_lt_mul_of_pos_right (hlt n hn) (by omega)
  · intro n a hn h1 h2
    obtain ⟨a1, a2, a3⟩ := fixedTime_facts i a
    have e1 : ¬ a * i ≤ jbOf n * 86400 := by
      intro h
      have e : jbOf n * 86400 = (jbOf n * P) * i := by rw [← hP, Int.mul_assoc, Int.mul_comm P i]
      rw [e] at h
      have := Int.le_of_mul_le_mul_right h (by omega)
      omega
    have e2 : a * i ≤ jbOf (n + 1) * 86400 := by
      have e : jbOf (n + 1) * 86400 = (jbOf (n + 1) * P) * i := by rw [← hP, Int.mul_assoc, Int.mul_comm P i]
      rw [e]
      exact Int.mul_le_mul_of_nonneg_right h2 (by omega)
    have hb : jbOf n ≤ (fixedTime i a).1 ∧ (fixedTime i a).1 < jbOf (n + 1) := by omega
    exact ⟨hblock n _ hn hb.1 hb.2, hb⟩

/-- Every day from the year 100 on has a date. -/
theorem date_of_day {j : Int} (hj : julianOf ⟨100, 1, 1⟩ ≤ j) : ∃ d : Date, d.Valid ∧ 100 ≤ d.year ∧ julianOf d = j := by
  have h5 : julianOf ⟨5, 1, 1⟩ ≤ j := by
    have : julianOf ⟨5, 1, 1⟩ ≤ julianOf ⟨100, 1, 1⟩ := by decide
    omega
  obtain ⟨d, hv, hy, he, _⟩ := C02_julian_total j h5
  refine ⟨d, hv, ?_, he⟩
  apply Decidable.byContradiction
  intro h
  have := (C01_julian_order d ⟨100, 1, 1⟩ hv (by unfold Date.Valid; decide) hy (by decide)).2 (Or.inl (by simp only; omega))
  omega

theorem jan1_valid (y : Int) : Date.Valid ⟨y, 1, 1⟩ := by
  have := monthLen_ge y 1
  exact ⟨by simp only; omega, by simp only; omega, by simp only; omega, by simp only; omega⟩

theorem first_valid (n : Int) : Date.Valid (dayOfMonth n 1) := by
  have := monthLen_ge (n / 12) (n % 12 + 1)
  exact ⟨by simp only [dayOfMonth]; omega, by simp only [dayOfMonth]; omega, by simp only [dayOfMonth]; omega,
    by simp only [dayOfMonth]; omega⟩

theorem julian_lt {a b : Date} (ha : a.Valid) (hb : b.Valid) (hya : 5 ≤ a.year) (hyb : 5 ≤ b.year) (h : a.before b) :
    julianOf a < julianOf b := (C01_julian_order a b ha hb hya hyb).2 h

theorem julian_before {a b : Date} (ha : a.Valid) (hb : b.Valid) (hya : 5 ≤ a.year) (hyb : 5 ≤ b.year)
    (h : julianOf a < julianOf b) : a.before b := (C01_julian_order a b ha hb hya hyb).1 h

theorem ymdOf_julian {d : Date} (hv : d.Valid) (hy : 5 ≤ d.year) : ymdOf (julianOf d) = (d.year, d.month, d.day) :=
  ymdOf_date hy hv.1 hv.2.1 hv.2.2.1 hv.2.2.2

/-- Intervals kept in day blocks. -/
theorem day_grid {i P : Int} (hi : 1 ≤ i) (hP : i * P = 86400) (h900 : i < 900) :
    Grid i 1 (fixedTime i) (fun n => n) (fun n => n * P) (julianOf ⟨100, 1, 1⟩) := by
  apply fixed_grid hi hP
  · decide
  · intro n _; show n < n + 1; omega
  · intro n _; rfl
  · intro n j _ h1 h2
    have : j = n := by omega
    unfold ztsRegGetBlockStart
    rw [if_pos (by unfold SECS_IN_15_MINUTES; omega), this]

/-- Intervals kept in month blocks. -/
theorem month_grid {i P : Int} (hi : 1 ≤ i) (hP : i * P = 86400) (h900 : 900 ≤ i) (hd : i < 86400) :
    Grid i 2 (fixedTime i) (fun n => julianOf (dayOfMonth n 1)) (fun n => julianOf (dayOfMonth n 1) * P) 1200 := by
  apply fixed_grid hi hP
  · decide
  · intro n hn
    apply julian_lt (first_valid _) (first_valid _) (by simp only [dayOfMonth]; omega) (by simp only [dayOfMonth]; omega)
    unfold Date.before
    simp only [dayOfMonth]
    omega
  · intro n hn
    have h := C12_step_forward .month (dayOfMonth n 1) (first_valid n) (by simp only [dayOfMonth]; omega)
    have e : Block.month.next (dayOfMonth n 1) = dayOfMonth (n + 1) 1 := by
      unfold Block.next dayOfMonth
      by_cases h : n % 12 + 1 < 12
      · refine (if_pos h).trans ?_; congr 1 <;> (try simp only) <;> omega
      · refine (if_neg h).trans ?_; congr 1 <;> (try simp only) <;> omega
    rw [e] at h
    exact h
  · intro n j hn h1 h2
    have h100 : julianOf ⟨100, 1, 1⟩ ≤ j := by
      rcases Int.lt_or_eq_of_le hn with h | h
      · have := julian_lt (a := ⟨100, 1, 1⟩) (b := dayOfMonth n 1) (jan1_valid _) (first_valid _) (by decide)
          (by simp only [dayOfMonth]; omega) (by unfold Date.before; simp only [dayOfMonth]; omega)
        omega
      · rw [← h] at h1
        have e : dayOfMonth 1200 1 = ⟨100, 1, 1⟩ := by decide
        rw [e] at h1; exact h1
    obtain ⟨d, hv, hy, rfl⟩ := date_of_day h100
    have hb2 := julian_before hv (first_valid _) (by omega) (by simp only [dayOfMonth]; omega) h2
    have hb1 : ¬ d.before (dayOfMonth n 1) := by
      intro hb
      have := julian_lt hv (first_valid _) (by omega) (by simp only [dayOfMonth]; omega) hb
      omega
    obtain ⟨v1, v2, v3, v4⟩ := hv
    have hym : d.year = n / 12 ∧ d.month = n % 12 + 1 := by
      unfold Date.before at hb1 hb2
      simp only [dayOfMonth] at hb1 hb2
      omega
    unfold ztsRegGetBlockStart
    rw [if_neg (by unfold SECS_IN_15_MINUTES; omega), ymdOf_julian ⟨v1, v2, v3, v4⟩ (by omega)]
    simp only
    rw [if_pos (by unfold SECS_IN_1_DAY; omega), hym.1, hym.2]
    rfl

/-- The years of a block of `Y` years. -/
theorem years_of_block {Y n : Int} {d : Date} (hY : 1 ≤ Y) (hn : 100 ≤ Y * n) (hv : d.Valid) (hy : 5 ≤ d.year)
    (h1 : julianOf ⟨Y * n, 1, 1⟩ ≤ julianOf d) (h2 : julianOf d < julianOf ⟨Y * (n + 1), 1, 1⟩) :
    Y * n ≤ d.year ∧ d.year < Y * (n + 1) := by
  have e : Y * (n + 1) = Y * n + Y := by rw [Int.mul_add]; omega
  have hb2 := julian_before hv (jan1_valid _) hy (by simp only; omega) h2
  have hb1 : ¬ d.before ⟨Y * n, 1, 1⟩ := by
    intro hb
    have := julian_lt hv (jan1_valid _) hy (by simp only; omega) hb
    omega
  obtain ⟨v1, v2, v3, v4⟩ := hv
  unfold Date.before at hb1 hb2
  simp only at hb1 hb2
  rw [e] at hb2 ⊢
  omega

/-- Daily data are kept in year blocks. -/
theorem year_grid : Grid 86400 3 (fixedTime 86400) (fun n => julianOf ⟨n, 1, 1⟩) (fun n => julianOf ⟨n, 1, 1⟩ * 1) 100 := by
  apply fixed_grid (by omega) (by omega)
  · decide
  · intro n hn
    apply julian_lt (jan1_valid _) (jan1_valid _) (by simp only; omega) (by simp only; omega)
    unfold Date.before; simp only; omega
  · intro n hn
    have h := C12_step_forward .year ⟨n, 1, 1⟩ (jan1_valid n) (by simp only; omega)
    exact h
  · intro n j hn h1 h2
    have h100 : julianOf ⟨100, 1, 1⟩ ≤ j := by
      rcases Int.lt_or_eq_of_le hn with h | h
      · have := julian_lt (a := ⟨100, 1, 1⟩) (b := ⟨n, 1, 1⟩) (jan1_valid _) (jan1_valid _) (by decide)
          (by simp only; omega) (by unfold Date.before; simp only; omega)
        omega
      · rw [← h] at h1; exact h1
    obtain ⟨d, hv, hy, rfl⟩ := date_of_day h100
    have hb := years_of_block (Y := 1) (n := n) (by omega) (by omega) hv (by omega)
      (by rw [Int.one_mul]; exact h1) (by rw [Int.one_mul]; exact h2)
    have hyn : d.year = n := by omega
    unfold ztsRegGetBlockStart
    rw [if_neg (by decide), ymdOf_julian hv (by omega)]
    simp only
    rw [if_neg (by decide), if_pos (by decide), hyn]
    rfl

/-- Periods in a year. -/
def perYear : Period → Int
  | .year => 1 | .month => 12 | .semiMonth => 24 | .triMonth => 36

/-- Years in a block. -/
def blockYears : Period → Int
  | .year => 100 | _ => 10

def periodCode : Period → Int
  | .year => 5 | _ => 4

theorem endDate_year (p : Period) (k : Int) : (p.endDate k).year = k / perYear p := by
  cases p
  · simp only [Period.endDate, perYear]; omega
  · rfl
  · simp only [Period.endDate, perYear]
    split
    · simp only [dayOfMonth]; omega
    · simp only [lastDay]; omega
  · simp only [Period.endDate, perYear]
    split
    · simp only [dayOfMonth]; omega
    · split
      · simp only [dayOfMonth]; omega
      · simp only [lastDay]; omega

theorem endDate_last (p : Period) (y : Int) : p.endDate (perYear p * y - 1) = ⟨y - 1, 12, 31⟩ := by
  have hl : ∀ k : Int, k / 12 = y - 1 → k % 12 = 11 → lastDay k = ⟨y - 1, 12, 31⟩ := by
    intro k h1 h2
    unfold lastDay
    rw [h1, h2]
    rfl
  cases p
  · simp only [Period.endDate, perYear]; congr 1; omega
  · exact hl _ (by simp only [perYear]; omega) (by simp only [perYear]; omega)
  · have h : ¬ (perYear .semiMonth * y - 1) % 2 = 0 := by simp only [perYear]; omega
    exact (if_neg h).trans (hl _ (by simp only [perYear]; omega) (by simp only [perYear]; omega))
  · have h : ¬ (perYear .triMonth * y - 1) % 3 = 0 := by simp only [perYear]; omega
    have h2 : ¬ (perYear .triMonth * y - 1) % 3 = 1 := by simp only [perYear]; omega
    exact ((if_neg h).trans (if_neg h2)).trans (hl _ (by simp only [perYear]; omega) (by simp only [perYear]; omega))

theorem perYear_pos (p : Period) : 1 ≤ perYear p := by cases p <;> decide

theorem blockYears_pos (p : Period) : 1 ≤ blockYears p := by cases p <;> decide

/-- Calendar periods are kept in decades, years in centuries. -/
theorem period_grid (p : Period) :
    Grid p.secs (periodCode p) (fun k => (julianOf (p.endDate k), 86400))
      (fun n => julianOf ⟨blockYears p * n, 1, 1⟩) (fun n => perYear p * (blockYears p * n) - 1)
      (100 / blockYears p) := by
  have hp := perYear_pos p
  have hY := blockYears_pos p
  have h100 : ∀ n : Int, 100 / blockYears p ≤ n → 100 ≤ blockYears p * n := by
    intro n hn
    cases p <;> simp only [blockYears] at * <;> omega
  have hstep : ∀ n : Int, blockYears p * (n + 1) = blockYears p * n + blockYears p := by
    intro n; rw [Int.mul_add]; omega
  have hyear : ∀ n a, 100 / blockYears p ≤ n → perYear p * (blockYears p * n) - 1 ≤ a → 99 ≤ (p.endDate a).year := by
    intro n a hn ha
    rw [endDate_year]
    have := h100 n hn
    have h2 : perYear p * 100 ≤ perYear p * (blockYears p * n) := Int.mul_le_mul_of_nonneg_left this (by omega)
    apply (Int.le_ediv_iff_mul_le (by omega)).2
    have : (99 : Int) * perYear p = perYear p * 100 - perYear p := by omega
    omega
  have hdate : ∀ n a, 100 / blockYears p ≤ n → perYear p * (blockYears p * n) - 1 < a →
      a ≤ perYear p * (blockYears p * (n + 1)) - 1 →
      blockYears p * n ≤ (p.endDate a).year ∧ (p.endDate a).year < blockYears p * (n + 1) := by
    intro n a hn h1 h2
    rw [endDate_year]
    constructor
    · apply (Int.le_ediv_iff_mul_le (by omega)).2
      rw [Int.mul_comm]; omega
    · apply (Int.ediv_lt_iff_lt_mul (by omega)).2
      rw [Int.mul_comm]; omega
  refine ⟨by cases p <;> decide, ?_, ?_, ?_, ?_, ?_, ?_, ?_, ?_⟩
  · intro a b ha hb
    exact C10_numberPeriods p a b (by have := hyear _ a (by omega) ha; omega) (by have := hyear _ b (by omega) hb; omega)
  · intro a n ha hn
    exact C09_end_of_period p a n (by have := hyear _ a (Int.le_refl _) (by omega); omega)
      (by have := hyear _ (a + n) (Int.le_refl _) (by omega); omega)
  · intro a ha
    have := (C11_standard p a (by have := hyear _ a (Int.le_refl _) (by omega); omega)).2
    simp only
    rw [this]
  · intro n hn
    have := h100 n hn
    show (julianOf (p.endDate (perYear p * (blockYears p * n) - 1)), (86400 : Int)) = _
    rw [endDate_last]
    have hv : Date.Valid ⟨blockYears p * n - 1, 12, 31⟩ := by
      refine ⟨by simp only; omega, by simp only; omega, by simp only; omega, ?_⟩
      simp [monthLen]
    have hc := C01_julian_consecutive.2 ⟨blockYears p * n - 1, 12, 31⟩ hv (by simp only; omega)
    have he : Date.next ⟨blockYears p * n - 1, 12, 31⟩ = ⟨blockYears p * n, 1, 1⟩ := by
      unfold Date.next
      rw [if_neg (by simp [monthLen]), if_neg (by simp only; omega)]
      congr 1
      show blockYears p * n - 1 + 1 = _
      omega
    rw [he] at hc
    congr 1
    omega
  · intro n hn
    rw [hstep]
    have : perYear p * (blockYears p * n) < perYear p * (blockYears p * n + blockYears p) :=
      Int.mul_lt_mul_of_pos_left (by omega) (by omega)
    omega
  · intro n hn
    have := h100 n hn
    have := hstep n
    apply julian_lt (jan1_valid _) (jan1_valid _) (by simp only; omega) (by simp only; omega)
    unfold Date.before; simp only; omega
  · intro n hn
    have h := h100 n hn
    show ztsIncrementBlock (julianOf ⟨blockYears p * n, 1, 1⟩) (periodCode p) = julianOf ⟨blockYears p * (n + 1), 1, 1⟩
    rw [hstep]
    cases p
    · have hs := C12_step_forward .century ⟨100 * n, 1, 1⟩ (jan1_valid _) (by simp only [blockYears] at h; simp only; omega)
      simp only [Block.start, Block.next] at hs
      rw [show 100 * n / 100 * 100 = 100 * n by omega] at hs
      exact hs
    all_goals
      have hs := C12_step_forward .decade ⟨10 * n, 1, 1⟩ (jan1_valid _) (by simp only [blockYears] at h; simp only; omega)
      simp only [Block.start, Block.next] at hs
      rw [show 10 * n / 10 * 10 = 10 * n by omega] at hs
      exact hs
  · intro n a hn h1 h2
    have hb := hdate n a hn h1 h2
    have hn1 := h100 n hn
    have hv := (endDate_facts p a).1
    have hst := hstep n
    refine ⟨?_, ?_, ?_⟩
    · show ztsRegGetBlockStart (julianOf (p.endDate a)) p.secs = _
      have hym := ymdOf_julian hv (show 5 ≤ (p.endDate a).year by omega)
      unfold ztsRegGetBlockStart
      rw [hym, if_neg (by cases p <;> decide)]
      simp only
      rw [if_neg (by cases p <;> decide), if_neg (by cases p <;> decide)]
      generalize (p.endDate a).year = y at *
      cases p
      · simp only [blockYears] at *
        rw [if_neg (by decide), cdiv_nonneg_eq (by omega), show y / 100 * 100 = 100 * n by omega]; rfl
      all_goals
        simp only [blockYears] at *
        rw [if_pos (by decide), cdiv_nonneg_eq (by omega), show y / 10 * 10 = 10 * n by omega]; rfl
    · show julianOf _ ≤ julianOf (p.endDate a)
      apply le_of_not_before _ _ (jan1_valid _) hv (by simp only; omega) (by omega)
      obtain ⟨v1, v2, v3, v4⟩ := hv
      unfold Date.before
      simp only
      omega
    · show julianOf (p.endDate a) < julianOf _
      apply julian_lt hv (jan1_valid _) (by omega) (by simp only; omega)
      unfold Date.before; simp only; omega

end Hec
