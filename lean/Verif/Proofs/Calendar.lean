import Verif.Model.Calendar
import Verif.Spec.Calendar
/-! Helper lemmas about the calendar model. -/
namespace Hec

theorem isLeapYear_iff (y : Int) : isLeapYear y = true ↔ Spec.leap y := by
  unfold isLeapYear Spec.leap
  simp only [cmod_eq, Bool.or_eq_true, Bool.and_eq_true, Bool.not_eq_true', beq_iff_eq,
    beq_eq_false_iff_ne]
  split <;> omega

/-- Leap days before year `y`, floor form. -/
def L (y : Int) : Int := (y - 1) / 4 + (y - 1) / 400 - (y - 1) / 100

theorem ymd_formula {y m : Int} (d : Int) (hy : 5 ≤ y) (h1 : 1 ≤ m) (h2 : m ≤ 12) :
    yearMonthDayToJulian y m d =
      y * 365 + L y + NDAY m + d + (if Spec.leap y ∧ 2 < m then 1 else 0) - 693960 := by
  have hfm : fixMonth y m = (y, m) := by
    unfold fixMonth
    rw [if_neg (by omega)]
  unfold yearMonthDayToJulian
  rw [hfm]
  simp only
  rw [if_neg (by omega)]
  have hl : leapDays y = L y := by
    unfold leapDays L
    rw [if_pos (by omega), cdiv_nonneg_eq (by omega), cdiv_nonneg_eq (by omega),
      cdiv_nonneg_eq (by omega)]
  have hc : leapCheck y m = (if Spec.leap y ∧ 2 < m then 1 else 0) := by
    unfold leapCheck
    by_cases h : Spec.leap y
    · rw [if_pos ((isLeapYear_iff y).2 h), if_pos (by omega)]
      simp [h]
    · have : isLeapYear y = false := by
        cases hh : isLeapYear y
        · rfl
        · exact absurd ((isLeapYear_iff y).1 hh) h
      simp [this, h]
  rw [hl, hc]
  rfl

theorem month_cases {m : Int} (h1 : 1 ≤ m) (h2 : m ≤ 12) :
    m = 1 ∨ m = 2 ∨ m = 3 ∨ m = 4 ∨ m = 5 ∨ m = 6 ∨ m = 7 ∨ m = 8 ∨ m = 9 ∨ m = 10 ∨ m = 11 ∨
      m = 12 := by omega

theorem L_succ (y : Int) : L (y + 1) = L y + (if Spec.leap y then 1 else 0) := by
  by_cases h : Spec.leap y
  · rw [if_pos h]; unfold L; unfold Spec.leap at h; omega
  · rw [if_neg h]; unfold L; unfold Spec.leap at h; omega

/-- Start of the following month. -/
theorem nday_succ {y m : Int} (h1 : 1 ≤ m) (h2 : m ≤ 11) :
    NDAY (m + 1) + (if Spec.leap y ∧ 2 < m + 1 then (1:Int) else 0) =
      NDAY m + (if Spec.leap y ∧ 2 < m then 1 else 0) + Spec.monthLen y m := by
  have hm : m = 1 ∨ m = 2 ∨ m = 3 ∨ m = 4 ∨ m = 5 ∨ m = 6 ∨ m = 7 ∨ m = 8 ∨ m = 9 ∨ m = 10 ∨
    m = 11 := by omega
  by_cases hl : Spec.leap y <;>
  rcases hm with h | h | h | h | h | h | h | h | h | h | h <;> subst h <;>
    simp [NDAY, Spec.monthLen, hl]

theorem ymd_next {y m d : Int} (hy : 5 ≤ y) (h1 : 1 ≤ m) (h2 : m ≤ 12)
    (hd : 1 ≤ d) (hd2 : d ≤ Spec.monthLen y m) :
    let n := (Spec.Date.mk y m d).next
    yearMonthDayToJulian n.year n.month n.day = yearMonthDayToJulian y m d + 1 := by
  intro n
  by_cases c1 : d < Spec.monthLen y m
  · have : n = ⟨y, m, d + 1⟩ := by simp [n, Spec.Date.next, c1]
    rw [this]; simp only
    rw [ymd_formula _ hy h1 h2, ymd_formula _ hy h1 h2]
    omega
  · have hdl : d = Spec.monthLen y m := by omega
    by_cases c2 : m < 12
    · have : n = ⟨y, m + 1, 1⟩ := by simp [n, Spec.Date.next, c1, c2]
      rw [this]; simp only
      rw [ymd_formula _ hy (by omega) (by omega), ymd_formula _ hy h1 h2]
      have := nday_succ (y := y) h1 (by omega : m ≤ 11)
      omega
    · have hm : m = 12 := by omega
      have : n = ⟨y + 1, 1, 1⟩ := by simp [n, Spec.Date.next, c1, c2]
      rw [this]; simp only
      rw [ymd_formula _ (by omega) (by omega) (by omega), ymd_formula _ hy h1 h2, L_succ, hdl, hm]
      by_cases hl : Spec.leap y <;> simp [NDAY, Spec.monthLen, hl] <;> omega

/-- Month starts are increasing inside a year. -/
theorem nday_mono {y a b : Int} (h1 : 1 ≤ a) (hab : a ≤ b) (h2 : b ≤ 12) :
    NDAY a + (if Spec.leap y ∧ 2 < a then (1:Int) else 0) ≤
      NDAY b + (if Spec.leap y ∧ 2 < b then 1 else 0) := by
  by_cases hl : Spec.leap y <;> simp only [hl, true_and, false_and, if_false] <;>
  rcases month_cases h1 (by omega : a ≤ 12) with h | h | h | h | h | h | h | h | h | h | h | h <;>
  rcases month_cases (by omega : 1 ≤ b) h2 with g | g | g | g | g | g | g | g | g | g | g | g <;>
  subst h <;> subst g <;> simp [NDAY] at * 

/-- Day of year bounds. -/
theorem doy_bounds {y m d : Int} (h1 : 1 ≤ m) (h2 : m ≤ 12) (hd : 1 ≤ d)
    (hd2 : d ≤ Spec.monthLen y m) :
    1 ≤ NDAY m + d + (if Spec.leap y ∧ 2 < m then (1:Int) else 0) ∧
    NDAY m + d + (if Spec.leap y ∧ 2 < m then (1:Int) else 0) ≤
      365 + (if Spec.leap y then 1 else 0) := by
  by_cases hl : Spec.leap y <;>
  rcases month_cases h1 h2 with h | h | h | h | h | h | h | h | h | h | h | h <;>
  subst h <;> simp [NDAY, Spec.monthLen, hl] at * <;> omega

theorem jan1_formula {y : Int} (hy : 5 ≤ y) :
    yearMonthDayToJulian y 1 1 = y * 365 + L y + 1 - 693960 := by
  rw [ymd_formula 1 hy (by omega) (by omega)]
  simp [NDAY]

theorem jan1_small : yearMonthDayToJulian 1 1 1 = 367 - 693960 ∧
    yearMonthDayToJulian 2 1 1 = 732 - 693960 ∧ yearMonthDayToJulian 3 1 1 = 1097 - 693960 ∧
    yearMonthDayToJulian 4 1 1 = 1462 - 693960 ∧ yearMonthDayToJulian 5 1 1 = 1827 - 693960 := by
  decide

theorem jan1_mono {a b : Int} (ha : 1 ≤ a) (hab : a ≤ b) (hb : 5 ≤ b) :
    yearMonthDayToJulian a 1 1 ≤ yearMonthDayToJulian b 1 1 := by
  by_cases h5 : 5 ≤ a
  · rw [jan1_formula h5, jan1_formula hb]
    unfold L
    omega
  · have hs := jan1_small
    have : yearMonthDayToJulian a 1 1 ≤ yearMonthDayToJulian 5 1 1 := by
      have : a = 1 ∨ a = 2 ∨ a = 3 ∨ a = 4 := by omega
      rcases this with h | h | h | h <;> subst h <;> omega
    have h2 : yearMonthDayToJulian 5 1 1 ≤ yearMonthDayToJulian b 1 1 := by
      rw [jan1_formula (by omega), jan1_formula hb]
      unfold L
      omega
    omega

theorem searchYearFwd_found (julian : Int) : ∀ (fuel : Nat) (g t : Int), g ≤ t → t - g < fuel →
    (∀ i, g ≤ i → i < t → yearMonthDayToJulian i 1 1 ≤ julian) →
    julian < yearMonthDayToJulian t 1 1 → searchYearFwd julian fuel g = some t := by
  intro fuel
  induction fuel with
  | zero => intro g t h1 h2; omega
  | succ n ih =>
    intro g t h1 h2 h3 h4
    unfold searchYearFwd
    by_cases hgt : g = t
    · subst hgt
      rw [if_pos (by omega)]
    · rw [if_neg (by have := h3 g (by omega) (by omega); omega)]
      exact ih (g + 1) t (by omega) (by omega) (fun i hi hi2 => h3 i (by omega) hi2) h4

theorem searchMonthFwd_found (julian y : Int) : ∀ (fuel : Nat) (g t : Int), g ≤ t → t ≤ 12 →
    t - g < fuel → (∀ i, g ≤ i → i < t → yearMonthDayToJulian y i 1 ≤ julian) →
    julian < yearMonthDayToJulian y t 1 → searchMonthFwd julian y fuel g = some t := by
  intro fuel
  induction fuel with
  | zero => intro g t h1 h2; omega
  | succ n ih =>
    intro g t h1 ht h2 h3 h4
    unfold searchMonthFwd
    rw [if_neg (by omega)]
    by_cases hgt : g = t
    · subst hgt
      rw [if_pos (by omega)]
    · rw [if_neg (by have := h3 g (by omega) (by omega); omega)]
      exact ih (g + 1) t (by omega) ht (by omega) (fun i hi hi2 => h3 i (by omega) hi2) h4

theorem monthOfYear_eq {y m d : Int} (hy : 5 ≤ y) (h1 : 1 ≤ m) (h2 : m ≤ 12) (hd : 1 ≤ d)
    (hd2 : d ≤ Spec.monthLen y m) :
    monthOfYear (yearMonthDayToJulian y m d) y = m := by
  unfold monthOfYear
  rw [if_pos (by omega)]
  have hb := doy_bounds h1 h2 hd hd2
  have hj := jan1_formula hy
  have hf := ymd_formula (m := m) d hy h1 h2
  have hge : 0 ≤ yearMonthDayToJulian y m d - yearMonthDayToJulian y 1 1 + 28 := by omega
  simp only [cdiv_nonneg_eq hge]
  by_cases hm : m = 12
  · have hnd : (yearMonthDayToJulian y m d - yearMonthDayToJulian y 1 1 + 28) / 28 ≥ 12 := by
      rw [hf, hj]
      subst hm
      have hN : NDAY 12 = 334 := by decide
      rw [hN]
      split <;> omega
    have hjuld : (if (yearMonthDayToJulian y m d - yearMonthDayToJulian y 1 1 + 28) / 28 > 12 then 12
        else (yearMonthDayToJulian y m d - yearMonthDayToJulian y 1 1 + 28) / 28) = (12 : Int) := by
      split <;> omega
    rw [hjuld]
    have hnone : searchMonthFwd (yearMonthDayToJulian y m d) y 32 12 = none := by
      have h12 : ¬ yearMonthDayToJulian y 12 1 > yearMonthDayToJulian y m d := by
        rw [hm] at hf ⊢
        rw [hf, ymd_formula _ hy (by omega) (by omega)]; omega
      rw [searchMonthFwd, if_neg (by omega), if_neg h12, searchMonthFwd, if_pos (by omega)]
    rw [hnone, hm]
  · have hle : (yearMonthDayToJulian y m d - yearMonthDayToJulian y 1 1 + 28) / 28 ≤ m + 1 := by
      rw [hf, hj]
      have hm : m = 1 ∨ m = 2 ∨ m = 3 ∨ m = 4 ∨ m = 5 ∨ m = 6 ∨ m = 7 ∨ m = 8 ∨ m = 9 ∨ m = 10 ∨
        m = 11 := by omega
      by_cases hl : Spec.leap y <;>
      rcases hm with h | h | h | h | h | h | h | h | h | h | h <;> subst h <;>
        simp [NDAY, Spec.monthLen, hl] at * <;> omega
    have hge1 : 1 ≤ (yearMonthDayToJulian y m d - yearMonthDayToJulian y 1 1 + 28) / 28 := by
      omega
    generalize hjd : (yearMonthDayToJulian y m d - yearMonthDayToJulian y 1 1 + 28) / 28 = jd at *
    have hj12 : (if jd > 12 then 12 else jd) = jd := by split <;> omega
    rw [hj12]
    have hfound : searchMonthFwd (yearMonthDayToJulian y m d) y 32 jd = some (m + 1) := by
      apply searchMonthFwd_found
      · exact hle
      · omega
      · omega
      · intro i hi hi2
        rw [ymd_formula _ hy (by omega) (by omega), hf]
        have := nday_mono (y := y) (by omega : 1 ≤ i) (by omega : i ≤ m) h2
        omega
      · rw [hf, ymd_formula _ hy (by omega) (by omega)]
        have := nday_succ (y := y) h1 (by omega : m ≤ 11)
        omega
    rw [hfound]
    simp

theorem guess_bounds {y m d : Int} (hy : 5 ≤ y) (h1 : 1 ≤ m) (h2 : m ≤ 12) (hd : 1 ≤ d)
    (hd2 : d ≤ Spec.monthLen y m) :
    y - 1 ≤ exactYearGuess (yearMonthDayToJulian y m d) ∧
      exactYearGuess (yearMonthDayToJulian y m d) ≤ y + 1 := by
  have hb := doy_bounds h1 h2 hd hd2
  have hf := ymd_formula (m := m) d hy h1 h2
  unfold exactYearGuess JULIAN_BASE_DATE
  obtain ⟨doy, hdoy⟩ : ∃ doy, doy = NDAY m + d + (if Spec.leap y ∧ 2 < m then (1:Int) else 0) :=
    ⟨_, rfl⟩
  rw [← hdoy] at hb
  have hf' : yearMonthDayToJulian y m d = y * 365 + L y + doy - 693960 := by omega
  have hle : doy ≤ 366 := by
    have : (if Spec.leap y then (1:Int) else 0) ≤ 1 := by split <;> omega
    omega
  rw [hf']
  rw [cdiv_nonneg_eq (by unfold L; omega)]
  unfold L
  omega

theorem julianToYMD_of_ymd {y m d g : Int} (hy : 5 ≤ y) (h1 : 1 ≤ m) (h2 : m ≤ 12) (hd : 1 ≤ d)
    (hd2 : d ≤ Spec.monthLen y m) (hg1 : 0 < g)
    (hglo : exactYearGuess (yearMonthDayToJulian y m d) - 90 ≤ g)
    (hghi : g ≤ exactYearGuess (yearMonthDayToJulian y m d)) :
    julianToYearMonthDay g (yearMonthDayToJulian y m d) = some (y, m, d) := by
  have hgb := guess_bounds hy h1 h2 hd hd2
  have hb := doy_bounds h1 h2 hd hd2
  have hf := ymd_formula (m := m) d hy h1 h2
  have hj := jan1_formula hy
  have hj1 := jan1_formula (y := y + 1) (by omega)
  have hL := L_succ y
  have hs : searchYearFwd (yearMonthDayToJulian y m d) 100 g = some (y + 1) := by
    apply searchYearFwd_found
    · omega
    · omega
    · intro i hi hi2
      have := jan1_mono (a := i) (b := y) (by omega) (by omega) hy
      omega
    · rw [hj1, hL, hf]; omega
  unfold julianToYearMonthDay
  rw [if_pos hg1, hs]
  simp only [Option.map_some]
  have hyy : y + 1 - 1 = y := by omega
  rw [hyy, monthOfYear_eq hy h1 h2 hd hd2]
  rw [if_neg (by omega)]
  simp only
  have : yearMonthDayToJulian y m d - yearMonthDayToJulian y m 1 + 1 = d := by
    rw [hf, ymd_formula _ hy h1 h2]; omega
  rw [this]

/-- Every day number from 01Jan0005 on is the number of a valid date. -/
theorem ymd_surj (n : Nat) : ∃ dt : Spec.Date, dt.Valid ∧ 5 ≤ dt.year ∧
    yearMonthDayToJulian dt.year dt.month dt.day = yearMonthDayToJulian 5 1 1 + n := by
  induction n with
  | zero => exact ⟨⟨5, 1, 1⟩, by unfold Spec.Date.Valid; decide, by decide, by simp⟩
  | succ k ih =>
    obtain ⟨dt, hv, hy, he⟩ := ih
    refine ⟨dt.next, ?_, ?_, ?_⟩
    · unfold Spec.Date.Valid at *
      unfold Spec.Date.next
      by_cases c1 : dt.day < Spec.monthLen dt.year dt.month
      · simp only [c1, if_true]; omega
      · simp only [c1, if_false]
        by_cases c2 : dt.month < 12
        · simp only [c2, if_true]
          refine ⟨by omega, by omega, by omega, ?_⟩
          unfold Spec.monthLen; repeat' split
          all_goals omega
        · simp only [c2, if_false]
          refine ⟨by omega, by omega, by omega, ?_⟩
          simp [Spec.monthLen]
    · unfold Spec.Date.next
      by_cases c1 : dt.day < Spec.monthLen dt.year dt.month
      · simp [c1, hy]
      · by_cases c2 : dt.month < 12
        · simp [c1, c2, hy]
        · simp [c1, c2]; omega
    · have := ymd_next (y := dt.year) (m := dt.month) (d := dt.day) hy hv.1 hv.2.1 hv.2.2.1 hv.2.2.2
      simp only at this
      rw [this, he]
      push_cast
      omega

end Hec
