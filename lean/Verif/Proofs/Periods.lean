import Verif.Proofs.Times
import Verif.Spec.Periods
/-! Helper lemmas: month and year arithmetic. -/
namespace Hec
open Spec

theorem fixMonth_eq (y M : Int) : fixMonth y M = (y + (M - 1) / 12, (M - 1) % 12 + 1) := by
  unfold fixMonth
  by_cases hM : M < 1 ∨ M > 12
  · rw [if_pos hM]
    simp only [cdiv_eq]
    split <;> split <;> (apply Prod.ext <;> simp only <;> omega)
  · rw [if_neg hM]
    apply Prod.ext <;> simp only <;> omega

/-- Only the month index matters. -/
theorem ymd_index (y M d : Int) :
    yearMonthDayToJulian y M d =
      yearMonthDayToJulian ((12 * y + (M - 1)) / 12) ((12 * y + (M - 1)) % 12 + 1) d := by
  unfold yearMonthDayToJulian
  rw [fixMonth_eq, fixMonth_eq]
  have h1 : (12 * y + (M - 1)) / 12 + ((12 * y + (M - 1)) % 12 + 1 - 1) / 12 = y + (M - 1) / 12 := by
    omega
  have h2 : ((12 * y + (M - 1)) % 12 + 1 - 1) % 12 + 1 = (M - 1) % 12 + 1 := by omega
  rw [h1, h2]

theorem monthLen_ge (y m : Int) : 28 ≤ monthLen y m := by
  unfold monthLen
  split
  · split <;> omega
  · split <;> omega

theorem monthLen_le (y m : Int) : monthLen y m ≤ 31 := by
  unfold monthLen
  split
  · split <;> omega
  · split <;> omega

theorem ymdOf_date {y m d : Int} (hy : 5 ≤ y) (h1 : 1 ≤ m) (h2 : m ≤ 12) (hd : 1 ≤ d)
    (hd2 : d ≤ monthLen y m) : ymdOf (yearMonthDayToJulian y m d) = (y, m, d) := by
  have hg := guess_bounds hy h1 h2 hd hd2
  unfold ymdOf
  rw [julianToYMD_of_ymd hy h1 h2 hd hd2 (by omega) (by omega) (by omega)]
  rfl

theorem ymd_eom {y m : Int} (hy : 5 ≤ y) (h1 : 1 ≤ m) (h2 : m ≤ 12) :
    yearMonthDayToJulian y (m + 1) 1 - 1 = yearMonthDayToJulian y m (monthLen y m) := by
  have hml := monthLen_ge y m
  have := ymd_next (d := monthLen y m) hy h1 h2 (by omega) (by omega)
  simp only [Date.next] at this
  rw [if_neg (by omega)] at this
  by_cases h : m < 12
  · rw [if_pos h] at this
    simp only at this
    omega
  · rw [if_neg h] at this
    simp only at this
    have hm : m = 12 := by omega
    rw [ymd_index y (m + 1) 1]
    have e1 : (12 * y + (m + 1 - 1)) / 12 = y + 1 := by omega
    have e2 : (12 * y + (m + 1 - 1)) % 12 + 1 = 1 := by omega
    rw [e1, e2]
    omega

/-- Dates are never near the undefined day number for years from 5 on. -/
theorem ymd_lower {y m d : Int} (hy : 5 ≤ y) (h1 : 1 ≤ m) (h2 : m ≤ 12) (hd : 1 ≤ d) :
    -693960 < yearMonthDayToJulian y m d := by
  rw [ymd_formula d hy h1 h2]
  unfold L
  have : 0 ≤ NDAY m := by
    rcases month_cases h1 h2 with h | h | h | h | h | h | h | h | h | h | h | h <;> subst h <;> decide
  split <;> omega

theorem interval_facts : (¬ Period.year.secs < 1) ∧ (¬ Period.month.secs < 1) ∧
    (¬ Period.semiMonth.secs < 1) ∧ (¬ Period.triMonth.secs < 1) := by decide

/-- Day of the standard time for a date of a given kind of period. -/
def stdDay (p : Period) (y m d : Int) : Date :=
  match p with
  | .year => ⟨y, 12, 31⟩
  | .month => ⟨y, m, monthLen y m⟩
  | .semiMonth => if d ≤ 15 then ⟨y, m, 15⟩ else ⟨y, m, monthLen y m⟩
  | .triMonth => if d ≤ 10 then ⟨y, m, 10⟩ else if d ≤ 20 then ⟨y, m, 20⟩ else ⟨y, m, monthLen y m⟩

theorem adjStd_date (p : Period) {y m d s : Int} (hy : 5 ≤ y) (h1 : 1 ≤ m) (h2 : m ≤ 12)
    (hd : 1 ≤ d) (hd2 : d ≤ monthLen y m) (hs1 : 1 ≤ s) (hs2 : s ≤ 86400) :
    ztsOffsetAdjustToStandard p.secs (yearMonthDayToJulian y m d) s =
      (ztsOffset p.secs (yearMonthDayToJulian y m d) s,
       yearMonthDayToJulian (stdDay p y m d).year (stdDay p y m d).month (stdDay p y m d).day,
       86400) := by
  have hy1 := ymdOf_date hy h1 h2 hd hd2
  have hc := cleanTime_normal (j := yearMonthDayToJulian y m d) hs1 hs2
  have he := ymd_eom hy h1 h2
  unfold ztsOffsetAdjustToStandard
  cases p <;>
    simp [hc, hy1, Period.secs, SECS_IN_1_WEEK, SECS_IN_1_MONTH, SECS_IN_TRI_MONTH,
      SECS_IN_SEMI_MONTH, SECS_IN_1_YEAR, SECS_IN_1_DAY, stdDay]
  · exact he
  · by_cases c : d ≤ 15
    · simp [c]
    · simp [c]; exact he
  · by_cases c : d ≤ 10
    · simp [c]
    · by_cases c2 : d ≤ 20
      · simp [c, c2]
      · simp [c, c2]; exact he

theorem stdDay_valid (p : Period) {y m d : Int} (h1 : 1 ≤ m) (h2 : m ≤ 12) :
    (stdDay p y m d).Valid ∧ (stdDay p y m d).year = y := by
  have hml := monthLen_ge y m
  have h31 : monthLen y 12 = 31 := by simp [monthLen]
  unfold Date.Valid
  cases p
  · simp [stdDay, h31]
  · simp only [stdDay]; exact ⟨⟨h1, h2, by omega, by omega⟩, trivial⟩
  · simp only [stdDay]; split <;> simp only <;> exact ⟨⟨h1, h2, by omega, by omega⟩, trivial⟩
  · simp only [stdDay]
    split
    · simp only; exact ⟨⟨h1, h2, by omega, by omega⟩, trivial⟩
    · split <;> simp only <;> exact ⟨⟨h1, h2, by omega, by omega⟩, trivial⟩

/-- A standard date. -/
def IsStd (p : Period) (d : Date) : Prop := d = stdDay p d.year d.month d.day

theorem offset_std (p : Period) {y m d s : Int} (hy : 5 ≤ y) (h1 : 1 ≤ m) (h2 : m ≤ 12)
    (hs1 : 1 ≤ s) (hs2 : s ≤ 86400) :
    ztsOffset p.secs (yearMonthDayToJulian (stdDay p y m d).year (stdDay p y m d).month
      (stdDay p y m d).day) s = 0 := by
  obtain ⟨⟨v1, v2, v3, v4⟩, hyr⟩ := stdDay_valid p (y := y) (m := m) (d := d) h1 h2
  have hy1 := ymdOf_date (by omega : 5 ≤ (stdDay p y m d).year) v1 v2 v3 v4
  have hc := cleanTime_normal (j := yearMonthDayToJulian (stdDay p y m d).year
    (stdDay p y m d).month (stdDay p y m d).day) hs1 hs2
  unfold ztsOffset
  have hmlv : (m = 2 ∧ 28 ≤ monthLen y m) ∨ (m ≠ 2 ∧ (monthLen y m = 30 ∨ monthLen y m = 31)) := by
    have := monthLen_ge y m
    by_cases hm : m = 2
    · left; exact ⟨hm, this⟩
    · right; refine ⟨hm, ?_⟩
      unfold monthLen; rw [if_neg hm]; split <;> omega
  simp only [hc, hy1]
  cases p
  · simp [Period.secs, SECS_IN_1_WEEK, SECS_IN_1_MONTH, SECS_IN_1_YEAR, SECS_IN_1_DAY, stdDay]
  · simp [Period.secs, SECS_IN_1_WEEK, SECS_IN_1_MONTH, SECS_IN_1_DAY, stdDay]
    rcases hmlv with ⟨hm, hl⟩ | ⟨hm, hl⟩
    · simp [hm]; intro a; exfalso; subst hm; omega
    · simp [hm]; intro a b; exfalso; omega
  · simp [Period.secs, SECS_IN_1_WEEK, SECS_IN_1_MONTH, SECS_IN_1_DAY, SECS_IN_TRI_MONTH,
      SECS_IN_SEMI_MONTH, stdDay]
    by_cases c : d ≤ 15
    · simp [c]
    · simp [c]
      rcases hmlv with ⟨hm, hl⟩ | ⟨hm, hl⟩
      · simp [hm]; intro a; exfalso; subst hm; omega
      · simp [hm]; intro a b; exfalso; omega
  · simp [Period.secs, SECS_IN_1_WEEK, SECS_IN_1_MONTH, SECS_IN_1_DAY, SECS_IN_TRI_MONTH, stdDay]
    by_cases c : d ≤ 10
    · simp [c]
    · simp [c]
      by_cases c2 : d ≤ 20
      · simp [c2]
      · simp [c2]
        rcases hmlv with ⟨hm, hl⟩ | ⟨hm, hl⟩
        · simp [hm]; intro a; exfalso; subst hm; omega
        · simp [hm]; intro a b; exfalso; omega

theorem semi_calc (y m d n : Int) (hd : d = 15 ∨ (28 ≤ d ∧ d ≤ 31)) :
    let r := incrementYMD 1296000 n y m d
    let I := 2 * (12 * y + (m - 1)) + (if d = 15 then 0 else 1) + n
    12 * r.1 + (r.2.1 - 1) = I / 2 ∧ r.2.2 = (if I % 2 = 0 then 15 else 28) := by
  intro r I
  have hr : r = incrementYMD 1296000 n y m d := rfl
  have hI : I = 2 * (12 * y + (m - 1)) + (if d = 15 then 0 else 1) + n := rfl
  clear_value r I
  have c1 : cdiv 1296000 SECS_IN_1_MINUTE = MINS_IN_SEMI_MONTH := by decide
  have c2 : ¬ (MINS_IN_SEMI_MONTH = MINS_IN_TRI_MONTH) := by decide
  unfold incrementYMD at hr
  simp only [c1, c2, if_true, if_false] at hr
  have hq : n = 2 * cdiv n 2 + (n - cdiv n 2 * 2) ∧ -1 ≤ n - cdiv n 2 * 2 ∧ n - cdiv n 2 * 2 ≤ 1 := by
    rw [cdiv_eq]; split <;> omega
  generalize hqq : cdiv n 2 = q at *
  rcases hd with h | h
  · rw [if_pos h] at hI
    subst h
    by_cases k1 : (15 : Int) + (n - q * 2) * 15 < 1
    · simp only [k1, if_true] at hr
      rw [hr]; simp only
      split <;> split <;> split <;> omega
    · have k2 : ¬ ((15 : Int) + (n - q * 2) * 15 > 31) := by omega
      simp only [k1, k2, if_false] at hr
      rw [hr]; simp only
      split <;> split <;> split <;> omega
  · rw [if_neg (by omega)] at hI
    have k1 : ¬ (d + (n - q * 2) * 15 < 1) := by omega
    simp only [k1, if_false] at hr
    by_cases k2 : d + (n - q * 2) * 15 > 31
    · simp only [k2, if_true] at hr
      rw [hr]; simp only
      split <;> split <;> split <;> omega
    · simp only [k2, if_false] at hr
      rw [hr]; simp only
      split <;> split <;> split <;> omega

theorem tri_calc (y m d n : Int) (hd : d = 10 ∨ d = 20 ∨ (28 ≤ d ∧ d ≤ 31)) :
    let r := incrementYMD 864000 n y m d
    let I := 3 * (12 * y + (m - 1)) + (if d = 10 then 0 else if d = 20 then 1 else 2) + n
    12 * r.1 + (r.2.1 - 1) = I / 3 ∧
      r.2.2 = (if I % 3 = 0 then 10 else if I % 3 = 1 then 20 else 28) := by
  intro r I
  have hr : r = incrementYMD 864000 n y m d := rfl
  have hI : I = 3 * (12 * y + (m - 1)) + (if d = 10 then 0 else if d = 20 then 1 else 2) + n := rfl
  clear_value r I
  have c1 : cdiv 864000 SECS_IN_1_MINUTE = MINS_IN_TRI_MONTH := by decide
  unfold incrementYMD at hr
  simp only [c1, if_true] at hr
  have hq : n = 3 * cdiv n 3 + (n - cdiv n 3 * 3) ∧ -2 ≤ n - cdiv n 3 * 3 ∧ n - cdiv n 3 * 3 ≤ 2 := by
    rw [cdiv_eq]; split <;> omega
  generalize hqq : cdiv n 3 = q at *
  have key : ∃ c : Int, (c = 0 ∨ c = 1 ∨ c = 2) ∧ I = 3 * (12 * y + (m - 1)) + c + n ∧
      ((c = 0 ∧ d = 10) ∨ (c = 1 ∧ d = 20) ∨ (c = 2 ∧ 28 ≤ d ∧ d ≤ 31)) := by
    rcases hd with h | h | h
    · rw [if_pos h] at hI; exact ⟨0, by omega, hI, by omega⟩
    · rw [if_neg (by omega), if_pos h] at hI; exact ⟨1, by omega, hI, by omega⟩
    · rw [if_neg (by omega), if_neg (by omega)] at hI; exact ⟨2, by omega, hI, by omega⟩
  obtain ⟨c, hc, hI2, hcd⟩ := key
  clear hI hd
  by_cases k1 : d + (n - q * 3) * 10 < 1
  · have k2 : ¬ (d + (n - q * 3) * 10 + 30 > 31) := by omega
    simp only [k1, k2, if_true, if_false] at hr
    rw [hr]; simp only
    split <;> split <;> (try split) <;> (try split) <;> (try split) <;> omega
  · simp only [k1, if_false] at hr
    by_cases k2 : d + (n - q * 3) * 10 > 31
    · simp only [k2, if_true] at hr
      rw [hr]; simp only
      split <;> split <;> (try split) <;> (try split) <;> (try split) <;> omega
    · simp only [k2, if_false] at hr
      rw [hr]; simp only
      split <;> split <;> (try split) <;> (try split) <;> (try split) <;> omega

/-- The last day of a period is a valid date, and is its own standard date. -/
theorem endDate_facts (p : Period) (i : Int) :
    (p.endDate i).Valid ∧
      p.endDate i = stdDay p (p.endDate i).year (p.endDate i).month (p.endDate i).day := by
  cases p
  · show Date.Valid ⟨i, 12, 31⟩ ∧ _
    unfold Date.Valid
    exact ⟨⟨by simp, by simp, by simp, by simp [monthLen]⟩, rfl⟩
  · show (lastDay i).Valid ∧ lastDay i = _
    have h1 := monthLen_ge (i / 12) (i % 12 + 1)
    unfold lastDay Date.Valid stdDay
    exact ⟨⟨by simp only; omega, by simp only; omega, by simp only; omega, by simp only; omega⟩, rfl⟩
  · have h1 := monthLen_ge (i / 2 / 12) (i / 2 % 12 + 1)
    by_cases hi : i % 2 = 0
    · have he : Period.semiMonth.endDate i = dayOfMonth (i / 2) 15 := if_pos hi
      rw [he]
      unfold dayOfMonth Date.Valid stdDay
      simp only
      exact ⟨⟨by omega, by omega, by omega, by omega⟩, by rw [if_pos (by omega)]⟩
    · have he : Period.semiMonth.endDate i = lastDay (i / 2) := if_neg hi
      rw [he]
      unfold lastDay Date.Valid stdDay
      simp only
      exact ⟨⟨by omega, by omega, by omega, by omega⟩, by rw [if_neg (by omega)]⟩
  · have h1 := monthLen_ge (i / 3 / 12) (i / 3 % 12 + 1)
    by_cases hi : i % 3 = 0
    · have he : Period.triMonth.endDate i = dayOfMonth (i / 3) 10 := if_pos hi
      rw [he]
      unfold dayOfMonth Date.Valid stdDay
      simp only
      exact ⟨⟨by omega, by omega, by omega, by omega⟩, by rw [if_pos (by omega)]⟩
    · by_cases hi1 : i % 3 = 1
      · have he : Period.triMonth.endDate i = dayOfMonth (i / 3) 20 := by
          show (if i % 3 = 0 then _ else if i % 3 = 1 then _ else _) = _
          rw [if_neg hi, if_pos hi1]
        rw [he]
        unfold dayOfMonth Date.Valid stdDay
        simp only
        exact ⟨⟨by omega, by omega, by omega, by omega⟩, by rw [if_neg (by omega), if_pos (by omega)]⟩
      · have he : Period.triMonth.endDate i = lastDay (i / 3) := by
          show (if i % 3 = 0 then _ else if i % 3 = 1 then _ else _) = _
          rw [if_neg hi, if_neg hi1]
        rw [he]
        unfold lastDay Date.Valid stdDay
        simp only
        exact ⟨⟨by omega, by omega, by omega, by omega⟩, by rw [if_neg (by omega), if_neg (by omega)]⟩

/-- The date computed by `incrementYMD` falls in the right period. -/
theorem incrementYMD_end (p : Period) (i n : Int) :
    let e := p.endDate i
    let r := incrementYMD p.secs n e.year e.month e.day
    let K := 12 * r.1 + (r.2.1 - 1)
    1 ≤ r.2.2 ∧ r.2.2 ≤ monthLen (K / 12) (K % 12 + 1) ∧
    stdDay p (K / 12) (K % 12 + 1) r.2.2 = p.endDate (i + n) := by
  cases p
  · simp [Period.endDate, Period.secs, incrementYMD, cdiv_eq, SECS_IN_1_MINUTE, MINS_IN_TRI_MONTH,
      MINS_IN_SEMI_MONTH, MINS_IN_1_MONTH, MINS_IN_1_DAY, MINS_IN_1_YEAR, stdDay]
    refine ⟨by simp [monthLen], by omega⟩
  · intro e r K
    have hr : r = (i / 12, i % 12 + 1 + n, 28) := by
      show incrementYMD _ n (i / 12) (i % 12 + 1) _ = _
      simp [Period.secs, incrementYMD, cdiv_eq, SECS_IN_1_MINUTE, MINS_IN_TRI_MONTH,
        MINS_IN_SEMI_MONTH, MINS_IN_1_MONTH, MINS_IN_1_DAY]
    have hK : K = i + n := by
      show 12 * r.1 + (r.2.1 - 1) = i + n
      rw [hr]; simp only; omega
    rw [hK, hr]
    exact ⟨by simp only; omega, by have := monthLen_ge ((i + n) / 12) ((i + n) % 12 + 1); simp only; omega, rfl⟩
  · intro e r K
    have h1 := monthLen_ge (i / 2 / 12) (i / 2 % 12 + 1)
    have h2 := monthLen_le (i / 2 / 12) (i / 2 % 12 + 1)
    have he : e.year = i / 2 / 12 ∧ e.month = i / 2 % 12 + 1 ∧ ((i % 2 = 0 ∧ e.day = 15) ∨
        (i % 2 = 1 ∧ 28 ≤ e.day ∧ e.day ≤ 31)) := by
      by_cases hi : i % 2 = 0
      · have hedef : e = dayOfMonth (i / 2) 15 := if_pos hi
        rw [hedef]
        exact ⟨rfl, rfl, Or.inl ⟨hi, rfl⟩⟩
      · have hedef : e = lastDay (i / 2) := if_neg hi
        rw [hedef]
        exact ⟨rfl, rfl, Or.inr ⟨by omega, h1, h2⟩⟩
    have hc := semi_calc e.year e.month e.day n (by omega)
    have hI : 2 * (12 * e.year + (e.month - 1)) + (if e.day = 15 then 0 else 1) + n = i + n := by
      split <;> omega
    simp only [hI] at hc
    have hK : K = (i + n) / 2 := hc.1
    have hr : r.2.2 = (if (i + n) % 2 = 0 then 15 else 28) := hc.2
    rw [hK, hr]
    have h3 := monthLen_ge ((i + n) / 2 / 12) ((i + n) / 2 % 12 + 1)
    by_cases hp : (i + n) % 2 = 0
    · rw [if_pos hp]
      refine ⟨by omega, by omega, ?_⟩
      show _ = (if (i + n) % 2 = 0 then _ else _)
      rw [if_pos hp]
      simp [stdDay, dayOfMonth]
    · rw [if_neg hp]
      refine ⟨by omega, by omega, ?_⟩
      show _ = (if (i + n) % 2 = 0 then _ else _)
      rw [if_neg hp]
      simp [stdDay, lastDay]
  · intro e r K
    have h1 := monthLen_ge (i / 3 / 12) (i / 3 % 12 + 1)
    have h2 := monthLen_le (i / 3 / 12) (i / 3 % 12 + 1)
    have he : e.year = i / 3 / 12 ∧ e.month = i / 3 % 12 + 1 ∧ ((i % 3 = 0 ∧ e.day = 10) ∨
        (i % 3 = 1 ∧ e.day = 20) ∨ (i % 3 = 2 ∧ 28 ≤ e.day ∧ e.day ≤ 31)) := by
      by_cases hi : i % 3 = 0
      · have hedef : e = dayOfMonth (i / 3) 10 := if_pos hi
        rw [hedef]
        exact ⟨rfl, rfl, Or.inl ⟨hi, rfl⟩⟩
      · by_cases hi1 : i % 3 = 1
        · have hedef : e = dayOfMonth (i / 3) 20 := by
            show (if i % 3 = 0 then _ else if i % 3 = 1 then _ else _) = _
            rw [if_neg hi, if_pos hi1]
          rw [hedef]
          exact ⟨rfl, rfl, Or.inr (Or.inl ⟨hi1, rfl⟩)⟩
        · have hedef : e = lastDay (i / 3) := by
            show (if i % 3 = 0 then _ else if i % 3 = 1 then _ else _) = _
            rw [if_neg hi, if_neg hi1]
          rw [hedef]
          exact ⟨rfl, rfl, Or.inr (Or.inr ⟨by omega, h1, h2⟩)⟩
    have hc := tri_calc e.year e.month e.day n (by omega)
    have hI : 3 * (12 * e.year + (e.month - 1)) +
        (if e.day = 10 then 0 else if e.day = 20 then 1 else 2) + n = i + n := by
      split
      · omega
      · split <;> omega
    simp only [hI] at hc
    have hK : K = (i + n) / 3 := hc.1
    have hr : r.2.2 = (if (i + n) % 3 = 0 then 10 else if (i + n) % 3 = 1 then 20 else 28) := hc.2
    rw [hK, hr]
    have h3 := monthLen_ge ((i + n) / 3 / 12) ((i + n) / 3 % 12 + 1)
    by_cases hp : (i + n) % 3 = 0
    · rw [if_pos hp]
      refine ⟨by omega, by omega, ?_⟩
      show _ = (if (i + n) % 3 = 0 then _ else _)
      rw [if_pos hp]
      simp [stdDay, dayOfMonth]
    · rw [if_neg hp]
      by_cases hp1 : (i + n) % 3 = 1
      · rw [if_pos hp1]
        refine ⟨by omega, by omega, ?_⟩
        show _ = (if (i + n) % 3 = 0 then _ else if (i + n) % 3 = 1 then _ else _)
        rw [if_neg hp, if_pos hp1]
        simp [stdDay, dayOfMonth]
      · rw [if_neg hp1]
        refine ⟨by omega, by omega, ?_⟩
        show _ = (if (i + n) % 3 = 0 then _ else if (i + n) % 3 = 1 then _ else _)
        rw [if_neg hp, if_neg hp1]
        simp [stdDay, lastDay]

/-- Day number of a date. -/
def jul (d : Date) : Int := yearMonthDayToJulian d.year d.month d.day

/-- From a date of period `i` and any time of day, the standard increment gives the end of period
`i + n`. -/
theorem standard_step (p : Period) (i n : Int) {y m d s : Int} (hy : 5 ≤ y) (h1 : 1 ≤ m)
    (h2 : m ≤ 12) (hd : 1 ≤ d) (hd2 : d ≤ monthLen y m) (hs1 : 1 ≤ s) (hs2 : s ≤ 86400)
    (hi : stdDay p y m d = p.endDate i) (hy2 : 5 ≤ (p.endDate (i + n)).year) :
    let a := ztsOffsetAdjustToStandard p.secs (yearMonthDayToJulian y m d) s
    let ymd := ymdOf a.2.1
    let r := incrementYMD p.secs n ymd.1 ymd.2.1 ymd.2.2
    a.2 = (jul (p.endDate i), 86400) ∧
    ∃ D : Date, D.Valid ∧ 5 ≤ D.year ∧ stdDay p D.year D.month D.day = p.endDate (i + n) ∧
      yearMonthDayToJulian r.1 r.2.1 r.2.2 = jul D := by
  have ha := adjStd_date p hy h1 h2 hd hd2 hs1 hs2
  obtain ⟨⟨v1, v2, v3, v4⟩, hyr⟩ := stdDay_valid p (y := y) (m := m) (d := d) h1 h2
  rw [hi] at ha v1 v2 v3 v4 hyr
  intro a ymd r
  have hymd : ymd = ((p.endDate i).year, (p.endDate i).month, (p.endDate i).day) := by
    show ymdOf (ztsOffsetAdjustToStandard p.secs (yearMonthDayToJulian y m d) s).2.1 = _
    rw [ha]
    exact ymdOf_date (by omega) v1 v2 v3 v4
  refine ⟨by show (ztsOffsetAdjustToStandard p.secs (yearMonthDayToJulian y m d) s).2 = _; rw [ha]; rfl, ?_⟩
  have hinc := incrementYMD_end p i n
  have hr : r = incrementYMD p.secs n (p.endDate i).year (p.endDate i).month (p.endDate i).day := by
    show incrementYMD p.secs n ymd.1 ymd.2.1 ymd.2.2 = _
    rw [hymd]
  simp only [← hr] at hinc
  clear_value r
  have hyK : (12 * r.1 + (r.2.1 - 1)) / 12 = (p.endDate (i + n)).year := by
    have := (stdDay_valid p (y := (12 * r.1 + (r.2.1 - 1)) / 12)
      (m := (12 * r.1 + (r.2.1 - 1)) % 12 + 1) (d := r.2.2) (by omega) (by omega)).2
    rw [hinc.2.2] at this
    exact this.symm
  refine ⟨⟨(12 * r.1 + (r.2.1 - 1)) / 12, (12 * r.1 + (r.2.1 - 1)) % 12 + 1, r.2.2⟩, ?_, ?_,
    hinc.2.2, ?_⟩
  · unfold Date.Valid
    exact ⟨by simp only; omega, by simp only; omega, hinc.1, hinc.2.1⟩
  · simp only; omega
  · rw [ymd_index]; rfl

/-- A standard time is its own standard time and has no offset. -/
theorem adjStd_end (p : Period) (i : Int) {D : Date} (hv : D.Valid)
    (hy2 : 5 ≤ D.year) (hD : stdDay p D.year D.month D.day = p.endDate i) {s : Int} (hs1 : 1 ≤ s)
    (hs2 : s ≤ 86400) :
    (ztsOffsetAdjustToStandard p.secs (jul D) s).2 = (jul (p.endDate i), 86400) := by
  have := adjStd_date p hy2 hv.1 hv.2.1 hv.2.2.1 hv.2.2.2 hs1 hs2
  unfold jul
  rw [this, hD]

theorem offset_end (p : Period) (i : Int) (hy : 5 ≤ (p.endDate i).year) {s : Int} (hs1 : 1 ≤ s)
    (hs2 : s ≤ 86400) : ztsOffset p.secs (jul (p.endDate i)) s = 0 := by
  obtain ⟨hv, he⟩ := endDate_facts p i
  have := offset_std p (d := (p.endDate i).day) hy hv.1 hv.2.1 hs1 hs2
  rw [← he] at this
  exact this

/-- End of period to end of period. -/
theorem incrementStandard_end (p : Period) (i n : Int) (hy : 5 ≤ (p.endDate i).year)
    (hy2 : 5 ≤ (p.endDate (i + n)).year) :
    incrementStandard p.secs n (jul (p.endDate i)) 86400 = (jul (p.endDate (i + n)), 86400) := by
  obtain ⟨hv, he⟩ := endDate_facts p i
  obtain ⟨h1, D, hDv, hDy, hDs, hDj⟩ := standard_step p i n (s := 86400) hy hv.1 hv.2.1 hv.2.2.1
    hv.2.2.2 (by omega) (by omega) he.symm hy2
  change (ztsOffsetAdjustToStandard p.secs (jul (p.endDate i)) 86400).2 = _ at h1
  unfold incrementStandard
  simp only
  have e2 : (ztsOffsetAdjustToStandard p.secs (jul (p.endDate i)) 86400).2.2 = 86400 := by rw [h1]
  rw [e2]
  rw [show yearMonthDayToJulian (p.endDate i).year (p.endDate i).month (p.endDate i).day =
    jul (p.endDate i) from rfl] at hDj
  rw [hDj]
  exact adjStd_end p (i + n) hDv hDy hDs (by omega) (by omega)

theorem secs_ge (p : Period) : ¬ p.secs < 1 ∧ ¬ p.secs < SECS_IN_TRI_MONTH := by
  cases p <;> decide

theorem incrementTime_end (p : Period) (i n : Int) (hy : 5 ≤ (p.endDate i).year)
    (hy2 : 5 ≤ (p.endDate (i + n)).year) :
    incrementTime p.secs n (jul (p.endDate i)) 86400 = (jul (p.endDate (i + n)), 86400) := by
  obtain ⟨hv, he⟩ := endDate_facts p i
  have ho := offset_end p i hy (s := 86400) (by omega) (by omega)
  have ha := adjStd_date p (s := 86400) hy hv.1 hv.2.1 hv.2.2.1 hv.2.2.2 (by omega) (by omega)
  have h0 : (ztsOffsetAdjustToStandard p.secs (jul (p.endDate i)) 86400).1 = 0 := by
    unfold jul; rw [ha]; exact ho
  have := incrementStandard_end p i n hy hy2
  unfold incrementStandard at this
  unfold incrementTime
  rw [if_neg (secs_ge p).1, if_neg (secs_ge p).2]
  simp only [h0]
  simp only [ne_eq, not_true_eq_false, if_false]
  exact this

/-- Number of the period that contains a date. -/
def periodOf (p : Period) (y m d : Int) : Int :=
  match p with
  | .year => y
  | .month => 12 * y + (m - 1)
  | .semiMonth => 2 * (12 * y + (m - 1)) + (if d ≤ 15 then 0 else 1)
  | .triMonth => 3 * (12 * y + (m - 1)) + (if d ≤ 10 then 0 else if d ≤ 20 then 1 else 2)

theorem idx_split {y m : Int} (h1 : 1 ≤ m) (h2 : m ≤ 12) :
    (12 * y + (m - 1)) / 12 = y ∧ (12 * y + (m - 1)) % 12 + 1 = m := by omega

theorem stdDay_endDate (p : Period) {y m : Int} (d : Int) (h1 : 1 ≤ m) (h2 : m ≤ 12) :
    stdDay p y m d = p.endDate (periodOf p y m d) := by
  obtain ⟨e1, e2⟩ := idx_split (y := y) h1 h2
  cases p
  · rfl
  · show _ = lastDay (12 * y + (m - 1))
    unfold lastDay
    rw [e1, e2]
    rfl
  · by_cases h : d ≤ 15
    · have hp : periodOf .semiMonth y m d = 2 * (12 * y + (m - 1)) + 0 := by
        show 2 * (12 * y + (m - 1)) + (if d ≤ 15 then 0 else 1) = _
        rw [if_pos h]
      rw [hp]
      show (if d ≤ 15 then _ else _) = (if _ then dayOfMonth _ _ else _)
      rw [if_pos h, if_pos (by omega)]
      unfold dayOfMonth
      rw [show (2 * (12 * y + (m - 1)) + 0) / 2 = 12 * y + (m - 1) by omega, e1, e2]
    · have hp : periodOf .semiMonth y m d = 2 * (12 * y + (m - 1)) + 1 := by
        show 2 * (12 * y + (m - 1)) + (if d ≤ 15 then 0 else 1) = _
        rw [if_neg h]
      rw [hp]
      show (if d ≤ 15 then _ else _) = (if _ then dayOfMonth _ _ else lastDay _)
      rw [if_neg h, if_neg (by omega)]
      unfold lastDay
      rw [show (2 * (12 * y + (m - 1)) + 1) / 2 = 12 * y + (m - 1) by omega, e1, e2]
  · by_cases h : d ≤ 10
    · have hp : periodOf .triMonth y m d = 3 * (12 * y + (m - 1)) + 0 := by
        show 3 * (12 * y + (m - 1)) + (if d ≤ 10 then 0 else if d ≤ 20 then 1 else 2) = _
        rw [if_pos h]
      rw [hp]
      show (if d ≤ 10 then _ else if d ≤ 20 then _ else _) =
        (if _ then dayOfMonth _ _ else if _ then dayOfMonth _ _ else lastDay _)
      rw [if_pos h, if_pos (by omega)]
      unfold dayOfMonth
      rw [show (3 * (12 * y + (m - 1)) + 0) / 3 = 12 * y + (m - 1) by omega, e1, e2]
    · by_cases h' : d ≤ 20
      · have hp : periodOf .triMonth y m d = 3 * (12 * y + (m - 1)) + 1 := by
          show 3 * (12 * y + (m - 1)) + (if d ≤ 10 then 0 else if d ≤ 20 then 1 else 2) = _
          rw [if_neg h, if_pos h']
        rw [hp]
        show (if d ≤ 10 then _ else if d ≤ 20 then _ else _) =
          (if _ then dayOfMonth _ _ else if _ then dayOfMonth _ _ else lastDay _)
        rw [if_neg h, if_pos h', if_neg (by omega), if_pos (by omega)]
        unfold dayOfMonth
        rw [show (3 * (12 * y + (m - 1)) + 1) / 3 = 12 * y + (m - 1) by omega, e1, e2]
      · have hp : periodOf .triMonth y m d = 3 * (12 * y + (m - 1)) + 2 := by
          show 3 * (12 * y + (m - 1)) + (if d ≤ 10 then 0 else if d ≤ 20 then 1 else 2) = _
          rw [if_neg h, if_neg h']
        rw [hp]
        show (if d ≤ 10 then _ else if d ≤ 20 then _ else _) =
          (if _ then dayOfMonth _ _ else if _ then dayOfMonth _ _ else lastDay _)
        rw [if_neg h, if_neg h', if_neg (by omega), if_neg (by omega)]
        unfold lastDay
        rw [show (3 * (12 * y + (m - 1)) + 2) / 3 = 12 * y + (m - 1) by omega, e1, e2]

theorem semi_even {i : Int} (K : Int) (h : i = 2 * K) :
    Period.semiMonth.endDate i = dayOfMonth K 15 := by
  have e : i / 2 = K := by omega
  simp only [Period.endDate, e]
  rw [if_pos (by omega)]

theorem semi_odd {i : Int} (K : Int) (h : i = 2 * K + 1) :
    Period.semiMonth.endDate i = lastDay K := by
  have e : i / 2 = K := by omega
  simp only [Period.endDate, e]
  rw [if_neg (by omega)]

theorem tri_zero {i : Int} (K : Int) (h : i = 3 * K) :
    Period.triMonth.endDate i = dayOfMonth K 10 := by
  have e : i / 3 = K := by omega
  simp only [Period.endDate, e]
  rw [if_pos (by omega)]

theorem tri_one {i : Int} (K : Int) (h : i = 3 * K + 1) :
    Period.triMonth.endDate i = dayOfMonth K 20 := by
  have e : i / 3 = K := by omega
  simp only [Period.endDate, e]
  rw [if_neg (by omega), if_pos (by omega)]

theorem tri_two {i : Int} (K : Int) (h : i = 3 * K + 2) :
    Period.triMonth.endDate i = lastDay K := by
  have e : i / 3 = K := by omega
  simp only [Period.endDate, e]
  rw [if_neg (by omega), if_neg (by omega)]

/-- The day number grows with the day of the month. -/
theorem ymd_day (y m d : Int) :
    yearMonthDayToJulian y m d = yearMonthDayToJulian y m 1 + (d - 1) := by
  unfold yearMonthDayToJulian
  have h : ¬ ((fixMonth y m).2 < 1 ∨ (fixMonth y m).2 > 12) := by
    rw [fixMonth_eq]; simp only; omega
  simp only [h, if_false]
  omega

/-- Last day of the previous month is the day before the first. -/
theorem jul_lastDay_pred (K : Int) (hy : 5 ≤ (K - 1) / 12) :
    jul (lastDay (K - 1)) = jul (dayOfMonth K 1) - 1 := by
  have := ymd_eom (y := (K - 1) / 12) (m := (K - 1) % 12 + 1) hy (by omega) (by omega)
  unfold jul lastDay dayOfMonth
  simp only
  rw [← this, ymd_index ((K - 1) / 12) ((K - 1) % 12 + 1 + 1) 1]
  have e : 12 * ((K - 1) / 12) + ((K - 1) % 12 + 1 + 1 - 1) = K := by omega
  rw [e]

/-- Days the library takes for the end of a period: the last two days of months of 31 days, 30
for shorter ones, 28 and 29 February, and the day before the 10th, 20th or 15th. -/
def NearEnd (p : Period) (m d : Int) : Prop :=
  match p with
  | .year => m = 12 ∧ d = 31
  | .month => (m ≠ 2 ∧ 30 ≤ d) ∨ (m = 2 ∧ 28 ≤ d)
  | .semiMonth => (m ≠ 2 ∧ 30 ≤ d) ∨ (m = 2 ∧ 28 ≤ d) ∨ d = 14 ∨ d = 15
  | .triMonth => (m ≠ 2 ∧ 30 ≤ d) ∨ (m = 2 ∧ 28 ≤ d) ∨ d = 9 ∨ d = 10 ∨ d = 19 ∨ d = 20

/-- Offset of a time inside a month, semi-month or tri-month: seconds since the end of the
previous period. -/
theorem offset_inside (p : Period) (hp : p ≠ .year) {y m d s : Int} (hy : 6 ≤ y) (h1 : 1 ≤ m)
    (h2 : m ≤ 12) (hd : 1 ≤ d) (hd2 : d ≤ monthLen y m) (hs1 : 1 ≤ s) (hs2 : s ≤ 86400)
    (hn : ¬ NearEnd p m d) :
    ztsOffset p.secs (yearMonthDayToJulian y m d) s =
      (yearMonthDayToJulian y m d * 86400 + s) -
        (jul (p.endDate (periodOf p y m d - 1)) + 1) * 86400 := by
  have hymd := ymdOf_date (by omega : 5 ≤ y) h1 h2 hd hd2
  have hc := cleanTime_normal (j := yearMonthDayToJulian y m d) hs1 hs2
  have hml := monthLen_le y m
  obtain ⟨e1, e2⟩ := idx_split (y := y) h1 h2
  have hprev : jul (lastDay (12 * y + (m - 1) - 1)) = yearMonthDayToJulian y m 1 - 1 := by
    rw [jul_lastDay_pred _ (by omega)]
    unfold jul dayOfMonth
    rw [e1, e2]
  have hcase : ¬ (m ≠ 2 ∧ (d = 30 ∨ d = 31)) ∧ ¬ (m = 2 ∧ d ≥ 28) := by
    cases p
    · exact absurd rfl hp
    · change ¬ (_ ∨ _) at hn; omega
    · change ¬ (_ ∨ _) at hn; omega
    · change ¬ (_ ∨ _) at hn; omega
  have hdd := ymd_day y m d
  unfold ztsOffset
  rw [hc]
  simp only [hymd, hcase.1, hcase.2]
  cases p
  · exact absurd rfl hp
  · have : periodOf .month y m d - 1 = 12 * y + (m - 1) - 1 := rfl
    rw [this]
    change _ = _ - (jul (lastDay _) + 1) * 86400
    rw [hprev]
    simp [Period.secs, SECS_IN_1_DAY, SECS_IN_1_WEEK, SECS_IN_1_MONTH, SECS_IN_TRI_MONTH,
      SECS_IN_SEMI_MONTH]
    omega
  · change ¬ (_ ∨ _) at hn
    by_cases h : d ≤ 15
    · have hpe : jul (Period.semiMonth.endDate (periodOf .semiMonth y m d - 1)) =
          yearMonthDayToJulian y m 1 - 1 := by
        rw [← hprev]
        have : periodOf .semiMonth y m d - 1 = 2 * (12 * y + (m - 1)) - 1 := by
          show 2 * (12 * y + (m - 1)) + (if d ≤ 15 then 0 else 1) - 1 = _
          rw [if_pos h]; omega
        rw [semi_odd (12 * y + (m - 1) - 1) (by omega)]
      rw [hpe]
      have k1 : ¬ (d = 14 ∨ d = 15) := by omega
      have k2 : ¬ (d > 15) := by omega
      simp only [Period.secs, SECS_IN_1_DAY, SECS_IN_1_WEEK, SECS_IN_1_MONTH, SECS_IN_TRI_MONTH,
        SECS_IN_SEMI_MONTH, k1, k2]
      simp
      omega
    · have hpe : jul (Period.semiMonth.endDate (periodOf .semiMonth y m d - 1)) =
          yearMonthDayToJulian y m 1 + 14 := by
        have : periodOf .semiMonth y m d - 1 = 2 * (12 * y + (m - 1)) := by
          show 2 * (12 * y + (m - 1)) + (if d ≤ 15 then 0 else 1) - 1 = _
          rw [if_neg h]; omega
        rw [semi_even (12 * y + (m - 1)) this]
        unfold jul dayOfMonth
        simp only
        rw [e1, e2, ymd_day]
        omega
      rw [hpe]
      have k1 : ¬ (d = 14 ∨ d = 15) := by omega
      have k2 : d > 15 := by omega
      have := ymd_day y m (d - 15)
      simp only [Period.secs, SECS_IN_1_DAY, SECS_IN_1_WEEK, SECS_IN_1_MONTH, SECS_IN_TRI_MONTH,
        SECS_IN_SEMI_MONTH, k1, k2]
      simp
      omega
  · change ¬ (_ ∨ _) at hn
    have k1 : ¬ (d = 9 ∨ d = 10) := by omega
    have k3 : ¬ (d = 19 ∨ d = 20) := by omega
    by_cases h : d ≤ 10
    · have hpe : jul (Period.triMonth.endDate (periodOf .triMonth y m d - 1)) =
          yearMonthDayToJulian y m 1 - 1 := by
        rw [← hprev]
        have : periodOf .triMonth y m d - 1 = 3 * (12 * y + (m - 1)) - 1 := by
          show 3 * (12 * y + (m - 1)) + (if d ≤ 10 then 0 else if d ≤ 20 then 1 else 2) - 1 = _
          rw [if_pos h]; omega
        rw [tri_two (12 * y + (m - 1) - 1) (by omega)]
      rw [hpe]
      have k2 : ¬ (d > 20) := by omega
      have k4 : ¬ (d > 10) := by omega
      simp only [Period.secs, SECS_IN_1_DAY, SECS_IN_1_WEEK, SECS_IN_1_MONTH, SECS_IN_TRI_MONTH,
        SECS_IN_SEMI_MONTH, k1, k2, k3, k4]
      simp
      omega
    · by_cases h' : d ≤ 20
      · have hpe : jul (Period.triMonth.endDate (periodOf .triMonth y m d - 1)) =
            yearMonthDayToJulian y m 1 + 9 := by
          have : periodOf .triMonth y m d - 1 = 3 * (12 * y + (m - 1)) := by
            show 3 * (12 * y + (m - 1)) + (if d ≤ 10 then 0 else if d ≤ 20 then 1 else 2) - 1 = _
            rw [if_neg h, if_pos h']; omega
          rw [tri_zero (12 * y + (m - 1)) this]
          unfold jul dayOfMonth
          simp only
          rw [e1, e2, ymd_day]
          omega
        rw [hpe]
        have k2 : ¬ (d > 20) := by omega
        have k4 : d > 10 := by omega
        have := ymd_day y m (d - 10)
        simp only [Period.secs, SECS_IN_1_DAY, SECS_IN_1_WEEK, SECS_IN_1_MONTH, SECS_IN_TRI_MONTH,
          SECS_IN_SEMI_MONTH, k1, k2, k3, k4]
        simp
        omega
      · have hpe : jul (Period.triMonth.endDate (periodOf .triMonth y m d - 1)) =
            yearMonthDayToJulian y m 1 + 19 := by
          have : periodOf .triMonth y m d - 1 = 3 * (12 * y + (m - 1)) + 1 := by
            show 3 * (12 * y + (m - 1)) + (if d ≤ 10 then 0 else if d ≤ 20 then 1 else 2) - 1 = _
            rw [if_neg h, if_neg h']; omega
          rw [tri_one (12 * y + (m - 1)) this]
          unfold jul dayOfMonth
          simp only
          rw [e1, e2, ymd_day]
          omega
        rw [hpe]
        have k2 : d > 20 := by omega
        have := ymd_day y m (d - 20)
        simp only [Period.secs, SECS_IN_1_DAY, SECS_IN_1_WEEK, SECS_IN_1_MONTH, SECS_IN_TRI_MONTH,
          SECS_IN_SEMI_MONTH, k1, k2, k3]
        simp
        omega

/-- Offset of a time inside a year: seconds since the end of the previous year, with the leap day
left out. -/
theorem offset_inside_year {y m d s : Int} (hy : 6 ≤ y) (h1 : 1 ≤ m)
    (h2 : m ≤ 12) (hd : 1 ≤ d) (hd2 : d ≤ monthLen y m) (hs1 : 1 ≤ s) (hs2 : s ≤ 86400)
    (hn : ¬ NearEnd .year m d) :
    ztsOffset Period.year.secs (yearMonthDayToJulian y m d) s =
      (NDAY m + d - 1) * 86400 + s := by
  have hymd := ymdOf_date (by omega : 5 ≤ y) h1 h2 hd hd2
  have hc := cleanTime_normal (j := yearMonthDayToJulian y m d) hs1 hs2
  have f1 := ymd_formula d (by omega : 5 ≤ y) h1 h2
  have f2 := jan1_formula (by omega : 5 ≤ y)
  change ¬ (m = 12 ∧ d = 31) at hn
  unfold ztsOffset
  rw [hc]
  have hl : (if isLeapYear y = true then
      if y > 0 then if m > 2 then (1:Int) else 0 else if m > 2 then -1 else 0 else 0) =
      (if leap y ∧ 2 < m then (1:Int) else 0) := by
    by_cases hly : leap y
    · rw [if_pos ((isLeapYear_iff y).2 hly), if_pos (by omega)]
      simp [hly]
    · have : ¬ isLeapYear y = true := fun h => hly ((isLeapYear_iff y).1 h)
      rw [if_neg this]
      simp [hly]
  simp only [hymd, hn, hl]
  simp [Period.secs, SECS_IN_1_DAY, SECS_IN_1_WEEK, SECS_IN_1_MONTH, SECS_IN_1_YEAR]
  rw [f1, f2]
  generalize (if leap y ∧ 2 < m then (1:Int) else 0) = l
  omega

/-- Going to an offset from any date of period `i`. -/
theorem toOffset_eq (p : Period) (i off : Int) (hoff : off ≠ 0) {D : Date} (hv : D.Valid)
    (hy : 5 ≤ D.year) (hD : stdDay p D.year D.month D.day = p.endDate i)
    (hyi : 5 ≤ (p.endDate i).year) (hyp : 5 ≤ (p.endDate (i - 1)).year) {s : Int} (hs1 : 1 ≤ s)
    (hs2 : s ≤ 86400) :
    ztsOffsetAdjustToOffset off p.secs (jul D) s =
      (leapAdjust p.secs (cleanTime (jul (p.endDate (i - 1))) (86400 + off) 1).1,
        (cleanTime (jul (p.endDate (i - 1))) (86400 + off) 1).2) := by
  have h1 := adjStd_end p i hv hy hD hs1 hs2
  have h2 := incrementStandard_end p i (-1) hyi hyp
  unfold ztsOffsetAdjustToOffset
  rw [if_neg (secs_ge p).1]
  simp only [h1, if_neg hoff, if_neg (secs_ge p).2]
  rw [h2]
  rfl

/-- Incrementing a time with an offset. -/
theorem incrementTime_offset (p : Period) (n : Int) {y m d s : Int} (hy : 5 ≤ y) (h1 : 1 ≤ m)
    (h2 : m ≤ 12) (hd : 1 ≤ d) (hd2 : d ≤ monthLen y m) (hs1 : 1 ≤ s) (hs2 : s ≤ 86400)
    (hoff : ztsOffset p.secs (yearMonthDayToJulian y m d) s ≠ 0)
    (hyi : 5 ≤ (p.endDate (periodOf p y m d + n)).year)
    (hyp : 5 ≤ (p.endDate (periodOf p y m d + n - 1)).year) :
    incrementTime p.secs n (yearMonthDayToJulian y m d) s =
      (leapAdjust p.secs (cleanTime (jul (p.endDate (periodOf p y m d + n - 1)))
        (86400 + ztsOffset p.secs (yearMonthDayToJulian y m d) s) 1).1,
        (cleanTime (jul (p.endDate (periodOf p y m d + n - 1)))
          (86400 + ztsOffset p.secs (yearMonthDayToJulian y m d) s) 1).2) := by
  obtain ⟨g1, D, hDv, hDy, hDs, hDj⟩ := standard_step p (periodOf p y m d) n (s := s) hy h1 h2 hd
    hd2 hs1 hs2 (stdDay_endDate p d h1 h2) hyi
  have ha := adjStd_date p hy h1 h2 hd hd2 hs1 hs2
  have h0 : (ztsOffsetAdjustToStandard p.secs (yearMonthDayToJulian y m d) s).1 =
      ztsOffset p.secs (yearMonthDayToJulian y m d) s := by rw [ha]
  have hs : (ztsOffsetAdjustToStandard p.secs (yearMonthDayToJulian y m d) s).2.2 = 86400 := by
    rw [ha]
  have h := toOffset_eq p (periodOf p y m d + n)
    (ztsOffset p.secs (yearMonthDayToJulian y m d) s) hoff hDv hDy hDs hyi hyp (s := 86400)
    (by omega) (by omega)
  unfold incrementTime
  rw [if_neg (secs_ge p).1, if_neg (secs_ge p).2]
  simp only [h0, hs]
  rw [if_pos hoff, hDj]
  exact h

/-- Day number of the last day of a period, above the undefined date. -/
theorem jul_endDate_lower (p : Period) (i : Int) (hy : 5 ≤ (p.endDate i).year) :
    -693960 < jul (p.endDate i) := by
  obtain ⟨hv, -⟩ := endDate_facts p i
  exact ymd_lower hy hv.1 hv.2.1 hv.2.2.1

end Hec
