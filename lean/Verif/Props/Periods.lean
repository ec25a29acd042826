import Verif.Proofs.Periods
import Verif.Spec.Blocks
import Verif.Spec.Times
import Verif.Props.Calendar
/-!
Property theorems for months, years and blocks: C09, C10, C11 (calendar intervals), C12.
-/
namespace Hec
open Spec

/-! ### C09 -/

/-- C09. From the end of one period (year, month, semi-month or tri-month), `n` periods later (or
earlier) is the end of the `n`-th following period. -/
theorem C09_end_of_period (p : Period) (i n : Int) (hy : 5 ≤ (p.endDate i).year)
    (hy2 : 5 ≤ (p.endDate (i + n)).year) :
    incrementTime p.secs n (julianOf (p.endDate i)) 86400 =
      (julianOf (p.endDate (i + n)), 86400) :=
  incrementTime_end p i n hy hy2

example : Period.month.endDate (12 * 2000 + 0) = ⟨2000, 1, 31⟩ ∧
    Period.month.endDate (12 * 2000 + 0 + 1) = ⟨2000, 2, 29⟩ := by decide

/-- C09. Increments between ends of periods compose additively. -/
theorem C09_compose (p : Period) (i n k : Int) (hy : 5 ≤ (p.endDate i).year)
    (hy2 : 5 ≤ (p.endDate (i + n)).year) (hy3 : 5 ≤ (p.endDate (i + (n + k))).year) :
    let r := incrementTime p.secs n (julianOf (p.endDate i)) 86400
    incrementTime p.secs k r.1 r.2 = incrementTime p.secs (n + k) (julianOf (p.endDate i)) 86400 := by
  intro r
  have hr : r = (julianOf (p.endDate (i + n)), 86400) := C09_end_of_period p i n hy hy2
  have e : i + n + k = i + (n + k) := by omega
  rw [hr, C09_end_of_period p i (n + k) hy hy3]
  simp only
  rw [C09_end_of_period p (i + n) k hy2 (by rw [e]; exact hy3), e]

example : Period.triMonth.endDate (36 * 2001 + 2) = ⟨2001, 1, 31⟩ ∧
    Period.triMonth.endDate (36 * 2001 + 2 + (-1 + 5)) = ⟨2001, 3, 10⟩ := by decide

/-- C09, monthly data at another day of the month: day (up to the 27th) and time of day are kept. -/
theorem C09_month_offset_partial (y m d s n : Int) (hv : Date.Valid ⟨y, m, d⟩) (hd : d ≤ 27)
    (hs : Normal (0, s)) (hy : 6 ≤ y) (hn : 6 ≤ (12 * y + (m - 1) + n) / 12) :
    incrementTime 2592000 n (julianOf ⟨y, m, d⟩) s =
      (julianOf (dayOfMonth (12 * y + (m - 1) + n) d), s) := by
  obtain ⟨h1, h2, h3, h4⟩ := hv
  obtain ⟨s1, s2⟩ := hs
  simp only at h1 h2 h3 h4 s1 s2
  have hne : ¬ NearEnd .month m d := by show ¬ (_ ∨ _); omega
  have ho := offset_inside .month (by decide) hy h1 h2 h3 h4 s1 s2 hne
  change ztsOffset 2592000 _ _ = _ - (jul (lastDay (12 * y + (m - 1) - 1)) + 1) * 86400 at ho
  obtain ⟨e1, e2⟩ := idx_split (y := y) h1 h2
  have hprev : ∀ K : Int, 6 ≤ K / 12 → jul (lastDay (K - 1)) =
      yearMonthDayToJulian (K / 12) (K % 12 + 1) 1 - 1 := fun K hK => by
    rw [jul_lastDay_pred K (by omega)]; rfl
  rw [hprev _ (by omega), e1, e2, ymd_day y m d] at ho
  have hoff : ztsOffset 2592000 (yearMonthDayToJulian y m d) s = (d - 1) * 86400 + s := by
    rw [ymd_day y m d]; omega
  have h := incrementTime_offset .month n (y := y) (m := m) (d := d) (s := s) (by omega) h1 h2 h3 h4 s1 s2
    (by change ztsOffset 2592000 _ _ ≠ 0; omega) (by show 5 ≤ (12 * y + (m - 1) + n) / 12; omega)
    (by show 5 ≤ (12 * y + (m - 1) + n - 1) / 12; omega)
  change incrementTime 2592000 n _ _ = (leapAdjust 2592000 (cleanTime (jul (lastDay
    (12 * y + (m - 1) + n - 1))) (86400 + ztsOffset 2592000 _ _) 1).1, (cleanTime (jul (lastDay
    (12 * y + (m - 1) + n - 1))) (86400 + ztsOffset 2592000 _ _) 1).2) at h
  rw [hoff, hprev _ (by omega)] at h
  have hla : ∀ x, leapAdjust 2592000 x = x := fun x => by
    unfold leapAdjust SECS_IN_1_YEAR; rw [if_neg (by omega)]
  rw [hla] at h
  show incrementTime 2592000 n (yearMonthDayToJulian y m d) s =
    (yearMonthDayToJulian ((12 * y + (m - 1) + n) / 12) ((12 * y + (m - 1) + n) % 12 + 1) d, s)
  rw [h, ymd_day _ _ d]
  have hlow := ymd_lower (y := (12 * y + (m - 1) + n) / 12) (m := (12 * y + (m - 1) + n) % 12 + 1)
    (d := 1) (by omega) (by omega) (by omega) (by omega)
  generalize yearMonthDayToJulian ((12 * y + (m - 1) + n) / 12)
    ((12 * y + (m - 1) + n) % 12 + 1) 1 = j0 at *
  have hU : UNDEFINED_TIME < -1000000 := by decide
  have q := cleanTime_secs (j := j0 - 1) (t := 86400 + ((d - 1) * 86400 + s))
    ⟨by omega, by omega⟩
  simp only at q
  apply Prod.ext <;> simp only <;> omega

example : Date.Valid ⟨2001, 12, 15⟩ ∧ Normal (0, 3600) ∧
    dayOfMonth (12 * 2001 + (12 - 1) + 3) 15 = ⟨2002, 3, 15⟩ := by
  unfold Date.Valid Normal; decide

/-- C09, yearly data at a day other than 31 December: the same day and time `n` years later.
Excluded: 29 February, and 1 March when the target year is a leap year (see the violation). -/
theorem C09_year_offset_partial (y m d s n : Int) (hv : Date.Valid ⟨y, m, d⟩) (hne : ¬ (m = 12 ∧ d = 31))
    (hfeb : ¬ (m = 2 ∧ d = 29)) (hmar : leap (y + n) → ¬ (m = 3 ∧ d = 1))
    (hs : Normal (0, s)) (hy : 6 ≤ y) (hn : 6 ≤ y + n) :
    incrementTime 31536000 n (julianOf ⟨y, m, d⟩) s = (julianOf ⟨y + n, m, d⟩, s) := by
  obtain ⟨h1, h2, h3, h4⟩ := hv
  obtain ⟨s1, s2⟩ := hs
  simp only at h1 h2 h3 h4 s1 s2
  have hoff := offset_inside_year hy h1 h2 h3 h4 s1 s2 hne
  have hN : 0 ≤ NDAY m := by
    rcases month_cases h1 h2 with h | h | h | h | h | h | h | h | h | h | h | h <;> subst h <;> decide
  have h := incrementTime_offset .year n (y := y) (m := m) (d := d) (s := s) (by omega) h1 h2 h3 h4 s1 s2
    (by rw [hoff]; omega) (by show 5 ≤ y + n; omega) (by show 5 ≤ y + n - 1; omega)
  rw [hoff] at h
  change incrementTime 31536000 n _ _ = (leapAdjust 31536000 (cleanTime (yearMonthDayToJulian
    (y + n - 1) 12 31) _ 1).1, (cleanTime (yearMonthDayToJulian (y + n - 1) 12 31) _ 1).2) at h
  have h31 : monthLen (y + n - 1) 12 = 31 := by simp [monthLen]
  have hprev : yearMonthDayToJulian (y + n - 1) 12 31 = yearMonthDayToJulian (y + n) 1 1 - 1 := by
    have := ymd_next (y := y + n - 1) (m := 12) (d := 31) (by omega) (by omega) (by omega) (by omega)
      (by rw [h31]; omega)
    simp only [Date.next, h31] at this
    simp only [Int.lt_irrefl, if_false] at this
    have e : y + n - 1 + 1 = y + n := by omega
    rw [e] at this
    omega
  rw [hprev] at h
  have hlow := ymd_lower (y := y + n) (m := 1) (d := 1) (by omega) (by omega) (by omega) (by omega)
  have hU : UNDEFINED_TIME < -1000000 := by decide
  have hcl : cleanTime (yearMonthDayToJulian (y + n) 1 1 - 1)
      (86400 + ((NDAY m + d - 1) * 86400 + s)) 1 =
      (yearMonthDayToJulian (y + n) 1 1 + (NDAY m + d - 1), s) := by
    have q := cleanTime_secs (j := yearMonthDayToJulian (y + n) 1 1 - 1)
      (t := 86400 + ((NDAY m + d - 1) * 86400 + s)) ⟨by omega, by omega⟩
    simp only at q
    apply Prod.ext <;> simp only <;> omega
  rw [hcl] at h
  show incrementTime 31536000 n (yearMonthDayToJulian y m d) s = (yearMonthDayToJulian (y + n) m d, s)
  rw [h]
  simp only
  -- the date of the day number before the leap correction
  have f1 := ymd_formula d (by omega : 5 ≤ y + n) h1 h2
  have f2 := jan1_formula (by omega : 5 ≤ y + n)
  have hx : yearMonthDayToJulian (y + n) 1 1 + (NDAY m + d - 1) =
      yearMonthDayToJulian (y + n) m d - (if leap (y + n) ∧ 2 < m then 1 else 0) := by
    rw [f1, f2]; split <;> omega
  rw [hx]
  have hyr : (31536000 : Int) = SECS_IN_1_YEAR := rfl
  congr 1
  unfold leapAdjust
  rw [if_pos hyr]
  -- d is valid in the target year
  have hd' : d ≤ monthLen (y + n) m := by
    by_cases hm : m = 2
    · subst hm
      have : monthLen y 2 ≤ 29 := by unfold monthLen; simp; split <;> omega
      have := monthLen_ge (y + n) 2
      omega
    · have : monthLen (y + n) m = monthLen y m := by unfold monthLen; rw [if_neg hm, if_neg hm]
      omega
  by_cases hl : leap (y + n) ∧ 2 < m
  · simp only [hl, and_self, if_true]
    have hly : isLeapYear (y + n) = true := (isLeapYear_iff _).2 hl.1
    have hex : ∃ m' d' : Int, 2 < m' ∧ ymdOf (yearMonthDayToJulian (y + n) m d - 1) = (y + n, m', d') := by
      by_cases hd1 : 2 ≤ d
      · refine ⟨m, d - 1, hl.2, ?_⟩
        have : yearMonthDayToJulian (y + n) m d - 1 = yearMonthDayToJulian (y + n) m (d - 1) := by
          rw [ymd_day _ _ d, ymd_day _ _ (d - 1)]; omega
        rw [this]
        exact ymdOf_date (by omega) h1 h2 (by omega) (by omega)
      · have hd1' : d = 1 := by omega
        have hm3 : 3 < m := by
          have := hmar hl.1
          omega
        refine ⟨m - 1, monthLen (y + n) (m - 1), by omega, ?_⟩
        have := ymd_eom (y := y + n) (m := m - 1) (by omega) (by omega) (by omega)
        rw [show m - 1 + 1 = m by omega] at this
        rw [hd1', this]
        have hml := monthLen_ge (y + n) (m - 1)
        exact ymdOf_date (by omega) (by omega) (by omega) (by omega) (by omega)
    obtain ⟨m', d', hm', hymd⟩ := hex
    rw [hymd]
    simp only [hly, if_true]
    rw [if_pos (by omega), if_pos (by omega)]
    omega
  · have hz : (if leap (y + n) ∧ 2 < m then (1:Int) else 0) = 0 := if_neg hl
    rw [hz]
    have hymd : ymdOf (yearMonthDayToJulian (y + n) m d - 0) = (y + n, m, d) := by
      rw [Int.sub_zero]
      exact ymdOf_date (by omega) h1 h2 h3 hd'
    rw [hymd]
    simp only
    by_cases hly : isLeapYear (y + n) = true
    · rw [if_pos hly, if_pos (by omega)]
      have : ¬ (m > 2) := fun hm => hl ⟨(isLeapYear_iff _).1 hly, hm⟩
      rw [if_neg this]
      omega
    · rw [if_neg hly]; omega

set_option maxRecDepth 4000 in
example : Date.Valid ⟨1999, 9, 30⟩ ∧ leap (1999 + 1) ∧ Normal (0, 86400) ∧
    incrementTime 31536000 1 (julianOf ⟨1999, 9, 30⟩) 86400 = (julianOf ⟨2000, 9, 30⟩, 86400) := by
  unfold Date.Valid Normal; decide

set_option maxRecDepth 4000 in
/-- C09, failing part: a yearly series on 1 March moves to 29 February in a leap year, even when
incremented by no period at all. -/
theorem C09_march_violation :
    incrementTime 31536000 0 (julianOf ⟨2004, 3, 1⟩) 86400 = (julianOf ⟨2004, 2, 29⟩, 86400) ∧
    incrementTime 31536000 1 (julianOf ⟨2003, 3, 1⟩) 86400 = (julianOf ⟨2004, 2, 29⟩, 86400) := by
  decide

/-- C09, failing part: monthly data on the 30th of a month of 31 days is moved to the end of the
month when incremented by no period. -/
theorem C09_day30_violation :
    incrementTime 2592000 0 (julianOf ⟨2001, 1, 30⟩) 43200 = (julianOf ⟨2001, 1, 31⟩, 86400) := by
  decide

/-! ### C10 -/

/-- C10. The number of periods between the ends of periods `i` and `k` is `k - i` for years,
months, semi-months and tri-months. -/
theorem C10_numberPeriods (p : Period) (i k : Int) (hy : 5 ≤ (p.endDate i).year)
    (hy2 : 5 ≤ (p.endDate k).year) :
    numberPeriods p.secs (julianOf (p.endDate i)) 86400 (julianOf (p.endDate k)) 86400 = k - i := by
  obtain ⟨⟨v1, v2, v3, v4⟩, -⟩ := endDate_facts p i
  obtain ⟨⟨w1, w2, w3, w4⟩, -⟩ := endDate_facts p k
  have ya := ymdOf_date hy v1 v2 v3 v4
  have yb := ymdOf_date hy2 w1 w2 w3 w4
  have ca := cleanTime_normal (j := julianOf (p.endDate i)) (t := 86400) (by omega) (by omega)
  have cb := cleanTime_normal (j := julianOf (p.endDate k)) (t := 86400) (by omega) (by omega)
  unfold numberPeriods
  rw [if_neg (secs_ge p).1, ca, cb]
  simp only [if_neg (secs_ge p).2]
  unfold julianOf
  rw [ya, yb]
  simp only
  clear ya yb ca cb
  cases p
  · simp [Period.secs, SECS_IN_1_MINUTE, SECS_IN_4_HOURS, SECS_IN_6_HOURS, cdiv_eq, Period.endDate]
  · have g1 := monthLen_ge (i / 12) (i % 12 + 1)
    have g2 := monthLen_le (i / 12) (i % 12 + 1)
    have g3 := monthLen_ge (k / 12) (k % 12 + 1)
    have g4 := monthLen_le (k / 12) (k % 12 + 1)
    simp only [Period.endDate, lastDay]
    have hz : cdiv (monthLen (k / 12) (k % 12 + 1) - monthLen (i / 12) (i % 12 + 1)) 27 = 0 := by
      rw [cdiv_eq]; split <;> omega
    rw [hz]
    simp [Period.secs, SECS_IN_1_MINUTE, SECS_IN_4_HOURS, SECS_IN_6_HOURS, cdiv_eq]
    omega
  · have g1 := monthLen_ge (i / 2 / 12) (i / 2 % 12 + 1)
    have g2 := monthLen_le (i / 2 / 12) (i / 2 % 12 + 1)
    have g3 := monthLen_ge (k / 2 / 12) (k / 2 % 12 + 1)
    have g4 := monthLen_le (k / 2 / 12) (k / 2 % 12 + 1)
    have fi : ∀ x : Int, (x = 2 * (x / 2) ∧ Period.semiMonth.endDate x = dayOfMonth (x / 2) 15) ∨
        (x = 2 * (x / 2) + 1 ∧ Period.semiMonth.endDate x = lastDay (x / 2)) := by
      intro x
      by_cases hx : x % 2 = 0
      · exact Or.inl ⟨by omega, semi_even (x / 2) (by omega)⟩
      · exact Or.inr ⟨by omega, semi_odd (x / 2) (by omega)⟩
    have c1 : cdiv Period.semiMonth.secs SECS_IN_1_MINUTE = SECS_IN_6_HOURS := by decide
    have c2 : ¬ (SECS_IN_6_HOURS = SECS_IN_4_HOURS) := by decide
    simp only [c1, c2, if_true, if_false]
    rcases fi i with ⟨a1, a2⟩ | ⟨a1, a2⟩ <;> rcases fi k with ⟨b1, b2⟩ | ⟨b1, b2⟩ <;>
      rw [a2, b2] <;> simp only [dayOfMonth, lastDay] <;> rw [cdiv_eq] <;> split <;> omega
  · have g1 := monthLen_ge (i / 3 / 12) (i / 3 % 12 + 1)
    have g2 := monthLen_le (i / 3 / 12) (i / 3 % 12 + 1)
    have g3 := monthLen_ge (k / 3 / 12) (k / 3 % 12 + 1)
    have g4 := monthLen_le (k / 3 / 12) (k / 3 % 12 + 1)
    have fi : ∀ x : Int, (x = 3 * (x / 3) ∧ Period.triMonth.endDate x = dayOfMonth (x / 3) 10) ∨
        (x = 3 * (x / 3) + 1 ∧ Period.triMonth.endDate x = dayOfMonth (x / 3) 20) ∨
        (x = 3 * (x / 3) + 2 ∧ Period.triMonth.endDate x = lastDay (x / 3)) := by
      intro x
      by_cases hx : x % 3 = 0
      · exact Or.inl ⟨by omega, tri_zero (x / 3) (by omega)⟩
      · by_cases hx1 : x % 3 = 1
        · exact Or.inr (Or.inl ⟨by omega, tri_one (x / 3) (by omega)⟩)
        · exact Or.inr (Or.inr ⟨by omega, tri_two (x / 3) (by omega)⟩)
    have c1 : cdiv Period.triMonth.secs SECS_IN_1_MINUTE = SECS_IN_4_HOURS := by decide
    simp only [c1, if_true]
    rcases fi i with ⟨a1, a2⟩ | ⟨a1, a2⟩ | ⟨a1, a2⟩ <;>
      rcases fi k with ⟨b1, b2⟩ | ⟨b1, b2⟩ | ⟨b1, b2⟩ <;>
      rw [a2, b2] <;> simp only [dayOfMonth, lastDay] <;> rw [cdiv_eq] <;> split <;> omega

example : numberPeriods 2592000 (julianOf ⟨2000, 1, 31⟩) 86400 (julianOf ⟨2001, 2, 28⟩) 86400 = 13 := by
  decide

/-- C10, failing part: for a yearly series, the count to a time within a later year uses the
difference of months as if it were years: from 31Dec2000 to 30Jun2002 it returns -4. -/
theorem C10_year_violation :
    numberPeriods 31536000 (julianOf ⟨2000, 12, 31⟩) 86400 (julianOf ⟨2002, 6, 30⟩) 86400 = -4 := by
  decide

/-! ### C11, calendar intervals -/

/-- C11. A time inside a month, semi-month or tri-month (not on the days the library takes for its
end) has an offset in [0, interval); its standard time is the end of its period, not before it;
and adding the offset back to the standard time gives the original time. -/
theorem C11_offset_calendar_partial (p : Period) (hp : p ≠ .year) (y m d s : Int)
    (hv : Date.Valid ⟨y, m, d⟩) (hne : ¬ NearEnd p m d) (hs : Normal (0, s)) (hy : 6 ≤ y) :
    let t := julianOf ⟨y, m, d⟩
    let off := ztsOffset p.secs t s
    let a := ztsOffsetAdjustToStandard p.secs t s
    0 < off ∧ off < p.secs ∧ a = (off, julianOf (p.endDate (periodOf p y m d)), 86400) ∧
      ztsOffsetAdjustToOffset off p.secs a.2.1 a.2.2 = (t, s) := by
  obtain ⟨h1, h2, h3, h4⟩ := hv
  obtain ⟨s1, s2⟩ := hs
  simp only at h1 h2 h3 h4 s1 s2
  intro t off a
  have hoff : off = _ := offset_inside (y := y) (m := m) (d := d) (s := s) p hp hy h1 h2 h3 h4 s1 s2 hne
  have ha : a = _ := adjStd_date (y := y) (m := m) (d := d) (s := s) p (by omega) h1 h2 h3 h4 s1 s2
  rw [stdDay_endDate p d h1 h2] at ha
  have ha2 : a = (off, julianOf (p.endDate (periodOf p y m d)), 86400) := ha
  have hml := monthLen_le y m
  obtain ⟨e1, e2⟩ := idx_split (y := y) h1 h2
  have hprev : jul (lastDay (12 * y + (m - 1) - 1)) = yearMonthDayToJulian y m 1 - 1 := by
    rw [jul_lastDay_pred _ (by omega)]
    unfold jul dayOfMonth
    rw [e1, e2]
  have hd := ymd_day y m d
  have hbounds : 0 < off ∧ off < p.secs := by
    cases p
    · exact absurd rfl hp
    · change ¬ (_ ∨ _) at hne
      have e : Period.month.endDate (periodOf .month y m d - 1) = lastDay (12 * y + (m - 1) - 1) := rfl
      rw [e, hprev] at hoff
      show 0 < off ∧ off < 2592000
      omega
    · change ¬ (_ ∨ _) at hne
      show 0 < off ∧ off < 1296000
      by_cases h : d ≤ 15
      · have hp' : periodOf .semiMonth y m d - 1 = 2 * (12 * y + (m - 1) - 1) + 1 := by
          show 2 * (12 * y + (m - 1)) + (if d ≤ 15 then 0 else 1) - 1 = _
          rw [if_pos h]; omega
        rw [semi_odd _ hp', hprev] at hoff
        omega
      · have hp' : periodOf .semiMonth y m d - 1 = 2 * (12 * y + (m - 1)) := by
          show 2 * (12 * y + (m - 1)) + (if d ≤ 15 then 0 else 1) - 1 = _
          rw [if_neg h]; omega
        rw [semi_even _ hp'] at hoff
        have e : jul (dayOfMonth (12 * y + (m - 1)) 15) = yearMonthDayToJulian y m 15 := by
          unfold jul dayOfMonth; rw [e1, e2]
        rw [e, ymd_day y m 15] at hoff
        omega
    · change ¬ (_ ∨ _) at hne
      show 0 < off ∧ off < 864000
      by_cases h : d ≤ 10
      · have hp' : periodOf .triMonth y m d - 1 = 3 * (12 * y + (m - 1) - 1) + 2 := by
          show 3 * (12 * y + (m - 1)) + (if d ≤ 10 then 0 else if d ≤ 20 then 1 else 2) - 1 = _
          rw [if_pos h]; omega
        rw [tri_two _ hp', hprev] at hoff
        omega
      · by_cases h' : d ≤ 20
        · have hp' : periodOf .triMonth y m d - 1 = 3 * (12 * y + (m - 1)) := by
            show 3 * (12 * y + (m - 1)) + (if d ≤ 10 then 0 else if d ≤ 20 then 1 else 2) - 1 = _
            rw [if_neg h, if_pos h']; omega
          rw [tri_zero _ hp'] at hoff
          have e : jul (dayOfMonth (12 * y + (m - 1)) 10) = yearMonthDayToJulian y m 10 := by
            unfold jul dayOfMonth; rw [e1, e2]
          rw [e, ymd_day y m 10] at hoff
          omega
        · have hp' : periodOf .triMonth y m d - 1 = 3 * (12 * y + (m - 1)) + 1 := by
            show 3 * (12 * y + (m - 1)) + (if d ≤ 10 then 0 else if d ≤ 20 then 1 else 2) - 1 = _
            rw [if_neg h, if_neg h']; omega
          rw [tri_one _ hp'] at hoff
          have e : jul (dayOfMonth (12 * y + (m - 1)) 20) = yearMonthDayToJulian y m 20 := by
            unfold jul dayOfMonth; rw [e1, e2]
          rw [e, ymd_day y m 20] at hoff
          omega
  refine ⟨hbounds.1, hbounds.2, ha2, ?_⟩
  rw [ha2]
  simp only
  have hyear : (p.endDate (periodOf p y m d)).year = y := by
    rw [← stdDay_endDate p d h1 h2]
    exact (stdDay_valid p h1 h2).2
  have hyp : 5 ≤ (p.endDate (periodOf p y m d - 1)).year := by
    cases p
    · exact absurd rfl hp
    · show 5 ≤ (12 * y + (m - 1) - 1) / 12; omega
    · by_cases h : d ≤ 15
      · have hp' : periodOf .semiMonth y m d - 1 = 2 * (12 * y + (m - 1) - 1) + 1 := by
          show 2 * (12 * y + (m - 1)) + (if d ≤ 15 then 0 else 1) - 1 = _
          rw [if_pos h]; omega
        rw [semi_odd _ hp']; show 5 ≤ (12 * y + (m - 1) - 1) / 12; omega
      · have hp' : periodOf .semiMonth y m d - 1 = 2 * (12 * y + (m - 1)) := by
          show 2 * (12 * y + (m - 1)) + (if d ≤ 15 then 0 else 1) - 1 = _
          rw [if_neg h]; omega
        rw [semi_even _ hp']; show 5 ≤ (12 * y + (m - 1)) / 12; omega
    · by_cases h : d ≤ 10
      · have hp' : periodOf .triMonth y m d - 1 = 3 * (12 * y + (m - 1) - 1) + 2 := by
          show 3 * (12 * y + (m - 1)) + (if d ≤ 10 then 0 else if d ≤ 20 then 1 else 2) - 1 = _
          rw [if_pos h]; omega
        rw [tri_two _ hp']; show 5 ≤ (12 * y + (m - 1) - 1) / 12; omega
      · by_cases h' : d ≤ 20
        · have hp' : periodOf .triMonth y m d - 1 = 3 * (12 * y + (m - 1)) := by
            show 3 * (12 * y + (m - 1)) + (if d ≤ 10 then 0 else if d ≤ 20 then 1 else 2) - 1 = _
            rw [if_neg h, if_pos h']; omega
          rw [tri_zero _ hp']; show 5 ≤ (12 * y + (m - 1)) / 12; omega
        · have hp' : periodOf .triMonth y m d - 1 = 3 * (12 * y + (m - 1)) + 1 := by
            show 3 * (12 * y + (m - 1)) + (if d ≤ 10 then 0 else if d ≤ 20 then 1 else 2) - 1 = _
            rw [if_neg h, if_neg h']; omega
          rw [tri_one _ hp']; show 5 ≤ (12 * y + (m - 1)) / 12; omega
  obtain ⟨hev, hes⟩ := endDate_facts p (periodOf p y m d)
  have hto := toOffset_eq p (periodOf p y m d) off (by omega) hev (by omega) hes.symm (by omega)
    hyp (s := 86400) (by omega) (by omega)
  change ztsOffsetAdjustToOffset off p.secs (julianOf _) 86400 = _ at hto
  rw [hto]
  have hla : ∀ x, leapAdjust p.secs x = x := fun x => by
    unfold leapAdjust
    rw [if_neg]
    cases p
    · exact absurd rfl hp
    all_goals decide
  rw [hla]
  have hlow := jul_endDate_lower p _ hyp
  have hU : UNDEFINED_TIME < -1000000 := by decide
  have q := cleanTime_secs (j := jul (p.endDate (periodOf p y m d - 1))) (t := 86400 + off)
    ⟨by omega, by omega⟩
  simp only at q
  show _ = (yearMonthDayToJulian y m d, s)
  apply Prod.ext <;> simp only <;> omega

example : Date.Valid ⟨2004, 2, 17⟩ ∧ ¬ NearEnd .semiMonth 2 17 ∧ Normal (0, 3600) ∧
    ztsOffset 1296000 (julianOf ⟨2004, 2, 17⟩) 3600 = 90000 := by
  refine ⟨by unfold Date.Valid; decide, ?_, by unfold Normal; decide, by decide⟩
  show ¬ (_ ∨ _); omega

/-- C11. Ends of periods have no offset and are their own standard time. -/
theorem C11_standard (p : Period) (i : Int) (hy : 5 ≤ (p.endDate i).year) :
    ztsOffset p.secs (julianOf (p.endDate i)) 86400 = 0 ∧
    ztsOffsetAdjustToStandard p.secs (julianOf (p.endDate i)) 86400 =
      (0, julianOf (p.endDate i), 86400) := by
  have h0 := offset_end p i hy (s := 86400) (by omega) (by omega)
  obtain ⟨hv, he⟩ := endDate_facts p i
  have h1 := adjStd_end p i hv hy he.symm (s := 86400) (by omega) (by omega)
  have ha := adjStd_date p (s := 86400) hy hv.1 hv.2.1 hv.2.2.1 hv.2.2.2 (by omega) (by omega)
  refine ⟨h0, ?_⟩
  have h2 : (ztsOffsetAdjustToStandard p.secs (julianOf (p.endDate i)) 86400).1 = 0 := by
    unfold julianOf
    rw [ha]; exact h0
  exact Prod.ext h2 h1

example : 5 ≤ (Period.year.endDate 1999).year := by decide

/-- C11, failing part: a month's second to last day has offset 0 although it is not a standard
time, so adjusting it to its standard time and back moves it (30Jan2001 06:00 becomes
31Jan2001 24:00). -/
theorem C11_month_violation :
    let a := ztsOffsetAdjustToStandard 2592000 (julianOf ⟨2001, 1, 30⟩) 21600
    a = (0, julianOf ⟨2001, 1, 31⟩, 86400) ∧
      ztsOffsetAdjustToOffset a.1 2592000 a.2.1 a.2.2 = (julianOf ⟨2001, 1, 31⟩, 86400) := by
  decide

/-! ### C12 -/

theorem le_of_not_before (a b : Date) (ha : a.Valid) (hb : b.Valid) (hya : 5 ≤ a.year)
    (hyb : 5 ≤ b.year) (h : ¬ b.before a) : julianOf a ≤ julianOf b := by
  have := C01_julian_order b a hb ha hyb hya
  rcases Int.lt_or_le (julianOf b) (julianOf a) with h1 | h1
  · exact absurd (this.1 h1) h
  · exact h1

theorem Block.start_valid (b : Block) (d : Date) (hv : d.Valid) (hy : 100 ≤ d.year) :
    (b.start d).Valid ∧ 5 ≤ (b.start d).year := by
  obtain ⟨h1, h2, h3, h4⟩ := hv
  have hj : ∀ y : Int, 1 ≤ monthLen y 1 := fun y => by have := monthLen_ge y 1; omega
  have hm := monthLen_ge d.year d.month
  cases b
  · exact ⟨⟨h1, h2, h3, h4⟩, by show 5 ≤ d.year; omega⟩
  · exact ⟨⟨h1, h2, by show (1:Int) ≤ 1; omega, by show 1 ≤ monthLen d.year d.month; omega⟩,
      by show 5 ≤ d.year; omega⟩
  · exact ⟨⟨by show (1:Int) ≤ 1; omega, by show (1:Int) ≤ 12; omega, by show (1:Int) ≤ 1; omega,
      hj _⟩, by show 5 ≤ d.year; omega⟩
  · exact ⟨⟨by show (1:Int) ≤ 1; omega, by show (1:Int) ≤ 12; omega, by show (1:Int) ≤ 1; omega,
      hj _⟩, by show 5 ≤ d.year / 10 * 10; omega⟩
  · exact ⟨⟨by show (1:Int) ≤ 1; omega, by show (1:Int) ≤ 12; omega, by show (1:Int) ≤ 1; omega,
      hj _⟩, by show 5 ≤ d.year / 100 * 100; omega⟩

/-- C12. The block start computed for a day is the first day of the calendar block of that day
(irregular data: the block size is given). -/
theorem C12_irreg_block_start (b : Block) (d : Date) (hv : d.Valid) (hy : 5 ≤ d.year) :
    ztsIrregGetBlockStart (julianOf d) b.code = julianOf (b.start d) := by
  have h := ymdOf_date hy hv.1 hv.2.1 hv.2.2.1 hv.2.2.2
  unfold ztsIrregGetBlockStart
  change ymdOf (julianOf d) = _ at h
  rw [h]
  cases b
  · rfl
  · rfl
  · rfl
  · simp only [Block.code, Block.start, julianOf,
      cdiv_nonneg_eq (by omega : 0 ≤ d.year)]
    rfl
  · simp only [Block.code, Block.start, julianOf,
      cdiv_nonneg_eq (by omega : 0 ≤ d.year)]
    rfl

/-- C12. The same for regular data, where the interval decides the block size. -/
theorem C12_reg_block_start (interval : Int) (d : Date) (hv : d.Valid) (hy : 5 ≤ d.year) :
    ∃ b : Block, ztsRegGetBlockStart (julianOf d) interval = (julianOf (b.start d), b.code) ∧
      ztsRegBlockSize interval = b.code := by
  have h := ymdOf_date hy hv.1 hv.2.1 hv.2.2.1 hv.2.2.2
  change ymdOf (julianOf d) = _ at h
  unfold ztsRegGetBlockStart ztsRegBlockSize
  rw [h]
  by_cases c1 : interval < SECS_IN_15_MINUTES
  · rw [if_pos c1, if_pos c1]; exact ⟨.day, rfl, rfl⟩
  · rw [if_neg c1, if_neg c1]
    simp only
    by_cases c2 : interval < SECS_IN_1_DAY
    · rw [if_pos c2, if_pos c2]; exact ⟨.month, rfl, rfl⟩
    · rw [if_neg c2, if_neg c2]
      by_cases c3 : interval < SECS_IN_1_WEEK
      · rw [if_pos c3, if_pos c3]; exact ⟨.year, rfl, rfl⟩
      · rw [if_neg c3, if_neg c3]
        by_cases c4 : interval < SECS_IN_1_YEAR
        · rw [if_pos c4, if_pos c4, cdiv_nonneg_eq (by omega)]; exact ⟨.decade, rfl, rfl⟩
        · rw [if_neg c4, if_neg c4, cdiv_nonneg_eq (by omega)]; exact ⟨.century, rfl, rfl⟩

example : ztsRegGetBlockStart (julianOf ⟨1987, 6, 5⟩) 86400 = (julianOf ⟨1987, 1, 1⟩, 3) := by decide

/-- C12. Stepping forward from a block start gives the start of the next block. -/
theorem C12_step_forward (b : Block) (d : Date) (hv : d.Valid) (hy : 100 ≤ d.year) :
    ztsIncrementBlock (julianOf (b.start d)) b.code = julianOf (b.next d) := by
  have hj : ∀ y : Int, Date.Valid ⟨y, 1, 1⟩ := fun y => by
    have := monthLen_ge y 1
    exact ⟨by simp only; omega, by simp only; omega, by simp only; omega, by simp only; omega⟩
  have hs : Normal (0, 86400) := by unfold Normal; simp
  have yearStep : ∀ y n : Int, 6 ≤ y → 6 ≤ y + n →
      (incrementTime 31536000 n (julianOf ⟨y, 1, 1⟩) 86400).1 = julianOf ⟨y + n, 1, 1⟩ := by
    intro y n h1 h2
    rw [C09_year_offset_partial y 1 1 86400 n (hj y) (by omega) (by omega) (fun _ => by omega) hs h1 h2]
  cases b
  · have := C01_julian_consecutive.2 d hv (by omega)
    show julianOf d + 1 = julianOf d.next
    omega
  · show (incrementTime 2592000 1 (julianOf ⟨d.year, d.month, 1⟩) 86400).1 = _
    have hml := monthLen_ge d.year d.month
    obtain ⟨h1, h2, -, -⟩ := hv
    rw [C09_month_offset_partial d.year d.month 1 86400 1 ⟨h1, h2, by simp only; omega, by simp only; omega⟩
      (by omega) hs (by omega) (by omega)]
    simp only [Block.next, dayOfMonth]
    split
    · congr 2 <;> omega
    · congr 2 <;> omega
  · exact yearStep d.year 1 (by omega) (by omega)
  · exact yearStep (d.year / 10 * 10) (1 * 10) (by omega) (by omega)
  · exact yearStep (d.year / 100 * 100) (1 * 100) (by omega) (by omega)

example : Date.Valid ⟨1999, 12, 31⟩ ∧ Block.month.next ⟨1999, 12, 31⟩ = ⟨2000, 1, 1⟩ := by
  unfold Date.Valid; decide

/-- C12. Stepping backward from the next block's start gives the block's start. -/
theorem C12_step_back (b : Block) (d : Date) (hv : d.Valid) (hy : 100 ≤ d.year) :
    ztsIncrementBlock (julianOf (b.next d)) (-b.code) = julianOf (b.start d) := by
  have hj : ∀ y : Int, Date.Valid ⟨y, 1, 1⟩ := fun y => by
    have := monthLen_ge y 1
    exact ⟨by simp only; omega, by simp only; omega, by simp only; omega, by simp only; omega⟩
  have hs : Normal (0, 86400) := by unfold Normal; simp
  have yearStep : ∀ y n : Int, 6 ≤ y → 6 ≤ y + n →
      (incrementTime 31536000 n (julianOf ⟨y, 1, 1⟩) 86400).1 = julianOf ⟨y + n, 1, 1⟩ := by
    intro y n h1 h2
    rw [C09_year_offset_partial y 1 1 86400 n (hj y) (by omega) (by omega) (fun _ => by omega) hs h1 h2]
  cases b
  · have := C01_julian_consecutive.2 d hv (by omega)
    show julianOf d.next + -1 = julianOf d
    omega
  · show (incrementTime 2592000 (-1) (julianOf (Block.month.next d)) 86400).1 = _
    obtain ⟨h1, h2, -, -⟩ := hv
    have hml := monthLen_ge d.year (d.month + 1)
    simp only [Block.next]
    split
    · rw [C09_month_offset_partial d.year (d.month + 1) 1 86400 (-1)
        ⟨by simp only; omega, by simp only; omega, by simp only; omega, by simp only; omega⟩
        (by omega) hs (by omega) (by omega)]
      simp only [Block.start, dayOfMonth]
      congr 2 <;> omega
    · rw [C09_month_offset_partial (d.year + 1) 1 1 86400 (-1) (hj _)
        (by omega) hs (by omega) (by omega)]
      simp only [Block.start, dayOfMonth]
      congr 2 <;> omega
  · have := yearStep (d.year + 1) (-1) (by omega) (by omega)
    rw [show d.year + 1 + -1 = d.year by omega] at this
    exact this
  · have := yearStep (d.year / 10 * 10 + 10) (-1 * 10) (by omega) (by omega)
    rw [show d.year / 10 * 10 + 10 + -1 * 10 = d.year / 10 * 10 by omega] at this
    exact this
  · have := yearStep (d.year / 100 * 100 + 100) (-1 * 100) (by omega) (by omega)
    rw [show d.year / 100 * 100 + 100 + -1 * 100 = d.year / 100 * 100 by omega] at this
    exact this

/-- C12. Blocks partition time: the block of a day contains it, and a day has a given block start
exactly when it lies from that start up to (not including) the next block's start. -/
theorem C12_blocks_partition (b : Block) (d e : Date) (hv : d.Valid) (hy : 100 ≤ d.year)
    (hve : e.Valid) (hye : 100 ≤ e.year) :
    let start := ztsIrregGetBlockStart (julianOf d) b.code
    let next := ztsIncrementBlock start b.code
    start ≤ julianOf d ∧ julianOf d < next ∧
      (ztsIrregGetBlockStart (julianOf e) b.code = start ↔ start ≤ julianOf e ∧ julianOf e < next) := by
  intro start next
  have hst : start = julianOf (b.start d) := C12_irreg_block_start b d hv (by omega)
  have hse : ztsIrregGetBlockStart (julianOf e) b.code = julianOf (b.start e) :=
    C12_irreg_block_start b e hve (by omega)
  have hnx : next = julianOf (b.next d) := by
    show ztsIncrementBlock start b.code = _
    rw [hst]; exact C12_step_forward b d hv hy
  obtain ⟨sv, sy⟩ := Block.start_valid b d hv hy
  obtain ⟨tv, ty⟩ := Block.start_valid b e hve hye
  have nv : (b.next d).Valid ∧ 5 ≤ (b.next d).year := by
    have hj : ∀ y : Int, Date.Valid ⟨y, 1, 1⟩ := fun y => by
      have := monthLen_ge y 1
      exact ⟨by simp only; omega, by simp only; omega, by simp only; omega, by simp only; omega⟩
    obtain ⟨h1, h2, h3, h4⟩ := hv
    cases b
    · show d.next.Valid ∧ 5 ≤ d.next.year
      unfold Date.next
      split
      · exact ⟨⟨h1, h2, by simp only; omega, by simp only; omega⟩, by simp only; omega⟩
      · split
        · have := monthLen_ge d.year (d.month + 1)
          exact ⟨⟨by simp only; omega, by simp only; omega, by simp only; omega, by simp only; omega⟩,
            by simp only; omega⟩
        · exact ⟨hj _, by simp only; omega⟩
    · simp only [Block.next]
      split
      · have := monthLen_ge d.year (d.month + 1)
        exact ⟨⟨by simp only; omega, by simp only; omega, by simp only; omega, by simp only; omega⟩,
          by simp only; omega⟩
      · exact ⟨hj _, by simp only; omega⟩
    · exact ⟨hj _, by show 5 ≤ d.year + 1; omega⟩
    · exact ⟨hj _, by show 5 ≤ d.year / 10 * 10 + 10; omega⟩
    · exact ⟨hj _, by show 5 ≤ d.year / 100 * 100 + 100; omega⟩
  have ltn := C01_julian_order e (b.next d) hve nv.1 (by omega) nv.2
  have lts := C01_julian_order e (b.start d) hve sv (by omega) sy
  have ltn' := C01_julian_order d (b.next d) hv nv.1 (by omega) nv.2
  have lts' := C01_julian_order d (b.start d) hv sv (by omega) sy
  have inj : ∀ a c : Date, a.Valid → c.Valid → 5 ≤ a.year → 5 ≤ c.year →
      julianOf a = julianOf c → a = c := by
    intro a c hav hcv hay hcy he
    have o1 := C01_julian_order a c hav hcv hay hcy
    have o2 := C01_julian_order c a hcv hav hcy hay
    have n1 : ¬ a.before c := fun h => by have := o1.2 h; omega
    have n2 : ¬ c.before a := fun h => by have := o2.2 h; omega
    unfold Date.before at n1 n2
    cases a; cases c
    simp only at n1 n2
    congr 1 <;> omega
  have main : (∀ x : Date, x.Valid → 100 ≤ x.year →
      (b.start x = b.start d ↔ ¬ x.before (b.start d) ∧ x.before (b.next d))) := by
    intro x hx hxy
    obtain ⟨x1, x2, x3, x4⟩ := hx
    obtain ⟨d1, d2, d3, d4⟩ := hv
    unfold Date.before
    cases b
    · simp only [Block.start, Block.next]
      unfold Date.next
      constructor
      · intro h
        rw [h]
        refine ⟨by omega, ?_⟩
        split
        · exact Or.inr ⟨rfl, Or.inr ⟨rfl, by simp only; omega⟩⟩
        · split
          · exact Or.inr ⟨rfl, Or.inl (by simp only; omega)⟩
          · exact Or.inl (by simp only; omega)
      · rintro ⟨h1, h2⟩
        cases x with | mk xy xm xd =>
        cases d with | mk dy dm dd =>
        simp only at *
        split at h2
        · simp only at h2
          congr 1 <;> omega
        · split at h2
          · simp only at h2
            have : xy = dy ∧ xm = dm := by omega
            obtain ⟨rfl, rfl⟩ := this
            congr 1; omega
          · simp only at h2
            have : xy = dy ∧ xm = dm := by omega
            obtain ⟨rfl, rfl⟩ := this
            congr 1; omega
    · simp only [Block.start, Block.next]
      constructor
      · intro h
        injection h with e1 e2
        refine ⟨by omega, ?_⟩
        split <;> simp only <;> omega
      · rintro ⟨h1, h2⟩
        split at h2
        · simp only at h2
          congr 1 <;> omega
        · simp only at h2
          congr 1 <;> omega
    · simp only [Block.start, Block.next]
      constructor
      · intro h
        injection h with e1
        omega
      · rintro ⟨h1, h2⟩
        congr 1; omega
    · simp only [Block.start, Block.next]
      constructor
      · intro h
        injection h with e1
        omega
      · rintro ⟨h1, h2⟩
        congr 1; omega
    · simp only [Block.start, Block.next]
      constructor
      · intro h
        injection h with e1
        omega
      · rintro ⟨h1, h2⟩
        congr 1; omega
  have md := (main d hv hy).1 rfl
  refine ⟨?_, ?_, ?_⟩
  · rw [hst]; exact le_of_not_before _ _ sv hv sy (by omega) md.1
  · rw [hnx]; exact ltn'.2 md.2
  · rw [hse, hst, hnx]
    constructor
    · intro h
      have := (main e hve hye).1 (inj _ _ tv sv ty sy h)
      exact ⟨le_of_not_before _ _ sv hve sy (by omega) this.1, ltn.2 this.2⟩
    · rintro ⟨h1, h2⟩
      have hnb : ¬ e.before (b.start d) := fun h => by have := lts.2 h; omega
      rw [(main e hve hye).2 ⟨hnb, ltn.1 h2⟩]

example : Date.Valid ⟨1987, 6, 5⟩ ∧ Date.Valid ⟨1980, 1, 1⟩ ∧
    Block.decade.start ⟨1987, 6, 5⟩ = Block.decade.start ⟨1980, 1, 1⟩ := by
  unfold Date.Valid; decide

end Hec
