import Verif.Proofs.Calendar
/-!
Property theorems for the calendar functions: C01, C02, C03, C04, C16.
-/
namespace Hec
open Spec

/-- The day number the library gives to a date. -/
def julianOf (d : Date) : Int := yearMonthDayToJulian d.year d.month d.day

/-! ### C01: calendar days are numbered consecutively, 01Jan1900 is day 1 -/

/-- C01. The day after any date of year 5 or later has the next day number, and 01Jan1900 is 1. -/
theorem C01_julian_consecutive :
    julianOf ⟨1900, 1, 1⟩ = 1 ∧
    ∀ d : Date, d.Valid → 5 ≤ d.year → julianOf d.next = julianOf d + 1 := by
  refine ⟨by decide, fun d hv hy => ?_⟩
  exact ymd_next hy hv.1 hv.2.1 hv.2.2.1 hv.2.2.2

example : (⟨2000, 2, 29⟩ : Date).Valid ∧ (⟨2000, 2, 29⟩ : Date).next = ⟨2000, 3, 1⟩ := by
  unfold Date.Valid; decide

/-- C01. Day numbers order dates as the calendar does (hence no two dates share a number). -/
theorem C01_julian_order (a b : Date) (ha : a.Valid) (hb : b.Valid) (hya : 5 ≤ a.year)
    (hyb : 5 ≤ b.year) : julianOf a < julianOf b ↔ a.before b := by
  have key : ∀ a b : Date, a.Valid → b.Valid → 5 ≤ a.year → 5 ≤ b.year → a.before b →
      julianOf a < julianOf b := by
    rintro ⟨ya, ma, da⟩ ⟨yb, mb, db⟩ ha hb hya hyb h
    unfold Date.Valid at ha hb
    unfold Date.before at h
    unfold julianOf
    simp only at ha hb hya hyb h ⊢
    have fa := ymd_formula (m := ma) da hya ha.1 ha.2.1
    have fb := ymd_formula (m := mb) db hyb hb.1 hb.2.1
    have ba := doy_bounds ha.1 ha.2.1 ha.2.2.1 ha.2.2.2
    have bb := doy_bounds hb.1 hb.2.1 hb.2.2.1 hb.2.2.2
    rcases h with h | ⟨he, h | ⟨hm, hd⟩⟩
    · have h1 := jan1_mono (a := ya + 1) (b := yb) (by omega) (by omega) hyb
      rw [jan1_formula (by omega), jan1_formula hyb, L_succ] at h1
      omega
    · subst he
      have h1 := nday_mono (y := ya) (by have := ha.1; omega : 1 ≤ ma + 1)
        (by omega : ma + 1 ≤ mb) hb.2.1
      have h2 := nday_succ (y := ya) ha.1 (by have := hb.2.1; omega : ma ≤ 11)
      omega
    · subst he; subst hm
      omega
  constructor
  · intro h
    rcases Classical.em (a.before b) with hc | hc
    · exact hc
    · exfalso
      have : a = b ∨ b.before a := by
        unfold Date.before at *
        rcases Int.lt_trichotomy a.year b.year with h1 | h1 | h1
        · exact absurd (Or.inl h1) hc
        · rcases Int.lt_trichotomy a.month b.month with h2 | h2 | h2
          · exact absurd (Or.inr ⟨h1, Or.inl h2⟩) hc
          · rcases Int.lt_trichotomy a.day b.day with h3 | h3 | h3
            · exact absurd (Or.inr ⟨h1, Or.inr ⟨h2, h3⟩⟩) hc
            · left; cases a; cases b; simp_all
            · right; right; exact ⟨h1.symm, Or.inr ⟨h2.symm, h3⟩⟩
          · right; right; exact ⟨h1.symm, Or.inl h2⟩
        · right; left; exact h1
      rcases this with h1 | h1
      · rw [h1] at h; omega
      · have := key b a hb ha hyb hya h1; omega
  · exact key a b ha hb hya hyb

example : (⟨1999, 12, 31⟩ : Date).before ⟨2000, 1, 1⟩ := by unfold Date.before; decide

/-- C01, the part that fails: below year 5 the numbering is not injective; 31Dec0004 and
01Jan0005 get the same number, so the day after 31Dec0004 is not the next number. -/
theorem C01_year4_violation :
    (⟨4, 12, 31⟩ : Date).Valid ∧ (⟨4, 12, 31⟩ : Date).next = ⟨5, 1, 1⟩ ∧
    julianOf ⟨4, 12, 31⟩ = julianOf ⟨5, 1, 1⟩ := by
  unfold Date.Valid; decide

/-! ### C02: day numbers convert back to the date -/

/-- C02. Converting a date to its day number and back gives the date, for every first guess of
the year from the exact quotient down to 90 years below it (the C code's guess is that quotient
truncated, in floating point). -/
theorem C02_julian_roundtrip (d : Date) (hv : d.Valid) (hy : 5 ≤ d.year) (guess : Int)
    (hpos : 0 < guess) (hlo : exactYearGuess (julianOf d) - 90 ≤ guess)
    (hhi : guess ≤ exactYearGuess (julianOf d)) :
    julianToYearMonthDay guess (julianOf d) = some (d.year, d.month, d.day) :=
  julianToYMD_of_ymd hy hv.1 hv.2.1 hv.2.2.1 hv.2.2.2 hpos hlo hhi

example : (⟨2024, 2, 29⟩ : Date).Valid ∧
    exactYearGuess (julianOf ⟨2024, 2, 29⟩) = 2024 := by
  unfold Date.Valid; decide

/-- C02. Every day number from 01Jan0005 on converts to a valid date which has that number. -/
theorem C02_julian_total (j : Int) (hj : julianOf ⟨5, 1, 1⟩ ≤ j) :
    ∃ d : Date, d.Valid ∧ 5 ≤ d.year ∧ julianOf d = j ∧
      julianToYearMonthDay (exactYearGuess j) j = some (d.year, d.month, d.day) := by
  obtain ⟨d, hv, hy, he⟩ := ymd_surj (j - julianOf ⟨5, 1, 1⟩).toNat
  have hj' : julianOf d = j := by
    show yearMonthDayToJulian _ _ _ = j
    rw [he]
    show julianOf ⟨5, 1, 1⟩ + _ = j
    omega
  refine ⟨d, hv, hy, hj', ?_⟩
  have hg := guess_bounds hy hv.1 hv.2.1 hv.2.2.1 hv.2.2.2
  have hg' : d.year - 1 ≤ exactYearGuess (julianOf d) := hg.1
  have := C02_julian_roundtrip d hv hy (exactYearGuess (julianOf d)) (by omega) (by omega) (by omega)
  rw [hj'] at this
  exact this

example : julianOf ⟨5, 1, 1⟩ ≤ 0 := by decide

/-! ### C03: months outside 1..12 -/

/-- C03. A date given with any month number is the day of that month counted from January of the
given year: `yearMonthDayToJulian y M d` is the day number of day `d` of the month `M - 1` months
after January of year `y`, a month in 1..12. -/
theorem C03_month_rollover (y M d : Int) :
    let ym := addMonths y 1 (M - 1)
    1 ≤ ym.2 ∧ ym.2 ≤ 12 ∧ yearMonthDayToJulian y M d = yearMonthDayToJulian ym.1 ym.2 d := by
  intro ym
  have h1 : 1 ≤ ym.2 := by show 1 ≤ (1 - 1 + (M - 1)) % 12 + 1; omega
  have h2 : ym.2 ≤ 12 := by show (1 - 1 + (M - 1)) % 12 + 1 ≤ 12; omega
  refine ⟨h1, h2, ?_⟩
  have hfix : fixMonth y M = ym := by
    show fixMonth y M = (y + (1 - 1 + (M - 1)) / 12, (1 - 1 + (M - 1)) % 12 + 1)
    unfold fixMonth
    by_cases hM : M < 1 ∨ M > 12
    · rw [if_pos hM]
      simp only [cdiv_eq]
      split <;> split <;> (apply Prod.ext <;> simp only <;> omega)
    · rw [if_neg hM]
      apply Prod.ext <;> simp only <;> omega
  have hid : fixMonth ym.1 ym.2 = ym := by
    unfold fixMonth
    rw [if_neg (by omega)]
  unfold yearMonthDayToJulian
  rw [hfix, hid]

example : addMonths 2001 1 (-11 - 1) = (2000, 1) ∧ addMonths 2001 1 (24 - 1) = (2002, 12) := by
  decide

/-! ### C04: day of week -/

/-- The full claim: day numbers follow the seven day cycle, 1 = Sunday .. 7 = Saturday
(01Jan1900, day 1, is a Monday). -/
def DayOfWeekCorrect (j : Int) : Prop := dayOfWeek j = j % 7 + 1

/-- C04, proved part: from 31Dec1899 on.  Missing: earlier dates, where it is false. -/
theorem C04_day_of_week_partial (j : Int) (h : 0 ≤ j) :
    DayOfWeekCorrect j ∧ 1 ≤ dayOfWeek j ∧ dayOfWeek j ≤ 7 ∧
      dayOfWeek (j + 1) = (if dayOfWeek j = 7 then 1 else dayOfWeek j + 1) := by
  unfold DayOfWeekCorrect dayOfWeek
  rw [cmod_nonneg_eq h, cmod_nonneg_eq (by omega)]
  refine ⟨rfl, by omega, by omega, ?_⟩
  split <;> omega

example : dayOfWeek (julianOf ⟨2000, 1, 1⟩) = 7 := by decide

/-- C04, failing part: 30Dec1899 (a Saturday) is reported as day 0, and every day before
31Dec1899 that is not a Sunday gets a number outside 1..7. -/
theorem C04_day_of_week_violation :
    (∀ j : Int, j < 0 → j % 7 ≠ 0 → dayOfWeek j < 1 ∧ ¬ DayOfWeekCorrect j) ∧
      dayOfWeek (julianOf ⟨1899, 12, 30⟩) = 0 := by
  refine ⟨fun j h hm => ?_, by decide⟩
  unfold DayOfWeekCorrect dayOfWeek
  rw [cmod_eq, if_neg (by omega)]
  omega

/-! ### C16: two digit years -/

/-- C16. Years of three or more digits are kept, two digit years go to 2000..2099, and applying
the function again changes nothing. -/
theorem C16_addCentury (y : Int) :
    (100 ≤ y → addCentury y = y) ∧ (0 ≤ y → y < 100 → addCentury y = 2000 + y) ∧
      (-1900 ≤ y → addCentury (addCentury y) = addCentury y) := by
  unfold addCentury
  refine ⟨fun h => by rw [if_neg (by omega)], fun h1 h2 => by rw [if_pos (by omega)]; omega,
    fun h => ?_⟩
  by_cases h2 : y < 100
  · rw [if_pos h2, if_neg (by omega)]
  · rw [if_neg h2, if_neg h2]

example : addCentury 24 = 2024 := by decide

end Hec
