import Verif.Proofs.DatesPrefix
import Verif.Props.Calendar
/-!
Property theorems for dates as text: C45.
-/
namespace Hec
open _root_.Spec (Date)

/-! ### C45: a date written as text reads back as the same date -/

theorem yearText_ok (y s : Int) (hs : s ∈ wordStyles) (h1 : -100000000 < y) (h2 : y < 1000000000) :
    YearStr (yearText y s) y := by
  unfold yearText
  by_cases hy : y < 10000 ∧ y > -1000
  · rw [if_pos hy, if_neg]
    · exact (intTo4char_year y hy.2 hy.1).2
    · have : ∀ s ∈ wordStyles, ¬ ((if s ≥ 100 then s - 100 else s) ≥ 10) := by decide
      exact this s hs
  · rw [if_neg hy]
    exact formatInt_year y h1 h2

theorem characterDate_prefix (y m d s : Int) (hs : s ∈ wordStyles) :
    characterDate y m d s = wordPrefix m d s ++ yearText y s := by
  unfold characterDate wordPrefix
  by_cases hb : cmod s 10 > 1
  · rw [if_pos hb, if_pos hb, if_pos, List.append_assoc]
    have : ∀ s ∈ wordStyles, cmod s 10 > 1 → cmod (cmod s 10) 3 ≠ 0 := by decide
    exact this s hs hb
  · rw [if_neg hb, if_neg hb]
    simp only [List.append_assoc]

/-- C45. A date with the name of the month reads back as the same year, month and day, for every
day and month, in every style that shows them with the full year, for years of up to nine
characters; for years before 0 with a style other than "2Jun-005" (styles 5 and 105). -/
theorem C45_word_roundtrip (y m d s : Int) (cap : Nat) (hm1 : 1 ≤ m) (hm2 : m ≤ 12) (hd1 : 1 ≤ d)
    (hd2 : d ≤ 31) (hs : s ∈ wordStyles) (hcap : 30 ≤ cap) (hy1 : -100000000 < y)
    (hy2 : y < 1000000000) (hneg : y < 0 → s ≠ 5 ∧ s ≠ 105) :
    ∃ text, yearMonthDayToDate y m d s cap = some text ∧
      dateToYearMonthDay text = some (y, m, d) := by
  have hs0 : 0 ≤ s := by
    have : ∀ s ∈ wordStyles, 0 ≤ s := by decide
    exact this s hs
  refine ⟨(characterDate y m d s).take 29, ?_, ?_⟩
  · unfold yearMonthDayToDate
    rw [if_neg (by omega), if_neg (by omega)]
    simp only
    rw [if_neg (by omega), if_neg (by omega), List.take_take, Nat.min_eq_right (by omega)]
  · rw [characterDate_prefix y m d s hs]
    obtain ⟨m', rfl⟩ : ∃ m' : Fin 12, m = m'.val + 1 :=
      ⟨⟨(m - 1).toNat, by omega⟩, by show m = ((m - 1).toNat : Int) + 1; omega⟩
    obtain ⟨d', rfl⟩ : ∃ d' : Fin 31, d = d'.val + 1 :=
      ⟨⟨(d - 1).toNat, by omega⟩, by show d = ((d - 1).toNat : Int) + 1; omega⟩
    exact dateToYearMonthDay_text (wordPrefix_ok s hs m' d') (yearText_ok y s hs hy1 hy2)
      (fun h => wordPrefix_length s hs m' d' (hneg h).1 (hneg h).2)

example : yearMonthDayToDate 1985 6 2 4 30 = some (str "02Jun1985") ∧
    yearMonthDayToDate 1985 9 2 100 30 = some (str "SEPTEMBER 2, 1985") ∧
    yearMonthDayToDate (-12345) 9 12 8 30 = some (str "12 Sep -12345") := by decide +kernel

/-- C45. Numeric dates, month first, of the years -999 to 9999 except year 0. -/
theorem C45_number_roundtrip (y m d s : Int) (cap : Nat) (hm1 : 1 ≤ m) (hm2 : m ≤ 12) (hd1 : 1 ≤ d)
    (hd2 : d ≤ 31) (hs : s ∈ numberStyles) (hcap : 30 ≤ cap) (hy1 : -1000 < y) (hy2 : y < 10000)
    (hy0 : y ≠ 0) :
    ∃ text, yearMonthDayToDate y m d s cap = some text ∧
      dateToYearMonthDay text = some (y, m, d) := by
  have hs0 : s < -100 := by
    have : ∀ s ∈ numberStyles, s < -100 := by decide
    exact this s hs
  have dm := small_decimal m hm1 (by omega)
  have dd := small_decimal d hd1 hd2
  have tm := small_two m hm1 (by omega)
  have td := small_two d hd1 hd2
  have hY := (intTo4char_year y hy1 hy2).2
  refine ⟨(numericDate y m d s).take 29, ?_, ?_⟩
  · unfold yearMonthDayToDate
    rw [if_neg (by omega), if_neg (by omega)]
    simp only
    rw [if_neg (by omega), if_pos (by omega), List.take_take, Nat.min_eq_right (by omega)]
  · unfold numericDate
    rw [if_pos hs0, if_pos hs0]
    simp only
    have hx : (if s + 100 = -2 ∨ s + 100 = -12 then (45 : UInt8) else 47) = 45 ∨
        (if s + 100 = -2 ∨ s + 100 = -12 then (45 : UInt8) else 47) = 47 := by
      split
      · exact Or.inl rfl
      · exact Or.inr rfl
    by_cases h10 : s + 100 < -10
    · rw [if_pos h10, if_pos h10]
      have := dateToYearMonthDay_numeric hx (ne_nil_of_length (by omega)) (by omega) tm.1
        (ne_nil_of_length (by omega)) td.1 (by omega) (by omega) (by omega) hY hy0
      rw [this, tm.2.2, td.2.2]
    · rw [if_neg h10, if_neg h10]
      have := dateToYearMonthDay_numeric hx dm.2.2.1 dm.2.1 dm.1 dd.2.2.1 dd.1 dd.2.1 (by omega)
        (by omega) hY hy0
      rw [this, dm.2.2.2, dd.2.2.2]

example : yearMonthDayToDate 1985 6 2 (-101) 30 = some (str "6/2/1985") ∧
    yearMonthDayToDate (-5) 6 2 (-112) 30 = some (str "06-02--005") := by decide +kernel

/-- C45. Dates like "1985-06-02" (style -13) of the years 1 to 9999. -/
theorem C45_usgs_roundtrip (y m d : Int) (cap : Nat) (hm1 : 1 ≤ m) (hm2 : m ≤ 12) (hd1 : 1 ≤ d)
    (hd2 : d ≤ 31) (hcap : 30 ≤ cap) (hy1 : 1 ≤ y) (hy2 : y < 10000) :
    ∃ text, yearMonthDayToDate y m d (-13) cap = some text ∧
      dateToYearMonthDay text = some (y, m, d) := by
  have tm := small_two m hm1 (by omega)
  have td := small_two d hd1 hd2
  obtain ⟨hl, ds, _, hds, _, hY | hY⟩ := intTo4char_year y (by omega) hy2
  · refine ⟨(usgsDate y m d).take 29, ?_, ?_⟩
    · unfold yearMonthDayToDate
      rw [if_neg (by omega), if_neg (by omega)]
      simp only
      rw [if_pos trivial, List.take_take, Nat.min_eq_right (by omega)]
    · unfold usgsDate
      rw [dateToYearMonthDay_usgs tm.2.1 tm.1 td.2.1 td.1 hl (by rw [hY.1]; exact hds) (by omega)
        (by omega) (by rw [hY.1]; omega), tm.2.2, td.2.2, hY.1, ← hY.2]
  · omega

example : yearMonthDayToDate 1985 6 2 (-13) 30 = some (str "1985-06-02") := by decide +kernel

/-- The text has at least eight characters. -/
theorem fullStyle_length (y m d s : Int) (cap : Nat) (text : Bytes) (hm1 : 1 ≤ m) (hm2 : m ≤ 12)
    (hd1 : 1 ≤ d) (hd2 : d ≤ 31) (hy1 : 0 ≤ y) (hy2 : y < 10000)
    (hs : s ∈ wordStyles ++ numberStyles ++ [-13]) (hcap : 30 ≤ cap)
    (ht : yearMonthDayToDate y m d s cap = some text) : 8 ≤ text.length := by
  have hy4 := (intTo4char_year y (by omega) hy2).1
  unfold yearMonthDayToDate at ht
  rw [if_neg (by omega), if_neg (by omega)] at ht
  simp only [Option.some.injEq] at ht
  rw [List.take_take, Nat.min_eq_right (by omega)] at ht
  rw [← ht, List.length_take]
  refine Nat.le_min.mpr ⟨by omega, ?_⟩
  rw [List.mem_append, List.mem_append] at hs
  rcases hs with (hs | hs) | hs
  · have hs0 : 0 ≤ s := by
      have : ∀ s ∈ wordStyles, 0 ≤ s := by decide
      exact this s hs
    rw [if_neg (by omega), if_neg (by omega), characterDate_prefix y m d s hs, List.length_append]
    obtain ⟨m', rfl⟩ : ∃ m' : Fin 12, m = m'.val + 1 :=
      ⟨⟨(m - 1).toNat, by omega⟩, by show m = ((m - 1).toNat : Int) + 1; omega⟩
    obtain ⟨d', rfl⟩ : ∃ d' : Fin 31, d = d'.val + 1 :=
      ⟨⟨(d - 1).toNat, by omega⟩, by show d = ((d - 1).toNat : Int) + 1; omega⟩
    have h4 := wordPrefix_length4 s hs m' d'
    have : (yearText y s).length = 4 := by
      unfold yearText
      rw [if_pos (by omega), if_neg]
      · exact hy4
      · have : ∀ s ∈ wordStyles, ¬ ((if s ≥ 100 then s - 100 else s) ≥ 10) := by decide
        exact this s hs
    omega
  · have hs0 : s < -100 := by
      have : ∀ s ∈ numberStyles, s < -100 := by decide
      exact this s hs
    rw [if_neg (by omega), if_pos (by omega)]
    unfold numericDate
    rw [if_pos hs0, if_pos hs0]
    have dm := decimal_pos m.natAbs
    have dd := decimal_pos d.natAbs
    have tm := (small_two m hm1 (by omega)).2.1
    have td := (small_two d hd1 hd2).2.1
    simp only [List.length_append, List.length_cons]
    split <;> omega
  · rw [if_pos (List.mem_singleton.mp hs)]
    have tm := (small_two m hm1 (by omega)).2.1
    have td := (small_two d hd1 hd2).2.1
    unfold usgsDate
    simp only [List.length_append, List.length_cons]
    omega

/-- Styles of which every date of the years 5 to 9999 reads back. -/
def fullStyles : List Int := wordStyles ++ numberStyles ++ [-13]

/-- C45. The day number survives writing the date as text and reading it, for every day from
01Jan0005 to 31Dec9999 and every style that shows the day and the full year. -/
theorem C45_julian_roundtrip (j s : Int) (cap : Nat) (h1 : julianOf ⟨5, 1, 1⟩ ≤ j)
    (h2 : j ≤ julianOf ⟨9999, 12, 31⟩) (hs : s ∈ fullStyles) (hcap : 30 ≤ cap) :
    ∃ text, julianToDate (exactYearGuess j) j s cap = some text ∧ dateToJulian text = j := by
  obtain ⟨d, hv, hy, hj, hd⟩ := C02_julian_total j h1
  have hv' := hv
  unfold Date.Valid at hv
  have hday : d.day ≤ 31 := by
    have : Spec.monthLen d.year d.month ≤ 31 := by unfold Spec.monthLen; split <;> split <;> omega
    omega
  have hmax : d.year ≤ 9999 := by
    rcases Int.lt_or_le 9999 d.year with h | h
    · exfalso
      have := (C01_julian_order ⟨9999, 12, 31⟩ d (by unfold Date.Valid; decide) hv' (by decide) hy).mpr
        (Or.inl h)
      omega
    · exact h
  have hund : j ≠ UNDEFINED_TIME := by
    have : julianOf ⟨5, 1, 1⟩ > UNDEFINED_TIME := by decide
    omega
  have key : ∃ text, yearMonthDayToDate d.year d.month d.day s cap = some text ∧
      dateToYearMonthDay text = some (d.year, d.month, d.day) := by
    unfold fullStyles at hs
    rw [List.mem_append, List.mem_append] at hs
    rcases hs with (hs | hs) | hs
    · exact C45_word_roundtrip _ _ _ s cap hv.1 hv.2.1 hv.2.2.1 hday hs hcap (by omega) (by omega)
        (by omega)
    · exact C45_number_roundtrip _ _ _ s cap hv.1 hv.2.1 hv.2.2.1 hday hs hcap (by omega) (by omega)
        (by omega)
    · rw [List.mem_singleton.mp hs]
      exact C45_usgs_roundtrip _ _ _ cap hv.1 hv.2.1 hv.2.2.1 hday hcap (by omega) (by omega)
  obtain ⟨text, ht, hp⟩ := key
  refine ⟨text, ?_, ?_⟩
  · unfold julianToDate
    rw [if_neg hund, hd]
    exact ht
  · unfold dateToJulian
    rw [hp]
    have e0 : (if d.day = 0 then 1 else d.day) = d.day := if_neg (by omega)
    simp only [e0]
    rw [if_neg]
    · exact hj
    · rintro ⟨h100, h7⟩
      -- a text of seven characters has no year of four digits
      have : 8 ≤ text.length := fullStyle_length d.year d.month d.day s cap text hv.1 hv.2.1 hv.2.2.1 hday (by omega) (by omega) hs hcap ht
      omega

example : julianOf ⟨5, 1, 1⟩ ≤ 31199 ∧ 31199 ≤ julianOf ⟨9999, 12, 31⟩ ∧ (-13 : Int) ∈ fullStyles := by
  decide +kernel

/-- C45. Dates without a day ("June 1985", "Jun 1985") read as the first day of the month, for the
years 100 to 9999. -/
theorem C45_month_roundtrip (y m d s : Int) (cap : Nat) (hm1 : 1 ≤ m) (hm2 : m ≤ 12) (hd1 : 1 ≤ d)
    (hd2 : d ≤ 31) (hs : s ∈ [3, 6, 9, 103, 106, 109]) (hcap : 30 ≤ cap) (hy1 : 100 ≤ y)
    (hy2 : y < 10000) :
    ∃ text, yearMonthDayToDate y m d s cap = some text ∧
      dateToYearMonthDay text = some (y, m, 0) ∧ dateToJulian text = julianOf ⟨y, m, 1⟩ := by
  have hb : cmod s 10 > 1 ∧ cmod (cmod s 10) 3 = 0 ∧ cmod s 10 ≠ 2 ∧ cmod s 10 ≠ 7 ∧ cmod s 10 ≠ 8 ∧
      0 ≤ s ∧ ¬ ((if s ≥ 100 then s - 100 else s) ≥ 10) := by
    have : ∀ s ∈ ([3, 6, 9, 103, 106, 109] : List Int), cmod s 10 > 1 ∧ cmod (cmod s 10) 3 = 0 ∧
      cmod s 10 ≠ 2 ∧ cmod s 10 ≠ 7 ∧ cmod s 10 ≠ 8 ∧ 0 ≤ s ∧
      ¬ ((if s ≥ 100 then s - 100 else s) ≥ 10) := by decide
    exact this s hs
  have hday : dayText d s = [] := by
    unfold dayText
    rw [if_neg (by omega), if_neg (by omega), if_neg (by omega)]
  have hc : characterDate y m d s = monthText m s ++ intTo4char y := by
    unfold characterDate
    rw [if_pos hb.1, if_neg (by omega), hday]
    unfold yearText
    rw [if_pos (by omega), if_neg hb.2.2.2.2.2.2]
    rfl
  have hp : ∀ s ∈ ([3, 6, 9, 103, 106, 109] : List Int), ∀ m : Fin 12,
      PrefixOk (upperText (monthText (m.val + 1) s)) (m.val + 1) 0 = true := by decide +kernel
  have hparse : dateToYearMonthDay ((characterDate y m d s).take 29) = some (y, m, 0) := by
    rw [hc]
    obtain ⟨m', rfl⟩ : ∃ m' : Fin 12, m = m'.val + 1 :=
      ⟨⟨(m - 1).toNat, by omega⟩, by show m = ((m - 1).toNat : Int) + 1; omega⟩
    exact dateToYearMonthDay_text (hp s hs m') (intTo4char_year y (by omega) hy2).2 (by omega)
  refine ⟨(characterDate y m d s).take 29, ?_, hparse, ?_⟩
  · unfold yearMonthDayToDate
    rw [if_neg (by omega), if_neg (by omega)]
    simp only
    rw [if_neg (by omega), if_neg (by omega), List.take_take, Nat.min_eq_right (by omega)]
  · unfold dateToJulian
    rw [hparse]
    simp only
    rw [if_neg (by omega)]
    rfl

example : yearMonthDayToDate 1985 6 2 6 30 = some (str "Jun1985") := by decide +kernel

/-- C45, the part that fails: numeric styles cut the year to four characters, so a year of five
digits reads back as another year, and year 0 does not read back at all. -/
theorem C45_number_violation :
    yearMonthDayToDate 12345 6 2 (-101) 30 = some (str "6/2/1234") ∧
    dateToYearMonthDay (str "6/2/1234") = some (1234, 6, 2) ∧
    yearMonthDayToDate 0 6 2 (-101) 30 = some (str "6/2/0000") ∧
    dateToYearMonthDay (str "6/2/0000") = none ∧
    yearMonthDayToDate (-5) 6 2 5 30 = some (str "2Jun-005") ∧
    dateToYearMonthDay (str "2Jun-005") = none := by decide +kernel

/-- C45, the part that fails: with years of two digits the century is only restored for texts of
exactly seven characters, so in style 15 the result depends on the number of digits of the day; and
"JAN0050" (style 106, seven characters) is read as January 2050. -/
theorem C45_century_violation :
    yearMonthDayToDate 2021 6 2 15 30 = some (str "2Jun21") ∧
    dateToJulian (str "2Jun21") = julianOf ⟨21, 6, 2⟩ ∧
    yearMonthDayToDate 2021 6 12 15 30 = some (str "12Jun21") ∧
    dateToJulian (str "12Jun21") = julianOf ⟨2021, 6, 12⟩ ∧
    yearMonthDayToDate 50 1 1 106 30 = some (str "JAN0050") ∧
    dateToJulian (str "JAN0050") = julianOf ⟨2050, 1, 1⟩ ∧
    julianOf ⟨21, 6, 2⟩ ≠ julianOf ⟨2021, 6, 2⟩ := by decide +kernel

/-- C45, the part that fails: a buffer too short for the text is documented to give
STATUS_NOT_OKAY; the text is cut and its length returned, and the cut text can be another valid
date. -/
theorem C45_short_buffer_violation :
    yearMonthDayToDate 1985 6 2 4 9 = some (str "02Jun198") ∧
    dateToYearMonthDay (str "02Jun198") = some (198, 6, 2) := by decide +kernel

end Hec
