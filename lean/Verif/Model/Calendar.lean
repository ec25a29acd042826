import Verif.Model.CArith
/-!
Model of the calendar functions of heclib (Utilities/DateTime).
-/
namespace Hec

/-- `UNDEFINED_TIME`, /repo/heclib/heclib_c/src/headers/hecdssInternal.h (value -2147483647). -/
def UNDEFINED_TIME : Int := -2147483647

/-- `JULIAN_BASE_DATE` used at yearMonthDayToJulian.c:99 and julianToYearMonthDay.c:63. -/
def JULIAN_BASE_DATE : Int := 693960

/-- isLeapYear.c:27-33. -/
def isLeapYear (year : Int) : Bool :=
  cmod year 400 == 0 || (cmod year 4 == 0 && !(cmod year 100 == 0))

/-- The table `NDAY` of yearMonthDayToJulian.c:48, indexed by `month - 1`.
Months outside 1..12 never reach the table in C (line 96); here they give 0. -/
def NDAY (month : Int) : Int :=
  if month = 1 then 0 else if month = 2 then 31 else if month = 3 then 59
  else if month = 4 then 90 else if month = 5 then 120 else if month = 6 then 151
  else if month = 7 then 181 else if month = 8 then 212 else if month = 9 then 243
  else if month = 10 then 273 else if month = 11 then 304 else if month = 12 then 334 else 0

/-- yearMonthDayToJulian.c:56-66: bring the month number into 1..12. -/
def fixMonth (year month : Int) : Int × Int :=
  if month < 1 ∨ month > 12 then
    let iyears := cdiv month 12
    let month' := month - iyears * 12
    let year' := year + iyears
    if month' < 1 then (year' - 1, month' + 12) else (year', month')
  else (year, month)

/-- yearMonthDayToJulian.c:68-78: number of leap days before the year. -/
def leapDays (year : Int) : Int :=
  if year > 4 then
    cdiv (year - 1) 4 + cdiv (year - 1) 400 - cdiv (year - 1) 100
  else if year > 0 then 1
  else cdiv (year + 1) 4 + cdiv (year + 1) 400 - cdiv (year + 1) 100

/-- yearMonthDayToJulian.c:81-94. -/
def leapCheck (year month : Int) : Int :=
  if isLeapYear year then
    if year ≥ 0 then (if month > 2 then 1 else 0)
    else (if month < 3 then -1 else 0)
  else 0

/-- yearMonthDayToJulian.c:46-101. -/
def yearMonthDayToJulian (year month day : Int) : Int :=
  let ym := fixMonth year month
  if ym.2 < 1 ∨ ym.2 > 12 then UNDEFINED_TIME
  else ym.1 * 365 + leapDays ym.1 + NDAY ym.2 + day + leapCheck ym.1 ym.2 - JULIAN_BASE_DATE

/-- julianToYearMonthDay.c:67-74: look forward for the first year whose 1 January is after
`julian`; `fuel` is the loop bound (100 in C). -/
def searchYearFwd (julian : Int) : Nat → Int → Option Int
  | 0, _ => none
  | fuel + 1, iyear =>
    if yearMonthDayToJulian iyear 1 1 > julian then some iyear
    else searchYearFwd julian fuel (iyear + 1)

/-- julianToYearMonthDay.c:83-90: look backward (BC years). -/
def searchYearBack (julian : Int) : Nat → Int → Option Int
  | 0, _ => none
  | fuel + 1, iyear =>
    if julian ≥ yearMonthDayToJulian iyear 1 1 then some iyear
    else searchYearBack julian fuel (iyear - 1)

/-- julianToYearMonthDay.c:108-115: `for (i = juld; i <= 12; i++)`; the first month whose first
day is after `julian`. -/
def searchMonthFwd (julian iyear : Int) : Nat → Int → Option Int
  | 0, _ => none
  | fuel + 1, i =>
    if i > 12 then none
    else if yearMonthDayToJulian iyear i 1 > julian then some i
    else searchMonthFwd julian iyear fuel (i + 1)

/-- julianToYearMonthDay.c:121-127: `for (i = 12; i >= 0; i--)`. -/
def searchMonthBack (julian iyear : Int) : Nat → Int → Int
  | 0, _ => 0
  | fuel + 1, i =>
    if i < 0 then 0
    else if julian ≥ yearMonthDayToJulian iyear i 1 then i
    else searchMonthBack julian iyear fuel (i - 1)

/-- julianToYearMonthDay.c:101-130: the month within the year found. -/
def monthOfYear (julian iyear : Int) : Int :=
  if iyear > -1 then
    let julb := yearMonthDayToJulian iyear 1 1
    let j := cdiv (julian - julb + 28) 28
    let juld := if j > 12 then 12 else j
    match searchMonthFwd julian iyear 32 juld with
    | some i => i - 1
    | none => juld
  else searchMonthBack julian iyear 13 12

/-- julianToYearMonthDay.c:46-145.  The first guess of the year, line 64,
`(int)((float)(julian + 693960) / 365.2425)`, is floating point; it is the parameter `iyear0`
here, and the theorems quantify over it (within one year of the exact quotient).
Result `none` models the return value -1. -/
def julianToYearMonthDay (iyear0 julian : Int) : Option (Int × Int × Int) :=
  let yr : Option Int :=
    if iyear0 > 0 then (searchYearFwd julian 100 iyear0).map (fun y => y - 1)
    else searchYearBack julian 100 iyear0
  match yr with
  | none => none
  | some iyear =>
    let imonth := monthOfYear julian iyear
    let ym : Int × Int :=
      if imonth ≤ 0 ∨ imonth > 12 then
        let iyr := cdiv imonth 12 - 1
        (iyear + iyr, imonth + (-iyr * 12))
      else (iyear, imonth)
    some (ym.1, ym.2, julian - yearMonthDayToJulian ym.1 ym.2 1 + 1)

/-- The exact value of the quotient whose floating point evaluation is the first guess. -/
def exactYearGuess (julian : Int) : Int := cdiv ((julian + JULIAN_BASE_DATE) * 10000) 3652425

/-- dayOfWeek.c:28-35. -/
def dayOfWeek (julian : Int) : Int := cmod julian 7 + 1

/-- addCentury.c. -/
def addCentury (year : Int) : Int := if year < 100 then year + 2000 else year

end Hec
