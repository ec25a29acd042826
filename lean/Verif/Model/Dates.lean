import Verif.Model.Intervals
import Verif.Model.Calendar
/-!
Model of the conversions between dates and text: Utilities/DateTime/yearMonthDayToDate.c,
dateToYearMonthDay.c, dateToJulian.c, julianToDate.c and the number conversions they use
(Utilities/intTo2char.c, intTo4char.c, itoa.c, findInt.c, reverseNonNumeric.c, `atoi`).

Strings are lists of bytes without the terminating zero.  `int` is unbounded; the theorems keep
years within nine characters, the room in `charYear[10]` (yearMonthDayToDate.c:86).
-/
namespace Hec

/-- The decimal digits of a number, least significant first (itoa.c:64-70); at most ten for an
`int`. -/
def digitsRev : Nat → Nat → List Nat
  | 0, _ => []
  | fuel + 1, n => if n < 10 then [n] else n % 10 :: digitsRev fuel (n / 10)

def digitChar (d : Nat) : UInt8 := UInt8.ofNat (d + 48)

/-- itoa.c:39-81 in base 10 for a number that is not negative, and `%d`. -/
def decimal (n : Nat) : Bytes := ((digitsRev 10 n).map digitChar).reverse

/-- Leading zeros up to `w` characters. -/
def zeroPad (w : Nat) (b : Bytes) : Bytes := List.replicate (w - b.length) 48 ++ b

/-- `%0wd` of printf: zeros go between the sign and the digits, `w` counts the sign. -/
def formatZeros (w : Nat) (n : Int) : Bytes :=
  if n < 0 then 45 :: zeroPad (w - 1) (decimal n.natAbs) else zeroPad w (decimal n.natAbs)

/-- `%d` of printf. -/
def formatInt (n : Int) : Bytes := if n < 0 then 45 :: decimal n.natAbs else decimal n.natAbs

/-- intTo2char.c:35-39: `snprintf(c, 3, "%02d", i)`. -/
def intTo2char (n : Int) : Bytes := (formatZeros 2 n).take 2

/-- intTo4char.c:35-39: `snprintf(c, 5, "%04d", i)`. -/
def intTo4char (n : Int) : Bytes := (formatZeros 4 n).take 4

/-- LONG_MONTH_NAMES (heclibDate.h). -/
def monthNames : List Bytes :=
  [str "January", str "February", str "March", str "April", str "May", str "June", str "July",
    str "August", str "September", str "October", str "November", str "December"]

/-- upperCase.c. -/
def upperText (b : Bytes) : Bytes := b.map toupper

/-- yearMonthDayToDate.c:155-173: the month of a character style date. -/
def monthText (month style : Int) : Bytes :=
  let name := monthNames.getD (month - 1).toNat []
  let name := if style ≥ 100 then upperText name else name
  let b := cmod style 10
  if b > 6 ∨ b = 1 then name.take 3 ++ [32]
  else if b ≥ 4 then name.take 3
  else name ++ [32]

/-- yearMonthDayToDate.c:178-188: the year of a character style date.  `charYear` has room for nine
characters. -/
def yearText (year style : Int) : Bytes :=
  let j := if style ≥ 100 then style - 100 else style
  if year < 10000 ∧ year > -1000 then
    if j ≥ 10 then (intTo4char year).drop 2 else intTo4char year
  else (formatInt year).take 9

/-- yearMonthDayToDate.c:190-206: the day of a character style date. -/
def dayText (day style : Int) : Bytes :=
  let b := cmod style 10
  let i := cmod b 3
  let d := if i = 1 ∧ b > 1 then intTo2char day
    else if i = 2 ∨ b ≤ 1 then decimal day.natAbs
    else []
  if b = 2 ∨ b = 7 ∨ b = 8 then d ++ [32] else d

/-- yearMonthDayToDate.c:208-225: a character style date. -/
def characterDate (year month day style : Int) : Bytes :=
  let b := cmod style 10
  if b > 1 then
    if cmod b 3 ≠ 0 then dayText day style ++ (monthText month style ++ yearText year style)
    else monthText month style ++ (dayText day style ++ yearText year style)
  else monthText month style ++ (dayText day style ++ (str ", " ++ yearText year style))

/-- yearMonthDayToDate.c:95-109: the USGS style. -/
def usgsDate (year month day : Int) : Bytes :=
  intTo4char year ++ 45 :: (intTo2char month ++ 45 :: intTo2char day)

/-- yearMonthDayToDate.c:110-145: numeric styles. -/
def numericDate (year month day style : Int) : Bytes :=
  let charYear := if style < -100 then intTo4char year
    else intTo2char (if year > 100 then cmod year 100 else year)
  let style := if style < -100 then style + 100 else style
  let delimiter : UInt8 := if style = -2 ∨ style = -12 then 45 else 47
  let charDay := if style < -10 then intTo2char day else decimal day.natAbs
  let charMonth := if style < -10 then intTo2char month else decimal month.natAbs
  charMonth ++ delimiter :: (charDay ++ delimiter :: charYear)

/-- yearMonthDayToDate.c:77-227: the text and the value returned, `none` for STATUS_NOT_OKAY (the
buffer of the caller, `cap` bytes, is then not written).  `charDate` has room for 29 characters,
the caller's buffer for `cap - 1`. -/
def yearMonthDayToDate (year month day style : Int) (cap : Nat) : Option Bytes :=
  if day < 1 ∨ day > 31 then none
  else if month < 1 ∨ month > 12 then none
  else
    let text := if style = -13 then usgsDate year month day
      else if style < 0 then numericDate year month day style
      else characterDate year month day style
    some ((text.take 29).take (cap - 1))

/-- `isdigit`, as in reverseNonNumeric.c:43 and findInt.c:61. -/
def isDigit (c : UInt8) : Bool := decide (48 ≤ c ∧ c ≤ 57)

/-- Value of a run of digits. -/
def digitsValue (b : Bytes) : Nat := b.foldl (fun a c => a * 10 + (c.toNat - 48)) 0

/-- `atoi` of the C library. -/
def atoi (b : Bytes) : Int :=
  let b := b.dropWhile (fun c => c = 32 ∨ (9 ≤ c ∧ c ≤ 13))
  if b.head? = some 45 then -(digitsValue (b.tail.takeWhile isDigit) : Int)
  else if b.head? = some 43 then digitsValue (b.tail.takeWhile isDigit)
  else digitsValue (b.takeWhile isDigit)

/-- reverseNonNumeric.c:36-48: index of the last character that is no digit. -/
def reverseNonNumeric (b : Bytes) : Option Nat :=
  (b.reverse.findIdx? (fun c => !isDigit c)).map (fun i => b.length - 1 - i)

/-- `strchr` and `strrchr`. -/
def strchr (b : Bytes) (c : UInt8) : Option Nat := b.findIdx? (· == c)
def strrchr (b : Bytes) (c : UInt8) : Option Nat :=
  (b.reverse.findIdx? (· == c)).map (fun i => b.length - 1 - i)

/-- findInt.c:48-98: the first run of digits; the value and the number of characters (0 if there is
none). -/
def findInt (b : Bytes) : Int × Nat :=
  match b.findIdx? isDigit with
  | none => (0, 0)
  | some i =>
    let ds := (b.drop i).takeWhile isDigit
    if 0 < i ∧ b[i - 1]? = some 45 then (-(digitsValue ds : Int), ds.length + 1)
    else (digitsValue ds, ds.length)

/-- `strstr` finds the text. -/
def contains (b t : Bytes) : Bool :=
  match b with
  | [] => t.isPrefixOf []
  | c :: cs => t.isPrefixOf (c :: cs) || contains cs t

/-- dateToYearMonthDay.c:241-255: the first month whose first three letters occur. -/
def findMonthFrom (b : Bytes) : List Bytes → Int → Int
  | [], _ => 0
  | m :: ms, i => if contains b (upperText (m.take 3)) then i else findMonthFrom b ms (i + 1)

def findMonth (b : Bytes) : Int := findMonthFrom b monthNames 1

/-- dateToYearMonthDay.c:226-255: day and month from the text before the year. -/
def dayAndMonth (b : Bytes) : Option (Int × Int) :=
  let f := findInt b
  let day := if f.2 = 0 then 0 else f.1
  if f.2 ≠ 0 ∧ (f.1 < 0 ∨ f.1 > 31) then none
  else if findMonth b = 0 then none
  else some (findMonth b, day)

/-- dateToYearMonthDay.c:120-145: a USGS style date. -/
def parseUsgs (c : Bytes) : Option (Int × Int × Int) :=
  if c.length ≠ 10 then none
  else if c[7]? ≠ some 45 then none
  else
    let y := atoi (c.take 4)
    let m := atoi ((c.drop 5).take 2)
    let d := atoi ((c.drop 8).take 2)
    if y = 0 ∨ m = 0 ∨ d = 0 then none else some (y, m, d)

/-- dateToYearMonthDay.c:146-178: numeric styles; `idx` is one more than the position of the first
delimiter `x`. -/
def parseNumeric (c : Bytes) (idx : Nat) (x : UInt8) : Option (Int × Int × Int) :=
  let m := atoi (c.take (idx - 1))
  if m = 0 then none
  else match strchr (c.drop idx) x with
    | none => none
    | some i =>
      let d := atoi (((c.drop idx).take i).take 9)
      let y := atoi ((c.drop (idx + i + 1)).take 9)
      if d = 0 ∨ y = 0 then none else some (y, m, d)

/-- dateToYearMonthDay.c:186-256: a date with the name of the month; `p` is the position of the
last character that is no digit (lines 192-224). -/
def parseText (c : Bytes) : Option (Int × Int × Int) :=
  match reverseNonNumeric c with
  | none => (dayAndMonth c).map (fun r => (0, r.1, r.2))
  | some p =>
    let p := if c.getD p 0 = 45 then p - 1 else p
    let idx := p + 1
    let s := (c.drop idx).take 9
    let y := atoi s
    let ch := c.getD p 0
    if y = 0 ∧ s.head? ≠ some 48 then none
    else if idx > 9 ∧ ch ≠ 32 ∧ (ch < 43 ∨ ch ≥ 128 ∨ (57 < ch ∧ ch < 65)) then none
    else (dayAndMonth (c.take idx)).map (fun r => (y, r.1, r.2))

/-- dateToYearMonthDay.c:56-265: year, month and day, `none` for STATUS_NOT_OKAY. -/
def dateToYearMonthDay (s : Bytes) : Option (Int × Int × Int) :=
  let c := upperText (s.take 29)
  if c.length < 3 then none
  else
    match strchr c 47 with
    | some i =>
      let dash := strchr c 45
      let negativeYear : Bool := strrchr c 45 = reverseNonNumeric c ∧ strrchr c 45 = dash
      if dash ≠ none ∧ ¬ negativeYear then none
      else if i + 1 = 5 then parseUsgs c
      else if i + 1 = 2 ∨ i + 1 = 3 then parseNumeric c (i + 1) 47
      else none
    | none =>
      match strchr c 45 with
      | some i =>
        if i + 1 > 5 then parseText c
        else if i + 1 = 5 then parseUsgs c
        else if i + 1 = 2 ∨ i + 1 = 3 then parseNumeric c (i + 1) 45
        else none
      | none => parseText c


/-- dateToJulian.c:41-69. -/
def dateToJulian (s : Bytes) : Int :=
  match dateToYearMonthDay s with
  | none => UNDEFINED_TIME
  | some (year, month, day) =>
    let day := if day = 0 then 1 else day
    let year := if year < 100 ∧ s.length = 7 then addCentury year else year
    yearMonthDayToJulian year month day

/-- julianToDate.c:65-82; `guess` is the first guess of the year in `julianToYearMonthDay`. -/
def julianToDate (guess julian style : Int) (cap : Nat) : Option Bytes :=
  if julian = UNDEFINED_TIME then none
  else (julianToYearMonthDay guess julian).bind fun x =>
    yearMonthDayToDate x.1 x.2.1 x.2.2 style cap

end Hec
