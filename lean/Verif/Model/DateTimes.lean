import Verif.Model.Dates
/-!
Model of instants as a pair of texts, a date and a time of day
(Utilities/DateTime/getDateAndTime.c, minutesToHourMin.c, minsToDateTime.c, millsToDateTime.c,
getDateTimeString.c, spatialDateTime.c).  Times are the bytes written from the start of the buffer, as
for `secondsToTimeString`; the sums do not overflow for dates of the years 5 to 9999.
-/
namespace Hec

/-- minutesToHourMin.c:6-39: the bytes written from the start of a buffer of `size` bytes. -/
def minutesToHourMin (minutes : Int) (size : Nat) : Bytes :=
  let ihr := cdiv minutes 60
  let imin := minutes - ihr * 60
  if size < 5 then [] else two ihr ++ two imin ++ [0]

/-- getDateAndTime.c:53-91: date and time of day; `none` for a division by zero or the date
"undefined". -/
def getDateAndTime (guess : Int → Int) (time gran base : Int) (dateSize timeSize : Nat) :
    Option (Bytes × Bytes) :=
  let granularity := if gran < 1 then 60 else gran
  let numberInDay := cdiv SECS_IN_1_DAY granularity
  if numberInDay = 0 then none
  else
    let days := cdiv time numberInDay
    let t := time - days * numberInDay
    let julian := if t < 1 then base + days - 1 else base + days
    let timeOfDay := if t < 1 then t + numberInDay else t
    let text :=
      if gran = 1 then secondsToTimeString timeOfDay 0 2 timeSize
      else if gran = 60 then minutesToHourMin timeOfDay timeSize
      else minutesToHourMin (timeOfDay * cdiv gran SECS_IN_1_MINUTE) timeSize
    (julianToDate (guess julian) julian 4 dateSize).map fun d => (d, text)

/-- minsToDateTime.c:4-17. -/
def minsToDateTime (guess : Int → Int) (mins : Int) (dateSize timeSize : Nat) : Option (Bytes × Bytes) :=
  let julian := cdiv mins MINS_IN_1_DAY
  let m := mins - julian * MINS_IN_1_DAY
  (julianToDate (guess julian) julian 4 dateSize).map fun d => (d, minutesToHourMin m timeSize)

/-- headers/heclibDate.h:8. -/
def JULIAN_01JAN1970 : Int := 25568

/-- millsToDateTime.c:4-23. -/
def millsToDateTime (guess : Int → Int) (mills : Int) (dateSize timeSize : Nat) : Option (Bytes × Bytes) :=
  let secs := cdiv mills 1000
  let millsPastSecond := mills - secs * 1000
  let jul := cdiv secs SECS_IN_1_DAY
  let secondsPastMidnight := secs - jul * SECS_IN_1_DAY
  let julian := jul + JULIAN_01JAN1970
  (julianToDate (guess julian) julian 4 dateSize).map fun d =>
    (d, secondsToTimeString secondsPastMidnight millsPastSecond 3 timeSize)

/-- getDateTimeString.c:93-98. -/
def getDateTimeString (guess : Int → Int) (julian dateStyle seconds timeStyle : Int)
    (dateSize timeSize : Nat) : Option (Bytes × Bytes) :=
  (julianToDate (guess julian) julian dateStyle dateSize).map fun d =>
    (d, secondsToTimeString seconds 0 timeStyle timeSize)

/-- spatialDateTime.c:40-85: day number, seconds and whether the status is STATUS_OKAY; `none` when the
time is read from an array element that was never set.  Without a colon `colon` is 0 (the test of `i`
only finds a colon in front). -/
def spatialDateTime (s : Bytes) : Option (Int × Int × Bool) :=
  if s.length < 10 then some (UNDEFINED_TIME, UNDEFINED_TIME, false)
  else
    let colon := (strchr s 58).getD 0
    if strchr s 58 = some 0 then some (UNDEFINED_TIME, UNDEFINED_TIME, false)
    else
      let julian := dateToJulian (s.take colon)
      if julian = UNDEFINED_TIME then some (UNDEFINED_TIME, UNDEFINED_TIME, false)
      else (timeStringToSeconds (s.drop (colon + 1))).map fun x => (julian, x, decide (¬ x < 0))

end Hec
