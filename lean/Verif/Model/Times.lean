import Verif.Model.Calendar
/-!
Model of the time arithmetic of heclib: Utilities/DateTime and Public/ztsOffset*.c,
Internal/zts*Block*.c.
-/
namespace Hec

/-- standardIntervals.h:6-39. -/
def SECS_IN_1_YEAR : Int := 31536000
def SECS_IN_1_MONTH : Int := 2592000
def SECS_IN_SEMI_MONTH : Int := 1296000
def SECS_IN_TRI_MONTH : Int := 864000
def SECS_IN_1_WEEK : Int := 604800
def SECS_IN_1_DAY : Int := 86400
def SECS_IN_6_HOURS : Int := 21600
def SECS_IN_4_HOURS : Int := 14400
def SECS_IN_15_MINUTES : Int := 900
def SECS_IN_1_MINUTE : Int := 60
/-- standardIntervals.h:43-48. -/
def MINS_IN_1_YEAR : Int := 525600
def MINS_IN_1_MONTH : Int := 43200
def MINS_IN_SEMI_MONTH : Int := 21600
def MINS_IN_TRI_MONTH : Int := 14400
def MINS_IN_1_DAY : Int := 1440

/-- cleanTime.c:68-79: the length of a day in units of the granularity. -/
def dayLengthOf (gran : Int) : Int :=
  let g := if gran < 1 then 60 else gran
  if g = 60 then MINS_IN_1_DAY else if g = 1 then SECS_IN_1_DAY else cdiv SECS_IN_1_DAY g

/-- cleanTime.c:42-100; the in/out parameters are returned.  The return code (0 for an undefined
time) is dropped.  Simplification: a granularity above 86400 makes the C code divide by zero;
here the quotient is 0. -/
def cleanTime (julian itime gran : Int) : Int × Int :=
  if julian = UNDEFINED_TIME then (julian, itime)
  else if julian = 0 ∧ itime = 0 then (UNDEFINED_TIME, -1)
  else if gran = 60 ∧ itime > 0 ∧ itime ≤ MINS_IN_1_DAY then (julian, itime)
  else if gran = 1 ∧ itime > 0 ∧ itime ≤ SECS_IN_1_DAY then (julian, itime)
  else
    let dayLength := dayLengthOf gran
    if itime > 0 ∧ itime ≤ dayLength then (julian, itime)
    else
      let days := cdiv itime dayLength
      let r : Int × Int :=
        if days > 0 then (julian + days, itime - days * dayLength)
        else (julian + days - 1, itime - days * dayLength + dayLength)
      if r.2 = 0 then (r.1 - 1, dayLength) else r

/-- compareTimes.c:61-89. -/
def compareTimes (jul1 time1 base1 gran1 jul2 time2 base2 gran2 : Int) : Int :=
  let a := cleanTime (jul1 + base1) time1 gran1
  let t1 := if gran1 > 1 then a.2 * gran1 else a.2
  let b := cleanTime (jul2 + base2) time2 gran2
  let t2 := if gran2 > 1 then b.2 * gran2 else b.2
  if a.1 < b.1 then -1 else if a.1 > b.1 then 1
  else if t1 < t2 then -1 else if t1 > t2 then 1 else 0

/-- A time window: the four fields of `ztsTimeWindow` used by isTimeInRange. -/
structure TimeWindow where
  startJulian : Int
  startTimeSeconds : Int
  endJulian : Int
  endTimeSeconds : Int

/-- isTimeInRange.c:57-88; `status` is `*lastValueStatus`, the result is (return value, new
status). -/
def isTimeInRange (timeValue status gran base : Int) (w : TimeWindow) : Bool × Int :=
  let g := if gran < 1 then 60 else gran
  let lo := (w.startJulian - base) * cdiv SECS_IN_1_DAY g + cdiv w.startTimeSeconds g
  let hi := (w.endJulian - base) * cdiv SECS_IN_1_DAY g + cdiv w.endTimeSeconds g
  if status < 0 ∧ timeValue < lo then (false, status)
  else if timeValue > hi then (false, 1)
  else (true, 0)

/-- julianToYearMonthDay as called by the time functions, with the exact first guess; when the
search fails the C variables stay uninitialised, here they become 0. -/
def ymdOf (julian : Int) : Int × Int × Int :=
  (julianToYearMonthDay (exactYearGuess julian) julian).getD (0, 0, 0)

/-- ztsOffset.c:90-222.  STATUS_NOT_OKAY is -1. -/
def ztsOffset (interval julian seconds : Int) : Int :=
  if interval < 1 then -1 else
  let c := cleanTime julian seconds 1
  let jul := c.1
  let secs := c.2
  if interval ≤ SECS_IN_1_DAY then
    secs - cdiv secs interval * interval
  else if interval = SECS_IN_1_WEEK then
    let off := (dayOfWeek jul - 1) * SECS_IN_1_DAY + secs
    if off = SECS_IN_1_WEEK then 0 else off
  else
    let ymd := ymdOf jul
    let year := ymd.1
    let month := ymd.2.1
    let day := ymd.2.2
    if interval ≤ SECS_IN_1_MONTH then
      if month ≠ 2 ∧ (day = 30 ∨ day = 31) then 0
      else if month = 2 ∧ day ≥ 28 then 0
      else
        let julBeg := yearMonthDayToJulian year month 1
        if interval = SECS_IN_TRI_MONTH then
          if day = 9 ∨ day = 10 then 0
          else if day = 19 ∨ day = 20 then 0
          else
            let day' := if day > 20 then day - 20 else if day > 10 then day - 10 else day
            (yearMonthDayToJulian year month day' - julBeg) * SECS_IN_1_DAY + secs
        else if interval = SECS_IN_SEMI_MONTH then
          if day = 14 ∨ day = 15 then 0
          else
            let day' := if day > 15 then day - 15 else day
            (yearMonthDayToJulian year month day' - julBeg) * SECS_IN_1_DAY + secs
        else if interval = SECS_IN_1_MONTH then
          (jul - julBeg) * SECS_IN_1_DAY + secs
        else -1
    else if interval = SECS_IN_1_YEAR then
      if month = 12 ∧ day = 31 then 0
      else
        let julBeg := yearMonthDayToJulian year 1 1
        let leap : Int :=
          if isLeapYear year then
            (if year > 0 then (if month > 2 then 1 else 0) else (if month > 2 then -1 else 0))
          else 0
        (jul - julBeg - leap) * SECS_IN_1_DAY + secs
    else -1

/-- ztsOffsetAdjustToStandard.c:89-169: (offset returned, new julian, new seconds). -/
def ztsOffsetAdjustToStandard (interval julian seconds : Int) : Int × Int × Int :=
  if interval < 1 then (-1, julian, seconds) else
  let c := cleanTime julian seconds 1
  let off := ztsOffset interval c.1 c.2
  if interval ≤ SECS_IN_1_WEEK then
    if off > 0 then
      let r := cleanTime c.1 (c.2 + (interval - off)) 1
      (off, r.1, r.2)
    else (off, c.1, c.2)
  else
    let ymd := ymdOf c.1
    let year := ymd.1
    let month := ymd.2.1
    let day := ymd.2.2
    if interval ≤ SECS_IN_1_MONTH then
      let day' : Option Int :=
        if interval = SECS_IN_TRI_MONTH then
          some (if day ≤ 10 then 10 else if day ≤ 20 then 20 else 28)
        else if interval = SECS_IN_SEMI_MONTH then some (if day ≤ 15 then 15 else 28)
        else if interval = SECS_IN_1_MONTH then some 28
        else none
      match day' with
      | none => (-1, c.1, c.2)
      | some d =>
        let j := if d ≥ 25 then yearMonthDayToJulian year (month + 1) 1 - 1
          else yearMonthDayToJulian year month d
        (off, j, SECS_IN_1_DAY)
    else if interval = SECS_IN_1_YEAR then
      (off, yearMonthDayToJulian year 12 31, SECS_IN_1_DAY)
    else (-1, c.1, c.2)

/-- incrementTime.c:123-142: intervals below ten days. -/
def incrementSimple (interval n julianStart secondsStart : Int) : Int × Int :=
  let lseconds := interval * n + secondsStart
  let r : Int × Int :=
    if lseconds < -SECS_IN_1_DAY ∨ lseconds > SECS_IN_1_DAY then
      let day := cdiv lseconds SECS_IN_1_DAY
      let iremain := lseconds - day * SECS_IN_1_DAY
      if iremain < 1 then (julianStart + (day - 1), iremain + SECS_IN_1_DAY)
      else (julianStart + day, iremain)
    else (julianStart, secondsStart + interval * n)
  cleanTime r.1 r.2 1

/-- incrementTime.c:158-235: the year, month and day after `n` periods, from the standard date
(year, month, day). -/
def incrementYMD (interval n year month day : Int) : Int × Int × Int :=
  let intervalMinutes := cdiv interval SECS_IN_1_MINUTE
  if intervalMinutes = MINS_IN_TRI_MONTH then
    let imonth := cdiv n 3
    let iremain := n - imonth * 3
    let month := month + imonth
    let day := day + iremain * 10
    let md : Int × Int := if day < 1 then (month - 1, day + 30) else (month, day)
    let md : Int × Int := if md.2 > 31 then (md.1 + 1, md.2 - 30) else md
    let ym : Int × Int := if md.1 < 1 then (year - 1, md.1 + 12) else (year, md.1)
    (ym.1, ym.2, if md.2 > 25 then 28 else if md.2 > 15 then 20 else 10)
  else if intervalMinutes = MINS_IN_SEMI_MONTH then
    let imonth := cdiv n 2
    let iremain := n - imonth * 2
    let month := month + imonth
    let day := day + iremain * 15
    let md : Int × Int := if day < 1 then (month - 1, day + 30) else (month, day)
    let md : Int × Int := if md.2 > 31 then (md.1 + 1, md.2 - 30) else md
    let ym : Int × Int := if md.1 < 1 then (year - 1, md.1 + 12) else (year, md.1)
    (ym.1, ym.2, if md.2 > 25 then 28 else 15)
  else if (intervalMinutes - MINS_IN_1_MONTH).natAbs ≤ 2 * MINS_IN_1_DAY then
    (year, month + n, 28)
  else if (intervalMinutes - MINS_IN_1_YEAR).natAbs ≤ MINS_IN_1_DAY then
    (year + n, 12, 31)
  else
    (year, month, day + cdiv intervalMinutes MINS_IN_1_DAY * n)

/-- incrementTime.c:145-246 for a result without offset (line 243): intervals of ten days or
more.  The offset branch (line 239) needs `ztsOffsetAdjustToOffset`, which calls `incrementTime`
back with -1 period on a standard time; that recursion has depth one and is unrolled in
`incrementTime` below. -/
def incrementStandard (interval n julianStart secondsStart : Int) : Int × Int :=
  let a := ztsOffsetAdjustToStandard interval julianStart secondsStart
  let ymd := ymdOf a.2.1
  let r := incrementYMD interval n ymd.1 ymd.2.1 ymd.2.2
  let j := yearMonthDayToJulian r.1 r.2.1 r.2.2
  let b := ztsOffsetAdjustToStandard interval j a.2.2
  (b.2.1, b.2.2)

/-- ztsOffsetAdjustToOffset.c:116-132: leap day correction of yearly data. -/
def leapAdjust (interval julian : Int) : Int :=
  if interval = SECS_IN_1_YEAR then
    let ymd := ymdOf julian
    if isLeapYear ymd.1 then
      if ymd.1 > 0 then (if ymd.2.1 > 2 then julian + 1 else julian)
      else (if ymd.2.1 > 2 then julian - 1 else julian)
    else julian
  else julian

/-- ztsOffsetAdjustToOffset.c:93-135.  The decrement by one period (line 108) starts from a
standard time, whose offset is 0, so it is `incrementSimple` or `incrementStandard`. -/
def ztsOffsetAdjustToOffset (offset interval julian seconds : Int) : Int × Int :=
  if interval < 1 then (julian, seconds) else
  let a := ztsOffsetAdjustToStandard interval julian seconds
  if offset = 0 then (a.2.1, a.2.2)
  else
    let d := if interval < SECS_IN_TRI_MONTH then incrementSimple interval (-1) a.2.1 a.2.2
      else incrementStandard interval (-1) a.2.1 a.2.2
    let c := cleanTime d.1 (d.2 + offset) 1
    (leapAdjust interval c.1, c.2)

/-- incrementTime.c:99-246 (`interval ≥ 1`; otherwise the C code changes nothing). -/
def incrementTime (interval n julianStart secondsStart : Int) : Int × Int :=
  if interval < 1 then (julianStart, secondsStart)
  else if interval < SECS_IN_TRI_MONTH then incrementSimple interval n julianStart secondsStart
  else
    let a := ztsOffsetAdjustToStandard interval julianStart secondsStart
    let ymd := ymdOf a.2.1
    let r := incrementYMD interval n ymd.1 ymd.2.1 ymd.2.2
    let j := yearMonthDayToJulian r.1 r.2.1 r.2.2
    if a.1 ≠ 0 then ztsOffsetAdjustToOffset a.1 interval j a.2.2
    else
      let b := ztsOffsetAdjustToStandard interval j a.2.2
      (b.2.1, b.2.2)

/-- numberPeriods.c:91-177. -/
def numberPeriods (interval julianStart secondsStart julianEnd secondsEnd : Int) : Int :=
  if interval < 1 then -1 else
  let s := cleanTime julianStart secondsStart 1
  let e := cleanTime julianEnd secondsEnd 1
  let straight := cdiv ((e.1 - s.1) * SECS_IN_1_DAY + (e.2 - s.2)) interval
  if interval < SECS_IN_TRI_MONTH then straight
  else
    let m := cdiv interval SECS_IN_1_MINUTE
    let ys := ymdOf s.1
    let ye := ymdOf e.1
    let dy := ye.1 - ys.1
    let dm := ye.2.1 - ys.2.1
    let dd := ye.2.2 - ys.2.2
    if m = SECS_IN_4_HOURS then dy * 36 + dm * 3 + cdiv dd 8
    else if m = SECS_IN_6_HOURS then dy * 24 + dm * 2 + cdiv dd 13
    else if m > 40000 ∧ m < 45000 then dy * 12 + dm + cdiv dd 27
    else if m > 520000 ∧ m < 530000 then dy + (dm + cdiv (cdiv dd 28) 12)
    else straight

/-- hecdssInternal.h block sizes: day 1, month 2, year 3, decade 4, century 5. -/
def ztsRegBlockSize (interval : Int) : Int :=
  if interval < SECS_IN_15_MINUTES then 1
  else if interval < SECS_IN_1_DAY then 2
  else if interval < SECS_IN_1_WEEK then 3
  else if interval < SECS_IN_1_YEAR then 4
  else 5

/-- ztsRegGetBlockStart.c:81-128: start date and block size of the block holding a day. -/
def ztsRegGetBlockStart (julian interval : Int) : Int × Int :=
  if interval < SECS_IN_15_MINUTES then (julian, 1)
  else
    let ymd := ymdOf julian
    if interval < SECS_IN_1_DAY then (yearMonthDayToJulian ymd.1 ymd.2.1 1, 2)
    else if interval < SECS_IN_1_WEEK then (yearMonthDayToJulian ymd.1 1 1, 3)
    else if interval < SECS_IN_1_YEAR then (yearMonthDayToJulian (cdiv ymd.1 10 * 10) 1 1, 4)
    else (yearMonthDayToJulian (cdiv ymd.1 100 * 100) 1 1, 5)

/-- ztsIrregGetBlockStart.c:40-82; -1 for an unknown block size. -/
def ztsIrregGetBlockStart (julian blockSize : Int) : Int :=
  let ymd := ymdOf julian
  if blockSize = 1 then yearMonthDayToJulian ymd.1 ymd.2.1 ymd.2.2
  else if blockSize = 2 then yearMonthDayToJulian ymd.1 ymd.2.1 1
  else if blockSize = 3 then yearMonthDayToJulian ymd.1 1 1
  else if blockSize = 4 then yearMonthDayToJulian (cdiv ymd.1 10 * 10) 1 1
  else if blockSize = 5 then yearMonthDayToJulian (cdiv ymd.1 100 * 100) 1 1
  else -1

/-- ztsIncrementBlock.c:41-78: the next (or, for a negative size, previous) block date. -/
def ztsIncrementBlock (julian blockSize : Int) : Int :=
  let step : Int := if blockSize < 0 then -1 else 1
  let size := if blockSize < 0 then -blockSize else blockSize
  if size = 1 then julian + step
  else if size = 2 then (incrementTime SECS_IN_1_MONTH step julian SECS_IN_1_DAY).1
  else if size = 3 then (incrementTime SECS_IN_1_YEAR step julian SECS_IN_1_DAY).1
  else if size = 4 then (incrementTime SECS_IN_1_YEAR (step * 10) julian SECS_IN_1_DAY).1
  else if size = 5 then (incrementTime SECS_IN_1_YEAR (step * 100) julian SECS_IN_1_DAY).1
  else 0

end Hec
