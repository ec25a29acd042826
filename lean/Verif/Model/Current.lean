import Verif.Model.FullSet
import Verif.Model.DateTimes
/-!
The time window of the pathname of a record, and whether that is the current record of the series: SemiPublic/ztsGetPathTimeWindow.c with no number of
values asked for, and SemiPublic/ztsIsCurrentTimeSeries.c.  Version 7.  `none`: an array is written outside.
-/
namespace Hec

/-- What ztsGetPathTimeWindow.c:200-204, 198-201 leaves in the time window (the number of values, lines 206-212, is left out). -/
structure DayWindow where
  startBlock : Int
  startDay : Int
  startSeconds : Int
  endDay : Int
  endSeconds : Int
  blockSize : Int
  interval : Int
deriving DecidableEq, Repr

/-- The return value: negative (the pathname is not that of a time series), 0 (no date; the times stay undefined), 1. -/
inductive WindowResult where
  | bad
  | undefined
  | window (w : DayWindow)
deriving DecidableEq, Repr

/-- ztsGetPathTimeWindow.c:147-149 and 156-159, 174-184: the start and the size of the block of a day. -/
def blockOfDay (secs day : Int) : Int × Int :=
  if secs > 0 then ztsRegGetBlockStart day secs else (ztsIrregGetBlockStart day (-secs), -secs)

/-- ztsGetPathTimeWindow.c:87-92 and 99. -/
def firstSeconds (secs : Int) : Int := if secs > 0 then (if secs < SECS_IN_1_DAY then secs else SECS_IN_1_DAY) else 1

/-- ztsGetPathTimeWindow.c:107-202, for the D part `d`.  (A `date[3]` behind the end of a shorter text is taken to be no capital letter; dates are not
that short.) -/
def datesWindow (secs : Int) (d : Bytes) : Option WindowResult :=
  if d.length > 15 then
    -- lines 113-122
    match findDash d with
    | none => some .bad
    | some i =>
      if i ≥ 20 then none
      else
        let j := dateToJulian (d.take i)
        if j = UNDEFINED_TIME then some .bad
        else
          -- lines 127-134
          let e := d.drop (i + 3)
          if e.length ≥ 20 then none
          else
            let k := dateToJulian e
            if k = UNDEFINED_TIME then some .bad
            else
              -- lines 139-164
              let ch : UInt8 := (e[3]?).getD 0
              let b := blockOfDay secs k
              let last := if (65 ≤ ch ∧ ch ≤ 90) ∧ b.1 = k then ztsIncrementBlock b.1 b.2 - 1 else k
              some (.window ⟨(blockOfDay secs j).1, j, firstSeconds secs, last, SECS_IN_1_DAY, b.2, secs⟩)
  else if d.length > 7 then
    -- lines 169-187
    let j := dateToJulian d
    if j = UNDEFINED_TIME then some .bad
    else
      let b := blockOfDay secs j
      some (.window ⟨b.1, j, firstSeconds secs, ztsIncrementBlock b.1 b.2 - 1, SECS_IN_1_DAY, b.2, secs⟩)
  else some .undefined

/-- ztsGetPathTimeWindow.c:49-222: the array with the pathname afterwards, and the window.  `sizeofPathname` is the length of the pathname, as
ztsIsCurrentTimeSeries gives it, so that a longer E part is not set (zpathnameSetPart.c:98-101). -/
def ztsGetPathTimeWindow (m : FullMem) (path : Bytes) : Option (Bytes × WindowResult) :=
  -- lines 75-79
  (zpathnameGetPart (cstr path) 5 (List.replicate 129 m.u) m.junk).bind fun e =>
    if e.2 < 4 then some (path, .bad)
    else match ePartToSeconds 7 (cstr e.1) with
      -- lines 101-104
      | none => some (path, .bad)
      | some x =>
        -- lines 85-100
        (if x.1 = 0 ∧ (x.2.2.length : Int) ≤ e.2 then (zpathnameSetPart m.before path x.2.2 5 m.junk).map (·.1) else some path).bind fun path =>
          -- lines 108-202
          (zpathnameGetPart (cstr path) 4 (List.replicate 129 m.u) m.junk).bind fun d =>
            (datesWindow x.2.1 (cstr d.1)).map fun w => (path, w)

/-- ztsIsCurrentTimeSeries.c:42-71, when getCurrentDateTime gives the day `today`. -/
def ztsIsCurrentTimeSeries (m : FullMem) (path : Bytes) (today : Int) : Option Bool :=
  (ztsGetPathTimeWindow m path).map fun x =>
    match x.2 with
    | .bad => false
    | .undefined => if today < UNDEFINED_TIME then false else if today > UNDEFINED_TIME then false else true
    | .window w => if today < w.startDay then false else if today > w.endDay then false else true

/-- getCurrentDateTime.c:70-72 (Linux), with `seconds` since 1970: the day and the seconds. -/
def getCurrentDateTime (seconds : Int) : Int × Int := (cdiv seconds SECS_IN_1_DAY + JULIAN_01JAN1970, seconds - cdiv seconds SECS_IN_1_DAY * SECS_IN_1_DAY)

end Hec
