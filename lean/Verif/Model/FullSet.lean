import Verif.Model.TsRange
import Verif.Model.Catalog
import Verif.Model.Wild
import Verif.Model.Dates
/-!
The first and the last pathname of the records of a time series, and the range of the times of all of them:
SemiPublic/ztsGetFirstLastPathnames.c, SemiPublic/ztsGetPathTimeWindow.c and Public/ztsGetDateTimeRange.c with `boolFullSet`.
-/
namespace Hec

/-- What lies in memory: in front of the arrays, in them before they are set, and in the number zpathnamePartPositions does not set. -/
structure FullMem where
  before : Int → Option UInt8
  u : UInt8
  junk : Int

/-- `strstr(dPart, " - ")`. -/
def findDash : Bytes → Option Nat
  | [] => none
  | c :: cs => if [32, 45, 32].isPrefixOf (c :: cs) then some 0 else (findDash cs).map (· + 1)

/-- ztsGetPathTimeWindow.c:110-134: does the text of both dates, with its end, fit in `char date[20]`?  (stringCopy keeps to the
size it is given; lines 121 and 130 do not.) -/
def datesFit (d : Bytes) : Bool :=
  if d.length ≤ 15 then true
  else match findDash d with
    | none => true
    | some i =>
      if i ≥ 20 then false
      else if dateToJulian (d.take i) = UNDEFINED_TIME then true
      else decide (d.length - (i + 3) < 20)

/-- ztsGetPathTimeWindow.c:49-222, version 7: what it does to the pathname; `none` is a write behind an array.  The times
it finds are left out (see `ztsGetFirstLastPathnames`). -/
def pathTimeWindow (m : FullMem) (path : Bytes) : Option Bytes :=
  -- lines 75-79
  (zpathnameGetPart (cstr path) 5 (List.replicate 129 m.u) m.junk).bind fun e =>
    if e.2 < 4 then some path
    else match ePartToSeconds 7 (cstr e.1) with
      -- lines 101-104
      | none => some path
      | some x =>
        -- lines 85-100
        (if x.1 = 0 then (zpathnameSetPart m.before path x.2.2 5 m.junk).map (·.1) else some path).bind fun path =>
          -- lines 108-134
          (zpathnameGetPart (cstr path) 4 (List.replicate 129 m.u) m.junk).bind fun d =>
            if datesFit (cstr d.1) then some path else none

/-- The day of the D part of a pathname: lines 159-160 and 164-165. -/
def dayOfPath (m : FullMem) (path : Bytes) : Option Int :=
  (zpathnameGetPart path 4 (List.replicate 129 m.u) m.junk).map fun d => dateToJulian (cstr d.1)

/-- Lines 163-168: the days of a list of pathnames. -/
def daysOfPaths (m : FullMem) : List CatRow → Option (List Int)
  | [] => some []
  | r :: rows => (dayOfPath m r.path).bind fun j => (daysOfPaths m rows).map (j :: ·)

/-- `undefined`, which julianToDate.c:74 copies for UNDEFINED_TIME. -/
def undefinedText : Bytes := [117, 110, 100, 101, 102, 105, 110, 101, 100]

/-- Lines 170-172 and 173-175: the array with the pathname afterwards, and the pathname given to the caller, whose array
has MAX_PATHNAME_LENGTH bytes. -/
def pathWithDay (m : FullMem) (path : Bytes) (j : Int) : Option (Bytes × Bytes) :=
  (zpathnameSetPart m.before path ((julianToDate (exactYearGuess j) j 4 129).getD undefinedText) 4 m.junk).bind fun p =>
    (zpathnameClean (List.replicate 393 m.u) (cstr p.1)).map fun f => (p.1, cstr f.1)

/-- What is asked of the catalog in lines 146-150. -/
def fullRequest (m : FullMem) (pattern : Bytes) : CatReq :=
  ⟨REC_STATUS_VALID, 100, 199, 0, 0, 0, fun p => (wildFound m.before m.u m.junk pattern p).getD false⟩

/-- Lines 151-178, for the rows of the catalog; `path` is the array with the pathname. -/
def firstLastOf (m : FullMem) (path : Bytes) : List CatRow → Option (Option (Bytes × Bytes))
  -- lines 151-158
  | [] => some none
  | r :: rows =>
    -- lines 159-168
    (dayOfPath m r.path).bind fun j => (daysOfPaths m rows).bind fun js =>
    -- lines 169-178
    (stringCopy path r.path r.path.length).bind fun p3 =>
    (pathWithDay m p3.1 (js.foldl (fun a b => if b < a then b else a) j)).bind fun f =>
    (pathWithDay m f.1 (js.foldl (fun a b => if b > a then b else a) j)).map fun l => some (f.2, l.2)

/-- ztsGetFirstLastPathnames.c:64-282: the first and the last pathname, `some none` if there is none.  `searchRange` is 0
(line 91), so that line 144 is always true and lines 180-281 are not reached.  Left out: lines 126-138 put a date into the
D part and look for that record; line 146 overwrites the D part, and what was found has no effect. -/
def ztsGetFirstLastPathnames (c : Cfg) (s : Eng) (m : FullMem) (pathnameSeed : Bytes) : Option (Option (Bytes × Bytes)) :=
  -- lines 99-112
  (zpathnameClean (List.replicate 393 m.u) pathnameSeed).bind fun p0 =>
  (zcheckName c s (cstr p0.1)).bind fun k =>
  -- lines 114-124
  (if k.1.found then some p0.1 else pathTimeWindow m p0.1).bind fun p1 =>
  -- lines 146-150
  (zpathnameSetPart m.before p1 [42] 4 m.junk).bind fun p2 =>
  (zcatalog c s (fullRequest m (cstr p2.1))).bind fun rows =>
    firstLastOf m p2.1 rows

/-- ztsGetDateTimeRange.c:76-92, `boolFullSet` not 0. -/
def ztsGetFullRange (c : Cfg) (s : Eng) (m : FullMem) (pathname : Bytes) : Option TsRange :=
  (ztsGetFirstLastPathnames c s m pathname).bind fun x =>
    match x with
    | none => some .notFound
    | some (f, l) =>
      (ztsGetFirstLastRecordTimes c s f).bind fun a =>
        match a with
        | .notFound => some .notFound
        | .range first _ =>
          (ztsGetFirstLastRecordTimes c s l).map fun b =>
            match b with
            | .notFound => .notFound
            | .range _ last => .range first last

end Hec
