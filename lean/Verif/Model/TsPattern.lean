import Verif.Model.ItsApi
import Verif.Model.TsInfo
/-!
Time patterns through the public interface: hec_dss_tsStoreRegular, hec_dss_tsStoreIregular, hec_dss_tsRetrieve and
hec_dss_tsGetDateTimeRange (heclib/hecdss/hecdss.c) for pathnames with the D part TS-Pattern, with SemiPublic/ztsStorePattern.c,
Public/ztsRetrievePattern.c, Internal/isTsPattern.c, and Public/zstructTsNewRegDoubles.c, zstructTsNewIrregDoubles.c, ztsStore.c,
ztsRetrieve.c, Internal/ztsProcessTimes.c as far as they are used for patterns.

Simplifications: `saveAsFloat` is 0 (a double is the list of its two words); what is not followed further ends in `unmodelled`: nothing to
store; patterns of floats; a record at the name that is not a pattern (its values are not read, see `patternValues`); retrieves without any
date or time, if only the beginning of the D part is that of a pattern.  Arithmetic of times is exact.  The range of dates is modelled for
regular intervals.  For other D parts the functions are those of Model/TsApi.lean and Model/ItsApi.lean.
-/
namespace Hec

/-- A pattern, as ztsProcessTimes finds it. -/
structure PatternAt where
  /-- the status of ztsGetStandardInterval: 0 regular, 1 irregular -/
  kind : Int
  interval : Int
  /-- the array with the pathname, the E part spelled in the standard way -/
  buf : Bytes

/-- ztsProcessTimes.c:172-229, 268-289 (version 7).  The inner `none`: no pattern, or no interval. -/
def patternPath (m : TsMem) (pathname : Bytes) : Option (Option PatternAt) :=
  (zpathnameClean (List.replicate (pathname.length + 20) 0) pathname).bind fun r =>
  (zpathnameGetPart (cstr r.1) 5 m.ePart m.junk).bind fun e =>
    if e.2 < 4 then some none
    else
      match ePartToSeconds 7 (cstr e.1) with
      | none => some none
      | some (kind, interval, name) =>
        let name := if (cstr e.1).head? = some 126 then 126 :: name else name
        (zpathnameSetPart (fun j => some (m.heap j)) r.1 name 5 m.junk).bind fun b =>
        (zpathnameGetPart (cstr b.1) 4 m.dPart m.junk).map fun d =>
          if d.2 > 4 ∧ zstringCompare ((cstr d.1).take 4) PATTERN_START 4 then some ⟨kind, interval, b.1⟩ else none

/-- "TS-Pattern" -/
def TS_PATTERN : Bytes := [84, 83, 45, 80, 97, 116, 116, 101, 114, 110]

/-- isTsPattern.c:9-22. -/
def isTsPattern (m : TsMem) (pathname : Bytes) : Option Bool :=
  (zpathnameGetPart pathname 4 m.dPart m.junk).map fun d => decide ((cstr d.1).length = 10) && zstringCompare (cstr d.1) TS_PATTERN 10

/-- The ints 0 to 16 of the header: ztsStorePattern.c:94-129. -/
def patternInts (d : TsDesc) : List UInt32 :=
  [i32 d.granularity, i32 d.precision, i32 d.offset, 0, 0, 0, 0, 0, 0, 0, 0, 0, 0, 0, 0, 0, 0]

/-- ztsStorePattern.c:80-175: `type` and `values` are those of lines 132-163.  `e`: the local array of ztsInternalHeaderPack; the header is
cleared (line 94).  `none`: access outside an array. -/
def ztsStorePattern (c : Cfg) (e : TsEnv) (d : TsDesc) (internal : Bytes) (type : UInt32) (values : List UInt32) (n : Nat) (s : Eng) : Option (Eng × Res) :=
  (ztsInternalHeaderPack d.strings e.carray (intsToBytes (patternInts d) ++ List.replicate 732 0)).bind fun p =>
    zwritePublic c s (plainReq e.w internal type (bytesToInts (p.1.take (4 * p.2))) [] [] values [] [] n)

/-- hecdss.c:375-406, zstructTsNewRegDoubles.c, ztsStore.c:236-303; ztsProcessTimes.c:268-288 sets the unit of times; the description as
zstructTsNew.c leaves it (precision -1, offset 0).  DATA_TYPE_RTD_PATTERN is 106, an irregular pattern without times is not followed. -/
def hecTsStoreRegularP (c : Cfg) (cfg : RegCfg UInt32) (env : Int → TsEnv) (m : TsMem) (path date time : Bytes) (values : List (List UInt32))
    (units type zone : Bytes) (flag : Int) (s : Eng) : Option (Eng × TsApi) :=
  let pathname := mallocAndCopyPath path
  if pathname.length < 10 then some (s, .failed)
  else
    (apiTime date time).bind fun _ =>
    (patternPath m pathname).bind fun p =>
    match p with
    | none => hecTsStoreRegular c cfg env m path date time values units type zone flag s
    | some p =>
      if values.length = 0 ∨ p.kind ≠ 0 then some (s, .unmodelled)
      else
        let d : TsDesc := ⟨if p.interval > 0 ∧ p.interval < 60 then 1 else 60, -1, 0,
          ⟨false, some (mallocAndCopy units), none, none, some (mallocAndCopy type), some (mallocAndCopy zone)⟩⟩
        (ztsStorePattern c (env 0) d (mallocAndCopy (cstr p.buf)) 106 values.flatten values.length s).map fun x => (x.1, if x.2 = .ok then .ok else .failed)

/-- hecdss.c:408-448, zstructTsNewIrregDoubles.c:87-118, ztsStore.c:236-303; ztsProcessTimes.c:268-288: a unit of times of zero becomes a
minute.  ztsStorePattern.c:156-161: the times, and then the values; DATA_TYPE_ITD_PATTERN is 116.  The base date is not used.  A regular
pattern with times is not followed. -/
def hecTsStoreIregularP (c : Cfg) (pol : PackPolicy) (env : Int → TsEnv) (m : TsMem) (path baseDate : Bytes) (vals : List (Entry (List UInt32))) (gran : Int)
    (quality : List UInt32) (units type zone : Bytes) (flag : Int) (s : Eng) : Option (Eng × TsApi) :=
  let pathname := mallocAndCopyPath path
  if pathname.length < 10 then some (s, .failed)
  else
    (patternPath m pathname).bind fun p =>
    match p with
    | none => hecTsStoreIregular c pol env m path baseDate vals gran quality units type zone flag s
    | some p =>
      if vals.length = 0 ∨ p.kind = 0 then some (s, .unmodelled)
      else
        let d : TsDesc := ⟨if gran = 0 then 60 else gran, -1, 0,
          ⟨false, some (mallocAndCopy units), none, none, some (mallocAndCopy type), some (mallocAndCopy zone)⟩⟩
        (ztsStorePattern c (env 0) d (mallocAndCopy (cstr p.buf)) 116 ((vals.map fun e => i32 e.time) ++ vals.flatMap fun e => e.val) vals.length s).map fun x =>
          (x.1, if x.2 = .ok then .ok else .failed)

/-- `n` doubles. -/
def doubles : List UInt32 → List (List UInt32)
  | a :: b :: l => [a, b] :: doubles l
  | _ => []

/-- What ztsRetrievePattern sets: the number of values, the times of an irregular pattern, the values, the header. -/
structure PatternGot where
  number : Nat
  times : Option (List Int)
  values : List (List UInt32)
  head : TsHead
deriving DecidableEq

/-- ztsRetrievePattern.c:298-342 for doubles: the times and the values.  `none`: access behind the section of values. -/
def patternValues (R : Rec) : Option (Option (List Int) × List (List UInt32)) :=
  if R.dataType = 106 then
    if R.v1.length < 2 * R.numberValues then none else some (none, doubles (R.v1.take (2 * R.numberValues)))
  else
    if R.v1.length < 3 * R.numberValues then none
    else some (some ((R.v1.take R.numberValues).map fun w => toInt32 w.toNat), doubles ((R.v1.drop R.numberValues).take (2 * R.numberValues)))

/-- What ztsRetrieve ends with. -/
inductive PatternRead where
  | stop (r : TsApi)
  | got (g : PatternGot)

/-- ztsRetrieve.c:304-338 with ztsProcessTimes.c and ztsRetrievePattern.c:232-376.  The time window is taken away (lines 362-366), so that
ztsRegAddTimes.c:56-57 adds no times. -/
def ztsRetrievePattern (c : Cfg) (carray internal : Bytes) (s : Eng) : Option PatternRead :=
  (zread c s (mallocAndCopyPath internal)).bind fun R =>
    match R with
    | none => some (.stop .failed)
    | some R =>
      if R.ih.length < 3 ∨ ¬ (R.dataType = 106 ∨ R.dataType = 116) then some (.stop .unmodelled)
      else
        (ztsInternalHeaderUnpack ⟨0, -1, 0, ⟨none, false⟩, ⟨none, false⟩, ⟨none, false⟩, ⟨none, false⟩, ⟨none, false⟩⟩ (intsToBytes R.ih) R.ih.length carray).bind fun h =>
        (patternValues R).map fun v => .got ⟨R.numberValues, v.1, v.2, h⟩

/-- hecdss.c:308-374 for a pathname whose D part is a pattern; otherwise `none` (see hecTsRetrieve, hecTsRetrieveIrreg).  `fst` of the result:
what is returned.  Lines 358-366: the times only if there is an array, the flags through a null pointer. -/
def hecTsRetrieveP (c : Cfg) (carray : Bytes) (m : TsMem) (path startDate startTime endDate endTime : Bytes)
    (arraySize qualityWidth unitsSize typeSize zoneSize : Int) (b : TsBuffers) (s : Eng) : Option (Option (TsApi × TsBuffers)) :=
  (apiTime startDate startTime).bind fun _ => (apiTime endDate endTime).bind fun _ =>
  let b := { b with number := 0 }
  let pathname := mallocAndCopyPath path
  (isTsPattern m path).bind fun exact =>
  (patternPath m pathname).bind fun p =>
  match p with
  | none => some none
  | some p =>
    if startDate.length = 0 ∧ startTime.length = 0 ∧ endDate.length = 0 ∧ endTime.length = 0 ∧ exact = false then some (some (.unmodelled, b))
    else
      (ztsRetrievePattern c carray (mallocAndCopy (cstr p.buf)) s).bind fun r =>
      match r with
      | .stop r => some (some (r, b))
      | .got g =>
        (putString b.units unitsSize g.head.units.val).bind fun u =>
        (putString b.type typeSize g.head.type.val).bind fun t =>
        (putString b.zone zoneSize g.head.zone.val).bind fun z =>
        let size := max 0 (min (g.number : Int) arraySize)
        if qualityWidth > 0 ∧ 0 < size then none
        else
          (match g.times with
            | none => some b.times
            | some ts => copyArray b.times size ts).bind fun ts =>
          (copyArray b.values size g.values).map fun vs =>
            some (.ok, ⟨ts, vs, size, 0, g.head.granularity, u, t, z⟩)

/-- ztsRetrievePattern.c:345-360: 01Jan3000 is the day 401768. -/
def patternRange (interval offset : Int) (n : Nat) : (Int × Int) × (Int × Int) :=
  let a := incrementTime interval 1 401768 0
  let a := if offset ≠ 0 then ztsOffsetAdjustToOffset offset interval a.1 a.2 else a
  (a, incrementTime interval n a.1 a.2)

/-- hecdss.c:218-229 for a pathname with the D part TS-Pattern; `none` inside: not such a pathname.  The first and the last day and second are
those of the struct. -/
def hecTsRangeP (c : Cfg) (carray : Bytes) (m : TsMem) (path : Bytes) (s : Eng) : Option (Option (TsApi × Option ((Int × Int) × (Int × Int)))) :=
  (isTsPattern m path).bind fun exact =>
  if exact = false then some none
  else
    (patternPath m (mallocAndCopyPath path)).bind fun p =>
    match p with
    | none => some (some (.failed, none))
    | some p =>
      if p.kind ≠ 0 then some (some (.unmodelled, none))
      else
        (ztsRetrievePattern c carray (mallocAndCopy (cstr p.buf)) s).map fun r =>
        match r with
        | .stop r => some (r, none)
        | .got g => some (.ok, some (patternRange p.interval g.head.offset g.number))

end Hec
