import Verif.Model.SeriesFile
import Verif.Model.Api
import Verif.Model.FPart
import Verif.Model.Intervals
/-!
Regular time series through the public interface: hec_dss_tsStoreRegular and hec_dss_tsRetrieve (heclib/hecdss/hecdss.c),
with Public/zstructTsNewRegDoubles.c, zstructTsNewTimes.c, ztsStore.c, ztsRetrieve.c, and Internal/ztsProcessTimes.c,
ztsRegAddTimes.c.

Simplifications, besides those of Model/SeriesFile.lean: `saveAsFloat` is 0 (a double is the list of its two words);
what is not followed further ends in `unmodelled`: patterns and irregular series, windows that are not given by
two dates (the D part or the whole file is used then), windows without a standard time, stores of elevations.  No
vertical datum has been chosen with zset.  Arithmetic of times is exact.
-/
namespace Hec

/-- The memory the call finds: before the allocated copy of the pathname; in variables that are not set; the local arrays
of MAX_PART_SIZE bytes; the array `path` of the loop over the blocks, and what is around it. -/
structure TsMem where
  heap : Int → UInt8
  junk : Int
  ePart : Bytes
  dPart : Bytes
  cPart : Bytes
  parts : Nat → Bytes
  path : Bytes
  loop : Around

/-- What the calls return; see above for `unmodelled`. -/
inductive TsApi where
  | ok
  /-- an error status, or no data -/
  | failed
  | unmodelled
deriving DecidableEq

/-- zstructTsNewRegDoubles.c:81-86, zstructTsNewTimes.c:32-44, zstructTsNew.c:66-69: day and second; -1 is no time. -/
def apiTime (date time : Bytes) : Option (Int × Int) :=
  (if time.length > 0 then timeStringToSeconds time else some (-1)).map fun s =>
    (if date.length > 0 then dateToJulian date else UNDEFINED_TIME, s)

/-- isTimeDefined.c:30-35. -/
def isTimeDefined (t : Int × Int) : Bool := !(t.1 = UNDEFINED_TIME || t.2 < 0)

/-- The E part of the pathname. -/
inductive TsPath where
  /-- not an interval: STATUS_NOT_OKAY -/
  | bad
  /-- the size of the blocks, and the array with the pathname, the E part spelled in the standard way -/
  | irregular (blockSize : Int) (path : Bytes)
  | pattern
  /-- the interval, and the array with the pathname, the E part spelled in the standard way -/
  | regular (interval : Int) (path : Bytes)
deriving DecidableEq

/-- "TS-P" -/
def PATTERN_START : Bytes := [84, 83, 45, 80]

/-- ztsProcessTimes.c:172-229, 269-289 (version 7). -/
def tsPath (m : TsMem) (pathname : Bytes) : Option TsPath :=
  (zpathnameClean (List.replicate (pathname.length + 20) 0) pathname).bind fun r =>
  (zpathnameGetPart (cstr r.1) 5 m.ePart m.junk).bind fun e =>
    if e.2 < 4 then some .bad
    else
      match ePartToSeconds 7 (cstr e.1) with
      | none => some .bad
      | some (kind, interval, name) =>
        -- ztsGetStandardInterval.c:221-227: the name is written behind the `~`
        let name := if (cstr e.1).head? = some 126 then 126 :: name else name
        (zpathnameSetPart (fun j => some (m.heap j)) r.1 name 5 m.junk).bind fun b =>
        (zpathnameGetPart (cstr b.1) 4 m.dPart m.junk).map fun d =>
          if d.2 > 4 ∧ zstringCompare ((cstr d.1).take 4) PATTERN_START 4 then .pattern
          else if kind = 0 then .regular interval b.1 else .irregular (-interval) b.1

/-- ztsProcessTimes.c:423-427, 494-495: the pathname with the date of the first block. -/
def internalPath (m : TsMem) (buf : Bytes) (startBlock : Int) : Option Bytes :=
  (julianToDate (exactYearGuess startBlock) startBlock 104 129).bind fun date =>
    (zpathnameSetPart (fun j => some (m.heap j)) buf date 4 m.junk).map fun b => mallocAndCopy (cstr b.1)

/-- ztsProcessTimes.c:453-472, regular intervals: the unit of the times. -/
def granularityOf (interval days : Int) : Int :=
  if interval < 60 then 1 else if days < 1000000 then 60 else if days < 30000000 then 3600 else 86400

/-- ztsStore.c:343-360, ztsRetrieve.c:381-402: the pathname with the tags in order; `some none` is an error. -/
def tsNormalized (m : TsMem) (pathname : Bytes) : Option (Option Bytes) :=
  (normalizeFPartInPathname pathname m.parts m.junk).map fun f => if f.1 = F_SUCCESS then f.2 else none

/-- "ELEV" -/
def ELEVATION : Bytes := [69, 76, 69, 86]

/-- verticalDatum.c:1634-1642; strncasecmp ends at a zero. -/
def pathnameIsElevTs (m : TsMem) (pathname : Bytes) : Option Bool :=
  (zpathnameGetPart pathname 3 m.cPart m.junk).map fun c => ((cstr c.1).take 4).map toupper = ELEVATION

/-- hecdss.c:375-406 with `saveAsFloat` 0, zstructTsNewRegDoubles.c:72-101, ztsStore.c:236-727, ztsProcessTimes.c.  There
is no location to store (zstructTsNew.c:78: all fields are zero, see `locationValid`). -/
def hecTsStoreRegular (c : Cfg) (cfg : RegCfg UInt32) (env : Int → TsEnv) (m : TsMem) (path date time : Bytes) (values : List (List UInt32))
    (units type zone : Bytes) (flag : Int) (s : Eng) : Option (Eng × TsApi) :=
  let pathname := mallocAndCopyPath path
  if pathname.length < 10 then some (s, .failed)
  else
    (apiTime date time).bind fun t =>
    let start := cleanTime t.1 t.2 1
    (tsPath m pathname).bind fun p =>
    match p with
    | .bad => some (s, .failed)
    | .irregular _ _ => some (s, .unmodelled)
    | .pattern => some (s, .unmodelled)
    | .regular interval buf =>
      if values.length = 0 ∨ isTimeDefined start = false then some (s, .unmodelled)
      else
        let e := incrementTime interval ((values.length : Int) - 1) start.1 start.2
        let w := regWindow interval start.1 start.2 e.1 e.2
        (internalPath m buf w.startBlock).bind fun internal =>
        (tsNormalized m pathname).bind fun n =>
        match n with
        | none => some (s, .failed)
        | some name =>
          (pathnameIsElevTs m name).bind fun elev =>
          if elev then some (s, .unmodelled)
          else
            let d : TsDesc := ⟨granularityOf interval (w.endJulian - w.startJulian), -1, (ztsOffsetAdjustToStandard interval start.1 start.2).1,
              ⟨false, some (mallocAndCopy units), none, none, some (mallocAndCopy type), some (mallocAndCopy zone)⟩⟩
            (ztsStoreReg c cfg d env m.loop m.path internal interval start.1 start.2 0 values [] flag s).map fun x =>
              (x.1, if x.2 then .ok else .failed)

/-- ztsProcessTimes.c:475-490, ztsRetrieveReg7.c:191-193: the day from which times are counted. -/
def baseOf (gran startBlock startJulian endJulian : Int) : Int :=
  if gran = 60 then (if startJulian < -365000 ∨ startJulian > 1131500 ∨ endJulian > 1168000 then startBlock else 0) else startBlock

/-- ztsRegAddTimes.c:80-108: the array of times, `n` elements. -/
def regTimes (interval julian seconds offset gran base : Int) (n : Nat) : List Int :=
  let offset := if offset < 0 then 0 else offset
  let s := ztsOffsetAdjustToOffset offset interval julian seconds
  let gran := if gran < 1 then 60 else gran
  let at_ (k : Int) : Int :=
    let e := incrementTime interval k s.1 s.2
    let e := if offset ≠ 0 then ztsOffsetAdjustToOffset offset interval e.1 e.2 else e
    (e.1 - base) * cdiv 86400 gran + cdiv e.2 gran
  if interval ≤ SECS_IN_1_DAY then (List.range n).map fun i : Nat => at_ 0 + (i : Int) * cdiv interval gran
  else (List.range n).map fun i : Nat => at_ (i : Int)

/-- ztsRetrieveReg7.c:278-280, 379-395: whether an array of quality flags is made: the record of the first block has them. -/
def firstQuality (c : Cfg) (s : Eng) (m : TsMem) (internal : Bytes) (startBlock : Int) : Option Bool :=
  (pathBuffer internal m.path).bind fun buf => (blockName m.loop buf startBlock).bind fun buf =>
    (zread c s (mallocAndCopyPath (cstr buf))).map fun R =>
      match R with
      | none => false
      | some R => decide (headInt R.ih 11 > 0)

/-- What the caller gives for the results. -/
structure TsBuffers where
  times : List Int
  values : List (List UInt32)
  number : Int
  base : Int
  gran : Int
  units : Bytes
  type : Bytes
  zone : Bytes
deriving DecidableEq

/-- What ztsRetrieve ends with. -/
inductive TsRead where
  | stop (r : TsApi)
  /-- with the day from which times are counted, the times, and whether there is an array of quality flags (if asked for) -/
  | got (g : TsGot) (base : Int) (times : List Int) (quality : Bool)

/-- ztsRetrieve.c:274-646 and ztsProcessTimes.c, with a time window and for regular intervals.  `s0`, `e0`: days and
seconds given. -/
def tsRead (c : Cfg) (cfg : RegCfg UInt32) (env : Int → Bytes × Bytes) (m : TsMem) (pathname : Bytes) (s0 e0 : Int × Int) (qualityWidth : Int) (s : Eng) : Option TsRead :=
  -- ztsProcessTimes.c:116-131
  if (s0.1 = 0 ∧ e0.1 = 0) ∨ (s0.1 = -1 ∧ e0.1 = -1) then some (.stop .unmodelled)
  else
    let start := cleanTime s0.1 s0.2 1
    let last := cleanTime e0.1 e0.2 1
    if isTimeDefined start = false ∨ isTimeDefined last = false then some (.stop .unmodelled)
    else
      (tsPath m pathname).bind fun p =>
      match p with
      | .bad => some (.stop .failed)
      | .irregular _ _ => some (.stop .unmodelled)
      | .pattern => some (.stop .unmodelled)
      | .regular interval buf =>
        let w := regWindow interval start.1 start.2 last.1 last.2
        let number := numberPeriods interval w.startJulian w.startSeconds w.endJulian w.endSeconds + 1
        if number ≤ 0 then some (.stop .unmodelled)
        else
          (internalPath m buf w.startBlock).bind fun internal =>
          (tsNormalized m pathname).bind fun n =>
          match n with
          | none => some (.stop .failed)
          | some _ =>
            let gran := granularityOf interval (w.endJulian - w.startJulian)
            let base := baseOf gran w.startBlock w.startJulian w.endJulian
            let none' : Field := ⟨none, false⟩
            (ztsRetrieveReg c cfg m.loop env m.path internal
                ⟨gran, -1, (ztsOffsetAdjustToStandard interval start.1 start.2).1, none', none', none', none', none'⟩ interval start.1 start.2 last.1 last.2 s).bind fun g =>
            match g with
            | none => some (.stop .failed)
            | some g =>
              if g.found = false then some (.stop .failed)
              else
                -- ztsRetrieveReg7.c:677-679
                let base := if start.1 > 1400000 ∨ last.1 > 1400000 then start.1 else base
                -- ztsRegAddTimes.c:71, 96: the array has room for the values read
                if (g.values.length : Int) < number then none
                else
                  (if qualityWidth > 0 then firstQuality c s m internal w.startBlock else some true).map fun quality =>
                  .got g base (regTimes interval w.startJulian w.startSeconds g.head.offset g.head.granularity base number.toNat) quality

/-- hecdss.c:308-374.  `size`s are those the caller gives; `qualityWidth`: the flags themselves are not modelled. -/
def hecTsRetrieve (c : Cfg) (cfg : RegCfg UInt32) (env : Int → Bytes × Bytes) (m : TsMem) (path startDate startTime endDate endTime : Bytes)
    (arraySize qualityWidth unitsSize typeSize zoneSize : Int) (b : TsBuffers) (s : Eng) : Option (TsApi × TsBuffers) :=
  (apiTime startDate startTime).bind fun s0 => (apiTime endDate endTime).bind fun e0 =>
  let b := { b with number := 0 }
  (tsRead c cfg env m (mallocAndCopyPath path) s0 e0 qualityWidth s).bind fun r =>
  match r with
  | .stop r => some (r, b)
  | .got g base times quality =>
    (putString b.units unitsSize g.head.units.val).bind fun u =>
    (putString b.type typeSize g.head.type.val).bind fun t =>
    (putString b.zone zoneSize g.head.zone.val).bind fun z =>
    let size := max 0 (min (g.values.length : Int) arraySize)
    -- lines 363-364: the flags are read through a null pointer
    if quality = false ∧ 0 < size then none
    else
    (copyArray b.times size times).bind fun ts =>
    (copyArray b.values size g.values).map fun vs =>
      (.ok, ⟨ts, vs, size, base, g.head.granularity, u, t, z⟩)

end Hec
