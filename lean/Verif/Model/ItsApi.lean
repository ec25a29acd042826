import Verif.Model.TsApi
import Verif.Model.ItsFile
/-!
Irregular time series through the public interface: hec_dss_tsStoreIregular, and hec_dss_tsRetrieve for pathnames with
an irregular E part (heclib/hecdss/hecdss.c), with Public/zstructTsNewIrregDoubles.c, zstructTsNewTimes.c, ztsStore.c,
ztsRetrieve.c, Internal/ztsProcessTimes.c and the beginning of ztsStoreIrreg7.c.

Simplifications: those of Model/TsApi.lean and Model/ItsFile.lean.  What is not followed further ends in `unmodelled`: E
parts of regular intervals, patterns, nothing to store, times without a base date, a unit of time below one second, the
storage flag 1, windows that are not given by two dates or that end before they start, stores of elevations.
-/
namespace Hec

/-- ztsStoreIrreg7.c:264-285. -/
def timesAscend : List (Entry (List UInt32)) → Bool
  | a :: b :: l => decide (a.time ≤ b.time) && timesAscend (b :: l)
  | _ => true

/-- zstructTsNew.c: the struct is cleared; hecdss.c:433-437 sets the array of flags and its length, but not the words of
flags for each value. -/
def QUALITY_ELEMENT_SIZE : Nat := 0

/-- ztsStoreIrreg7.c:483, 514, 532: the values from the `k`-th on, with `size` words of flags each. -/
def itsVals (size : Nat) (quality : List UInt32) : Nat → List (Entry (List UInt32)) → List (Entry ItsVal)
  | _, [] => []
  | k, e :: l => ⟨e.time, (e.val, (quality.drop (k * size)).take size)⟩ :: itsVals size quality (k + 1) l

/-- hecdss.c:408-448 with `saveAsFloat` 0, zstructTsNewIrregDoubles.c:87-118, ztsStore.c:236-727, ztsProcessTimes.c:115-495,
ztsStoreIrreg7.c:147-285.  `vals`: the arrays of times and values. -/
def hecTsStoreIregular (c : Cfg) (pol : PackPolicy) (env : Int → TsEnv) (m : TsMem) (path baseDate : Bytes) (vals : List (Entry (List UInt32))) (gran : Int)
    (quality : List UInt32) (units type zone : Bytes) (flag : Int) (s : Eng) : Option (Eng × TsApi) :=
  let pathname := mallocAndCopyPath path
  if pathname.length < 10 then some (s, .failed)
  else
    -- zstructTsNewIrregDoubles.c:96-101
    let base := if baseDate.length > 4 then dateToJulian baseDate else 0
    (tsPath m pathname).bind fun p =>
    match p with
    | .bad => some (s, .failed)
    | .regular _ _ => some (s, .unmodelled)
    | .pattern => some (s, .unmodelled)
    | .irregular blockSize buf =>
      match vals with
      | [] => some (s, .unmodelled)
      | e :: _ =>
        if gran < 1 then some (s, .unmodelled)
        else
          -- ztsProcessTimes.c:321-358
          let start := cleanTime base e.time gran
          if isTimeDefined start = false then some (s, .unmodelled)
          else
            (internalPath m buf (ztsIrregGetBlockStart start.1 blockSize)).bind fun internal =>
            (tsNormalized m pathname).bind fun n =>
            match n with
            | none => some (s, .failed)
            | some name =>
              (pathnameIsElevTs m name).bind fun elev =>
              if elev then some (s, .unmodelled)
              else if timesAscend vals = false then some (s, .failed)
              else if flag ≠ 0 then some (s, .unmodelled)
              else
                let d : TsDesc := ⟨gran, -1, 0, ⟨false, some (mallocAndCopy units), none, none, some (mallocAndCopy type), some (mallocAndCopy zone)⟩⟩
                (ztsStoreIrregF c ⟨pol, 2, QUALITY_ELEMENT_SIZE⟩ d env m.loop m.path internal blockSize base (itsVals QUALITY_ELEMENT_SIZE quality 0 vals) s).map fun x =>
                  (x.1, if x.2 then .ok else .failed)

/-- What ztsRetrieve ends with. -/
inductive ItsRead where
  | stop (r : TsApi)
  | got (g : ItsGot)

/-- ztsRetrieve.c:274-646 and ztsProcessTimes.c, with a time window and for irregular intervals.  `s0`, `e0`: days and
seconds given; `old`: the local array of ztsGetSizesInternal. -/
def itsRead (c : Cfg) (cfg : ItsCfg) (env : Int → Bytes × Bytes) (m : TsMem) (old pathname : Bytes) (s0 e0 : Int × Int) (s : Eng) : Option ItsRead :=
  -- ztsProcessTimes.c:116-131, 156-160
  if (s0.1 = 0 ∧ e0.1 = 0) ∨ (s0.1 = -1 ∧ e0.1 = -1) then some (.stop .unmodelled)
  else
    let start := cleanTime s0.1 s0.2 1
    let last := cleanTime e0.1 e0.2 1
    if isTimeDefined start = false ∨ isTimeDefined last = false ∨ last.1 < start.1 then some (.stop .unmodelled)
    else
      (tsPath m pathname).bind fun p =>
      match p with
      | .bad => some (.stop .failed)
      | .regular _ _ => some (.stop .unmodelled)
      | .pattern => some (.stop .unmodelled)
      | .irregular blockSize buf =>
        (internalPath m buf (ztsIrregGetBlockStart start.1 blockSize)).bind fun internal =>
        (tsNormalized m pathname).bind fun n =>
        match n with
        | none => some (.stop .failed)
        | some _ =>
          let none' : Field := ⟨none, false⟩
          (ztsRetrieveIrregF c cfg m.loop env m.path old internal blockSize ⟨start.1, start.2, last.1, last.2⟩ 0 ⟨0, -1, 0, none', none', none', none', none'⟩ s).map fun g =>
          match g with
          | none => .stop .failed
          | some g => if g.found then .got g else .stop .failed

/-- hecdss.c:308-374 for irregular intervals.  `size`s are those the caller gives; `flags`: the caller's array of quality flags. -/
def hecTsRetrieveIrreg (c : Cfg) (cfg : ItsCfg) (env : Int → Bytes × Bytes) (m : TsMem) (old path startDate startTime endDate endTime : Bytes)
    (arraySize qualityWidth unitsSize typeSize zoneSize : Int) (b : TsBuffers) (flags : List UInt32) (s : Eng) : Option (TsApi × TsBuffers × List UInt32) :=
  (apiTime startDate startTime).bind fun s0 => (apiTime endDate endTime).bind fun e0 =>
  let b := { b with number := 0 }
  (itsRead c cfg env m old (mallocAndCopyPath path) s0 e0 s).bind fun r =>
  match r with
  | .stop r => some (r, b, flags)
  | .got g =>
    (putString b.units unitsSize g.head.units.val).bind fun u =>
    (putString b.type typeSize g.head.type.val).bind fun t =>
    (putString b.zone zoneSize g.head.zone.val).bind fun z =>
    let size := max 0 (min (g.entries.length : Int) arraySize)
    -- lines 363-364: through a null pointer if the series has no flags; word after word if it has
    (if qualityWidth > 0 ∧ 0 < size then
      (if cfg.qsz = 0 then none else copyArray flags size (g.entries.flatMap fun e => e.val.2))
    else some flags).bind fun fs =>
    (copyArray b.times size (g.entries.map fun e => e.time)).bind fun ts =>
    (copyArray b.values size (g.entries.map fun e => e.val.1)).map fun vs =>
      (.ok, ⟨ts, vs, size, g.base, g.head.granularity, u, t, z⟩, fs)

end Hec
