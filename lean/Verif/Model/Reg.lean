import Verif.Model.Pack
import Verif.Model.Times
/-!
Model of storing and retrieving regular interval time series, block by block
(ztsRegStoreBlock.c, ztsRegReadBlock.c, ztsStoreReg7.c, ztsRetrieveReg7.c).

Elements (floats or doubles, quality flags) are lists of four byte words as in `Model/Pack.lean`.
Not modelled: notes (integer and character), profiles, user headers, patterns, conversion between
floats and doubles, records of another data type, error returns of the record engine, and the
internal header strings.
-/
namespace Hec

/-- What does not change during a call: the data type and the library settings. -/
structure RegCfg (W : Type) where
  pol : PackPolicy
  /-- words of one value (valueSize = valueElementSize: 1 for floats, 2 for doubles) -/
  vsz : Nat
  /-- zmissingFlag.c:59-67: the missing value -/
  missing : List W
  /-- zmissingFlag.c:72-119 (the missing flag, -901 or -902) -/
  isMissing : List W → Bool
  /-- zquery "empty": records of missing values are kept -/
  keepEmpty : Bool

/-- A stored block: the fields of the internal header and info block that matter here, and the packed
data area. -/
structure RegRec (W : Type) where
  startPos : Int
  endPos : Int
  numberData : Nat
  logicalNumber : Nat
  packed : Packed W
deriving DecidableEq, Repr

/-- zmissingFlag.c:148-154: undefined quality. -/
def noFlag {W : Type} [Inhabited W] (qsz : Nat) : List W := List.replicate qsz default

/-- ztsFirstLastValidValues.c:136 and 152-162: the position counts as valid. -/
def posValid {W : Type} [DecidableEq W] [Inhabited W] (cfg : RegCfg W) (qsz : Nat) (v q : List W) : Bool :=
  !cfg.isMissing v || (qsz > 0 && q.any (fun w => w ≠ default))

/-- ztsFirstLastValidValues.c:134-188: index of the first valid position. -/
def firstLoop : List Bool → Nat → Option Nat
  | [], _ => none
  | b :: bs, i => if b then some i else firstLoop bs (i + 1)

/-- ztsFirstLastValidValues.c:198-252: the first valid position going down from `i - 1`. -/
def lastLoop (l : List Bool) : Nat → Option Nat
  | 0 => none
  | i + 1 => if (l[i]?).getD false then some i else lastLoop l i

/-- ztsFirstLastValidValues.c:92-254: all missing?, first and last valid position. -/
def firstLastValid {W : Type} [DecidableEq W] [Inhabited W] (cfg : RegCfg W) (qsz : Nat)
    (vals quals : List (List W)) : Bool × Nat × Nat :=
  let flags := (List.range vals.length).map
    (fun i => posValid cfg qsz ((vals[i]?).getD []) ((quals[i]?).getD []))
  match firstLoop flags 0 with
  | none => (true, 0, 0)
  | some f => (false, f, ((lastLoop flags flags.length).getD 0))

/-- ztsRegReadBlock.c:173-431 with ztsDisaggregate.c: `numberToRead` values and quality flags (when
`qreq`, the size requested, is not 0) from position `blockStart` of the block. -/
def regReadBlock {W : Type} [Inhabited W] (cfg : RegCfg W) (old : Option (RegRec W)) (qreq : Nat)
    (numberToRead blockStart : Int) : List (List W) × List (List W) :=
  match old with
  | none =>
    -- 380-414
    (List.replicate numberToRead.toNat cfg.missing,
      if qreq > 0 then List.replicate numberToRead.toNat (noFlag qreq) else [])
  | some r =>
    -- 317-353
    let posFirst := blockStart - r.startPos
    let posLast := numberToRead + posFirst - (r.endPos - r.startPos + 1)
    let zeros (size : Nat) : List (List W) := List.replicate numberToRead.toNat (noFlag size)
    let vals :=
      -- ztsDisaggregate.c:294-305
      if r.packed.head.valuesNumber = 0 then List.replicate numberToRead.toNat cfg.missing
      else windowFill numberToRead r.numberData posFirst posLast (unpackValues r.packed 0) cfg.missing
        (zeros cfg.vsz)
    let quals :=
      if qreq = 0 then []
      -- ztsDisaggregate.c:306-317
      else if r.packed.head.qualityNumber = 0 then zeros qreq
      else windowFill numberToRead r.numberData posFirst posLast
        (unpackQuality r.packed 0 r.numberData) (noFlag qreq) (zeros qreq)
    (vals, quals)

/-- What ztsRegStoreBlock does to the record of the block. -/
inductive RegAct (W : Type) where
  | keep
  | write (r : RegRec W)
  | delete

/-- ztsRegStoreBlock.c:697-724: the loop of storage flags 1 and 4.  Arguments: values and quality to
store, values and quality read, at the same positions. -/
def mergeFlag {W : Type} (cfg : RegCfg W) (flag : Int) (v q vr qr : List W) : List W × List W :=
  let replace := if flag = 1 then cfg.isMissing vr else if flag = 4 then !cfg.isMissing v else false
  (if replace then v else vr, if replace then q else qr)

/-- ztsRegStoreBlock.c:570-587 and 642-761: merge the new values and flags in the block read. -/
def mergeBlock {W : Type} (cfg : RegCfg W) (flag : Int) (pos : Nat) (vals quals : List (List W))
    (qsz : Nat) (rd : List (List W) × List (List W)) : List (List W) × List (List W) :=
  if flag = 0 ∨ flag = 2 ∨ flag = 3 then
    (putAt rd.1 pos vals, if qsz > 0 then putAt rd.2 pos quals else [])
  else
    let ms := (List.range vals.length).map (fun i =>
      mergeFlag cfg flag ((vals[i]?).getD []) ((quals[i]?).getD [])
        ((rd.1[pos + i]?).getD []) ((rd.2[pos + i]?).getD []))
    (putAt rd.1 pos (ms.map (·.1)), if qsz > 0 then putAt rd.2 pos (ms.map (·.2)) else [])

/-- ztsRegStoreBlock.c:805-888: the record written, from the arrays at hand. -/
def regRecord {W : Type} [DecidableEq W] [Inhabited W] (cfg : RegCfg W) (qsz numberInBlock : Nat)
    (pos first last : Nat) (vals quals : List (List W)) : RegRec W :=
  if qsz > 0 then
    -- 816-821
    let vs := vals.take numberInBlock
    ⟨0, (numberInBlock : Int) - 1, numberInBlock, numberInBlock,
      aggregate cfg.pol [] cfg.vsz vs qsz (quals.take numberInBlock) 0 []⟩
  else
    -- 822-836
    let number := last - first + 1
    let vs := (vals.drop first).take number
    let start := pos + first
    ⟨start, (start : Int) + number - 1, number, numberInBlock,
      aggregate cfg.pol [] cfg.vsz vs 0 [] 0 []⟩

/-- ztsRegStoreBlock.c:346-377: the stored record says that it holds no values. -/
def regNoLogical {W : Type} : Option (RegRec W) → Bool
  | some r => decide (r.logicalNumber < 1)
  | none => false

/-- ztsRegStoreBlock.c:381-386: the stored record has elements of the same sizes. -/
def sameSizes {W : Type} (cfg : RegCfg W) (qsz : Nat) : Option (RegRec W) → Bool
  | some r => cfg.vsz = r.packed.head.valueSize && qsz = r.packed.head.qualitySize
  | none => false

/-- ztsRegStoreBlock.c:387-400: the stored record covers the same positions as the new values. -/
def sameExtent {W : Type} (qsz pos first last number : Nat) : Option (RegRec W) → Bool
  | some r =>
    let start : Int := if qsz = 0 then pos + first else pos
    let stop : Int := if qsz = 0 then start + last - first else (pos : Int) + number - 1
    start = r.startPos && stop = r.endPos
  | none => false

/-- ztsRegStoreBlock.c:346-416: whether the block is read and the new values are merged in it. -/
def regMerges {W : Type} [DecidableEq W] [Inhabited W] (cfg : RegCfg W) (old : Option (RegRec W))
    (qsz pos : Nat) (vals quals : List (List W)) (boolReadBlock : Bool) (flag : Int) : Bool :=
  let fl := firstLastValid cfg qsz vals quals
  let found := boolReadBlock && old.isSome
  -- 346-377
  let read1 := boolReadBlock && !regNoLogical old
  -- 381-411
  let same := sameSizes cfg qsz old && sameExtent qsz pos fl.2.1 fl.2.2 vals.length old
  let read2 := read1 && !(found && (flag = 0 || flag = 2) && same)
  -- 414-416
  read2 || qsz > 0

/-- ztsRegStoreBlock.c:192-915. -/
def regStoreBlock {W : Type} [DecidableEq W] [Inhabited W] (cfg : RegCfg W) (old : Option (RegRec W))
    (qsz numberInBlock pos : Nat) (vals quals : List (List W)) (boolReadBlock : Bool) (flag : Int) :
    RegAct W :=
  -- 313
  let fl := firstLastValid cfg qsz vals quals
  -- 346-377
  let found := boolReadBlock && old.isSome
  let read1 := boolReadBlock && !regNoLogical old
  -- 381-411
  let sizes := sameSizes cfg qsz old
  let same := sizes && sameExtent qsz pos fl.2.1 fl.2.2 vals.length old
  let allMissing1 := fl.1 && !(read1 && found && flag ≠ 1 && flag ≠ 4 && sizes && !same)
  if regMerges cfg old qsz pos vals quals boolReadBlock flag then
    let rd := regReadBlock cfg old qsz numberInBlock 0
    -- 522-567
    let someReplace :=
      if flag = 1 then (List.range vals.length).any (fun i => cfg.isMissing ((rd.1[pos + i]?).getD []))
      else if flag = 4 then vals.any (fun v => !cfg.isMissing v)
      else true
    if !someReplace then .keep else
    let m := mergeBlock cfg flag pos vals quals qsz rd
    -- 777-791
    let fl2 := firstLastValid cfg qsz m.1 m.2
    -- 795-803
    let allMissing := fl2.1 && (flag = 3 || !(cfg.keepEmpty || flag = 2))
    if allMissing then (if found then .delete else .keep)
    else .write (regRecord cfg qsz numberInBlock 0 fl2.2.1 fl2.2.2 m.1 m.2)
  else
    let allMissing := allMissing1 && (flag = 3 || !(cfg.keepEmpty || flag = 2))
    if allMissing then (if found then .delete else .keep)
    else .write (regRecord cfg qsz numberInBlock pos fl.2.1 fl.2.2 vals quals)

/-- What ztsStoreReg7.c:343-345 tells ztsRegStoreBlock about times: the interval, the time of the first value of the
call, the number of values before those for this block, and the day the block starts. -/
structure BlockWhen where
  interval : Int
  startJulian : Int
  startSeconds : Int
  position : Int
  julianBlock : Int

/-- ztsRegStoreBlock.c:320-327 and 783-788: the times of the first and the last value written. -/
def regDates {W : Type} [DecidableEq W] [Inhabited W] (cfg : RegCfg W) (old : Option (RegRec W)) (b : BlockWhen)
    (qsz numberInBlock pos : Nat) (vals quals : List (List W)) (boolReadBlock : Bool) (flag : Int) :
    (Int × Int) × (Int × Int) :=
  if regMerges cfg old qsz pos vals quals boolReadBlock flag then
    let m := mergeBlock cfg flag pos vals quals qsz (regReadBlock cfg old qsz numberInBlock 0)
    let fl := firstLastValid cfg qsz m.1 m.2
    (incrementTime b.interval fl.2.1 b.julianBlock b.interval, incrementTime b.interval fl.2.2 b.julianBlock b.interval)
  else
    let fl := firstLastValid cfg qsz vals quals
    (incrementTime b.interval (b.position + fl.2.1) b.startJulian b.startSeconds,
      incrementTime b.interval (b.position + fl.2.2) b.startJulian b.startSeconds)

/-- The effect of ztsRegStoreBlock on the record of the block. -/
def RegAct.apply {W : Type} (old : Option (RegRec W)) : RegAct W → Option (RegRec W)
  | .keep => old
  | .write r => some r
  | .delete => none

/-- The records of one series, by block date (the D part of their pathnames). -/
abbrev RegFile (W : Type) := Int → Option (RegRec W)

/-- A time window after ztsProcessTimes.c:380-389: standard times and block dates. -/
structure RegWindow where
  interval : Int
  startJulian : Int
  startSeconds : Int
  endJulian : Int
  endSeconds : Int
  startBlock : Int
  endBlock : Int
  blockSize : Int
deriving Repr

/-- ztsStoreReg7.c:265, ztsRetrieveReg7.c:245: values in the block starting on `jb`. -/
def numberInBlock (w : RegWindow) (jb : Int) : Int :=
  numberPeriods w.interval (jb - 1) SECS_IN_1_DAY (ztsIncrementBlock jb w.blockSize - 1) SECS_IN_1_DAY

/-- ztsStoreReg7.c:287-295, ztsRetrieveReg7.c:253-261: position in the block of the next value. -/
def blockStartPosition (w : RegWindow) (jb current : Int) : Int :=
  let p := numberPeriods w.interval (jb - 1) SECS_IN_1_DAY w.startJulian w.startSeconds - 1 + current
  if w.interval = SECS_IN_1_WEEK ∧ p = -1 then 0 else p

/-- ztsStoreReg7.c:248-358: the main loop, `fuel` blocks at most; `none` is the error of line 299 or a
stop for lack of fuel. -/
def storeLoop {W : Type} [DecidableEq W] [Inhabited W] (cfg : RegCfg W) (w : RegWindow) (qsz : Nat)
    (vals quals : List (List W)) (flag : Int) :
    Nat → Int → Int → RegFile W → Option (RegFile W)
  | 0, jb, _, f => if jb ≤ w.endBlock then none else some f
  | fuel + 1, jb, current, f =>
    if jb ≤ w.endBlock then
      let next := ztsIncrementBlock jb w.blockSize
      let nib := numberInBlock w jb
      -- 270-279
      let readBlock := !((w.startJulian < jb && w.endJulian > next) && (flag = 0 || flag = 2))
      let bsp := blockStartPosition w jb current
      if bsp < 0 then none else
      -- 305-311
      let rest := (vals.length : Int) - current
      let number := if rest < nib - bsp then rest else nib - bsp
      let act := regStoreBlock cfg (f jb) qsz nib.toNat bsp.toNat
        ((vals.drop current.toNat).take number.toNat) ((quals.drop current.toNat).take number.toNat)
        readBlock flag
      storeLoop cfg w qsz vals quals flag fuel next (current + number)
        (fun j => if j = jb then act.apply (f jb) else f j)
    else some f

/-- ztsRetrieveReg7.c:228-653: the main loop (values only); `none` is the error of line 264 or a stop
for lack of fuel. -/
def retrieveLoop {W : Type} [Inhabited W] (cfg : RegCfg W) (w : RegWindow) (numberToRead : Int)
    (f : RegFile W) : Nat → Int → Int → List (List W) → Option (List (List W))
  | 0, jb, _, acc => if jb ≤ w.endBlock then none else some acc
  | fuel + 1, jb, current, acc =>
    if jb ≤ w.endBlock then
      let next := ztsIncrementBlock jb w.blockSize
      let nib := numberInBlock w jb
      let bsp := blockStartPosition w jb current
      if bsp < 0 then none else
      let rest := numberToRead - current
      let number := if rest < nib - bsp then rest else nib - bsp
      retrieveLoop cfg w numberToRead f fuel next (current + number)
        (acc ++ (regReadBlock cfg (f jb) 0 number bsp).1)
    else some acc

/-- ztsProcessTimes.c:380-389: the internal time window of a regular series, from the times given.
Not modelled: the handling of undefined times, of a base date and times array, and of windows taken
from the pathname. -/
def regWindow (interval startJulian startSeconds endJulian endSeconds : Int) : RegWindow :=
  let s := (ztsOffsetAdjustToStandard interval startJulian startSeconds).2
  let e := (ztsOffsetAdjustToStandard interval endJulian endSeconds).2
  let b := ztsRegGetBlockStart s.1 interval
  let c := ztsRegGetBlockStart e.1 interval
  ⟨interval, s.1, s.2, e.1, e.2, b.1, c.1, c.2⟩

/-- ztsStore of a regular series starting at the given time: ztsProcessTimes.c:364-366, 380-389 and
ztsStoreReg7.c:242-368; `none` is an error return. -/
def storeReg {W : Type} [DecidableEq W] [Inhabited W] (cfg : RegCfg W) (interval startJulian startSeconds : Int)
    (qsz : Nat) (vals quals : List (List W)) (flag : Int) (f : RegFile W) : Option (RegFile W) :=
  if vals.length = 0 then none else
  let e := incrementTime interval ((vals.length : Int) - 1) startJulian startSeconds
  let w := regWindow interval startJulian startSeconds e.1 e.2
  storeLoop cfg w qsz vals quals flag ((w.endBlock - w.startBlock).toNat + 1) w.startBlock 0 f

/-- ztsRetrieve of a regular series over the given window: ztsProcessTimes.c:380-401 and
ztsRetrieveReg7.c:222-654 (values only); `none` is an error return. -/
def retrieveReg {W : Type} [Inhabited W] (cfg : RegCfg W) (interval startJulian startSeconds endJulian
    endSeconds : Int) (f : RegFile W) : Option (List (List W)) :=
  let w := regWindow interval startJulian startSeconds endJulian endSeconds
  let number := numberPeriods interval w.startJulian w.startSeconds w.endJulian w.endSeconds + 1
  if number ≤ 0 then none else
  retrieveLoop cfg w number f ((w.endBlock - w.startBlock).toNat + 1) w.startBlock 0 []

end Hec
