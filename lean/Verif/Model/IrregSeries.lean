import Verif.Model.Irreg
/-!
Storing and retrieving irregular interval time series over several blocks: the main loops of
Internal/ztsStoreIrreg7.c and Internal/ztsRetrieveIrreg7.c, Internal/ztsIrregStoreBlock.c and
Internal/ztsIrregReadBlock.c, with the irregular part of Internal/ztsProcessTimes.c.

Simplifications.  A file is a map from the first day of a block to its record (the pathname of a
block is the series' pathname with that day as D part).  A record holds its entries (time in block
units, payload), the logical number of values and the time granularity of its internal header; how
the record is packed into words is Model/Pack.  Payload: value, quality and integer note.  Character
notes are left out (within a block they are C36).  Integers do not overflow.  Storage flag 0 (merge).
-/
namespace Hec

/-- The record of a block.  `logical` is `kinfoLogicalNumber`, `gran` is
`internalHeader[INT_HEAD_timeGranularity]` (ztsWriteBlock.c:174). -/
structure IrregRec (α : Type) where
  entries : List (Entry α)
  logical : Int
  gran : Int

abbrev IrregFile (α : Type) := Int → Option (IrregRec α)

/-- ztsIrregReadBlock.c:492-497, ztsIrregStoreBlock.c:572-579: seconds in a unit of the stored times
(block size 5 is a century). -/
def unitOf (blockSize : Int) : Int := if blockSize < 5 then 1 else 60

/-- ztsStoreIrreg7.c:384-400, ztsRetrieveIrreg7.c:634-646: units in a day. -/
def unitsPerDay (g : Int) : Int :=
  if g = 1 then SECS_IN_1_DAY
  else if g = 60 then MINS_IN_1_DAY
  else if g = 3600 then 24
  else 1

/-- ztsIrregReadBlock.c:514-578: copy the values in the time window.  `l` are the values expanded,
`i` is the position of the next one, `status` is `lastValueStatus`, `some` tells `ipos > 0`; the first
argument bounds the loop. -/
def readLoop {α : Type} (l : List (Entry α)) (unit jb : Int) (w : TimeWindow) :
    Nat → Nat → Int → Bool → Bool → Bool → List (Entry α)
  | 0, _, _, _, _, _ => []
  | n + 1, i, status, previous, next, any =>
    match l[i]? with
    | none => []
    | some e =>
      let r := isTimeInRange e.time status unit jb w
      let back := previous && r.1
      let i' := if back && decide (i > 0) then i - 1 else i
      let succ := next && !r.1 && any
      if r.1 || succ then
        match l[i']? with
        | none => []
        | some x => x :: readLoop l unit jb w n (i' + 1) r.2 (previous && !back) (next && !succ) true
      else if r.2 > 0 then []
      else readLoop l unit jb w n (i' + 1) r.2 (previous && !back) (next && !succ) any

/-- ztsIrregReadBlock.c:437-579 for an existing record; the number of values expanded is
ztsDisaggregate.c:393-411 (called with positions 0). -/
def irregReadBlock {α : Type} (r : IrregRec α) (blockSize jb : Int) (w : TimeWindow) (maxNumber : Int)
    (previous next : Bool) : List (Entry α) :=
  let stored : Int := r.entries.length
  let expanded := if stored > maxNumber then maxNumber else stored
  let number := if previous then expanded + 1 else expanded
  readLoop (r.entries.take expanded.toNat) (unitOf blockSize) jb w number.toNat 0 (-1) previous next false

/-- ztsIrregStoreBlock.c:627-652: day and seconds of a stored time. -/
def irregValueTime (jb blockSize t : Int) : Int × Int :=
  let perDay := if blockSize < 5 then SECS_IN_1_DAY else MINS_IN_1_DAY
  let days := cdiv t perDay
  let s := if blockSize < 5 then t - days * perDay else (t - days * perDay) * SECS_IN_1_MINUTE
  if s < 1 then (jb + days - 1, s + SECS_IN_1_DAY) else (jb + days, s)

/-- ztsIrregStoreBlock.c:662-688: the logical number of values of a record with `total` values. -/
def logicalNumber (jb next : Int) (first last : Int × Int) (total : Int) : Int :=
  let days := next - jb + 1
  if days < 370 then
    let span := (last.1 - first.1 + 1) * SECS_IN_1_DAY + (last.2 - first.2)
    let average := cdiv span total
    if average > 0 then cdiv (days * SECS_IN_1_DAY) average else 1
  else
    let span := (last.1 - first.1 + 1) * MINS_IN_1_DAY + cdiv (last.2 - first.2) SECS_IN_1_MINUTE
    let average := cdiv span total
    if average > 0 then cdiv (days * MINS_IN_1_DAY) average else 1

/-- ztsIrregStoreBlock.c:616-721: the record written for the entries of a block. -/
def irregWrite {α : Type} (blockSize jb next gran : Int) (l : List (Entry α)) : Option (IrregRec α) :=
  match l with
  | [] => none
  | e :: _ =>
    let last := (l.getLast?.getD e).time
    some ⟨l, logicalNumber jb next (irregValueTime jb blockSize e.time) (irregValueTime jb blockSize last) l.length, gran⟩

/-- ztsIrregStoreBlock.c:353-723 with storage flag 0 and at least one value: read the record if it
exists, merge, write.  (Lines 381-385: a record with logical number below 1 is not read.) -/
def irregStoreBlock {α : Type} (f : IrregFile α) (blockSize jb next gran : Int) (new : List (Entry α)) :
    IrregFile α :=
  let combined :=
    match f jb with
    | none => new
    | some r =>
      if r.logical < 1 then new
      else (mergeBlocks new none (irregReadBlock r blockSize jb ⟨jb, 0, next, 0⟩ r.logical false false) none).map Prod.fst
  fun j => if j = jb then irregWrite blockSize jb next gran combined else f j

/-- ztsStoreIrreg7.c:344-559: the main loop; `none` when `fuel` blocks were not enough. -/
def irregStoreLoop {α : Type} (blockSize g base endBlock : Int) :
    Nat → Int → List (Entry α) → IrregFile α → Option (IrregFile α)
  | 0, jb, _, f => if jb ≤ endBlock then none else some f
  | fuel + 1, jb, vals, f =>
    if jb ≤ endBlock then
      let next := ztsIncrementBlock jb blockSize
      let toStart := (jb - base) * unitsPerDay g
      let toEnd := (next - jb) * unitsPerDay g
      -- 402-413
      let now := vals.takeWhile (fun e => decide (e.time - toStart ≤ toEnd))
      -- 431-443
      let conv := now.map (fun e => (⟨if blockSize = 5 then cdiv ((e.time - toStart) * g) SECS_IN_1_MINUTE else (e.time - toStart) * g, e.val⟩ : Entry α))
      let f' := if now.length > 0 then irregStoreBlock f blockSize jb next g conv else f
      irregStoreLoop blockSize g base endBlock fuel next (vals.drop now.length) f'
    else some f

/-- ztsStoreIrreg7.c with storage flag 0: times in units of `g` seconds (1, 60, 3600 or 86400) from the
start of day `base`.  The blocks are those of the first and last time (ztsProcessTimes.c:323-348,
412-418).  No values: nothing is stored. -/
def ztsStoreIrreg {α : Type} (f : IrregFile α) (blockSize g base : Int) (vals : List (Entry α)) :
    Option (IrregFile α) :=
  match vals with
  | [] => some f
  | e :: _ =>
    let startBlock := ztsIrregGetBlockStart (cleanTime base e.time g).1 blockSize
    let endBlock := ztsIrregGetBlockStart (cleanTime base (vals.getLast?.getD e).time g).1 blockSize
    irregStoreLoop blockSize g base endBlock ((endBlock - startBlock).toNat + 1) startBlock vals f

/-- What a retrieval returns: times in units of `gran` seconds from the start of day `base`. -/
structure Retrieved (α : Type) where
  base : Int
  gran : Int
  entries : List (Entry α)

/-- ztsGetSizesInternal.c:151-217: the number of values in the blocks. -/
def irregSizes {α : Type} (f : IrregFile α) (blockSize endBlock : Int) : Nat → Int → Option Int
  | 0, jb => if jb ≤ endBlock then none else some 0
  | fuel + 1, jb =>
    if jb ≤ endBlock then
      (irregSizes f blockSize endBlock fuel (ztsIncrementBlock jb blockSize)).map
        (fun n => (match f jb with | none => 0 | some r => (r.entries.length : Int)) + n)
    else some 0

/-- ztsRetrieveIrreg7.c:516-678: the main loop.  `max` is `maxValues - currentPosition`; `found` is
`foundOne`; `base`, `gran` are the fields of the caller's struct, set by the first record found
(580-588, ztsInternalHeaderUnpack.c:82-84); `flag` is `retrieveFlag`. -/
def irregRetrieveLoop {α : Type} (f : IrregFile α) (blockSize endBlock flag : Int) (w : TimeWindow) :
    Nat → Int → Int → Bool → Int → Int → Bool → Option (Retrieved α)
  | 0, jb, _, _, base, gran, _ => if jb ≤ endBlock then none else some ⟨base, gran, []⟩
  | fuel + 1, jb, max, found, base, gran, previous =>
    if jb ≤ endBlock then
      let next := ztsIncrementBlock jb blockSize
      -- 527-532
      let subsequent := decide (jb = endBlock) && (decide (flag = 2) || decide (flag = 3))
      match f jb with
      | none => irregRetrieveLoop f blockSize endBlock flag w fuel next max found base gran false
      | some r =>
        let l := irregReadBlock r blockSize jb w max previous subsequent
        let gran' := if found then gran else if r.gran > 0 then r.gran else gran
        let base' := if found then base
          else if base < 0 then jb
          else if gran' = 1 ∧ base = 0 then jb
          else base
        -- 632-660
        let g := if gran' = 0 then 60 else gran'
        let conv := l.map (fun e =>
          (⟨(if blockSize = 5 then cdiv (e.time * SECS_IN_1_MINUTE) g else cdiv e.time g) + (jb - base') * unitsPerDay gran', e.val⟩ : Entry α))
        (irregRetrieveLoop f blockSize endBlock flag w fuel next (max - l.length) true base' gran' false).map
          (fun x => ⟨x.base, x.gran, conv ++ x.entries⟩)
    else some ⟨base, gran, []⟩

/-- The first and last time of a record: ztsIrregStoreBlock.c:627-654 (written),
ztsGetFirstLastRecordTimes.c:95-110 (read). -/
def irregFirst {α : Type} (blockSize jb : Int) (r : IrregRec α) : Int × Int :=
  irregValueTime jb blockSize ((r.entries.head?.map Entry.time).getD 0)
def irregLast {α : Type} (blockSize jb : Int) (r : IrregRec α) : Int × Int :=
  irregValueTime jb blockSize ((r.entries.getLast?.map Entry.time).getD 0)

/-- The state of the retrieval after the look for previous and subsequent values. -/
structure RetrieveSetup where
  w : TimeWindow
  startBlock : Int
  endBlock : Int
  flag : Int
  previous : Bool

/-- ztsRetrieveIrreg7.c:223-279: the subsequent value. -/
def setupSubsequent {α : Type} (f : IrregFile α) (blockSize : Int) (s : RetrieveSetup) : RetrieveSetup :=
  if s.flag = 2 ∨ s.flag = 3 then
    match f s.endBlock with
    | none => s
    | some r =>
      let l := irregLast blockSize s.endBlock r
      if compareTimes l.1 l.2 0 1 s.w.endJulian s.w.endTimeSeconds 0 1 > 0 then s
      else
        let julian := ztsIncrementBlock s.endBlock blockSize
        match f julian with
        | none => s
        | some r' =>
          let first := irregFirst blockSize julian r'
          { s with endBlock := julian, w := { s.w with endJulian := first.1, endTimeSeconds := first.2 }, flag := if s.flag = 3 then 1 else 0 }
  else s

/-- ztsRetrieveIrreg7.c:280-338: the previous value. -/
def setupPrevious {α : Type} (f : IrregFile α) (blockSize : Int) (s : RetrieveSetup) : RetrieveSetup :=
  if s.flag = 1 ∨ s.flag = 3 then
    match f s.startBlock with
    | none => s
    | some r =>
      let first := irregFirst blockSize s.startBlock r
      if compareTimes first.1 first.2 0 1 s.w.startJulian s.w.startTimeSeconds 0 1 < 0 then { s with previous := true }
      else
        let julian := ztsIrregGetBlockStart (s.startBlock - 1) blockSize
        match f julian with
        | none => s
        | some r' =>
          let last := irregLast blockSize julian r'
          { s with startBlock := julian, w := { s.w with startJulian := last.1, startTimeSeconds := last.2 }, flag := if s.flag = 3 then 2 else 0 }
  else s

/-- ztsProcessTimes.c:453-472: the granularity used when the caller gave none (0), irregular data. -/
def retrieveGran (gran startJulian endJulian : Int) : Int :=
  if gran ≠ 0 then gran
  else if endJulian - startJulian < 1000000 then 60
  else if endJulian - startJulian < 30000000 then 3600
  else 86400

/-- ztsProcessTimes.c:475-490. -/
def retrieveBase (base gran startJulian endJulian startBlock : Int) : Int :=
  if base = 0 ∧ startBlock ≠ 0 then
    if gran = 1 then startBlock
    else if gran = 60 then
      if startJulian < -365 * 1000 ∨ startJulian > 365 * 3100 ∨ endJulian > 365 * 3200 then startBlock else base
    else startBlock
  else base

/-- ztsRetrieveIrreg7.c for a time window given by the caller (`w`, with start not after the end, both
defined), with the caller's base date and granularity, and `flag` 0, or 1, 2, 3 for the previous value,
the subsequent one or both.  ztsProcessTimes.c:115-131: the times are normalised when the base date
is 0. -/
def ztsRetrieveIrreg {α : Type} (f : IrregFile α) (blockSize : Int) (w : TimeWindow) (base gran flag : Int) :
    Option (Retrieved α) :=
  let s := if base = 0 then cleanTime w.startJulian w.startTimeSeconds 1 else (w.startJulian, w.startTimeSeconds)
  let e := if base = 0 then cleanTime w.endJulian w.endTimeSeconds 1 else (w.endJulian, w.endTimeSeconds)
  let startBlock := ztsIrregGetBlockStart s.1 blockSize
  let endBlock := ztsIrregGetBlockStart e.1 blockSize
  let gran' := retrieveGran gran s.1 e.1
  let base' := retrieveBase base gran' s.1 e.1 startBlock
  let u := setupPrevious f blockSize (setupSubsequent f blockSize ⟨⟨s.1, s.2, e.1, e.2⟩, startBlock, endBlock, flag, false⟩)
  let fuel := (u.endBlock - u.startBlock).toNat + 1
  (irregSizes f blockSize u.endBlock fuel u.startBlock).bind (fun max =>
    irregRetrieveLoop f blockSize u.endBlock u.flag u.w fuel u.startBlock max false base' gran' u.previous)

end Hec
