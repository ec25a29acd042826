import Verif.Model.SeriesFile
import Verif.Model.IrregSeries
/-!
Irregular time series in a file: the loops of ztsStoreIrreg7.c and ztsRetrieveIrreg7.c with the record of each block
read from and written to the file (ztsIrregStoreBlock.c, ztsIrregReadBlock.c, ztsGetSizesInternal.c, ztsWriteBlock.c),
by pathname.

Simplifications, besides those of Model/IrregSeries.lean (storage flag 0) and Model/Engine.lean: a record whose type or
size of quality flags is not that of the series is an error as soon as it is met (conversions are not modelled); no
user headers, notes and profiles; the locks are left out; the window is retrieved without the values before and after it
(retrieveFlag 0), with the quality flags.
-/
namespace Hec

/-- The words of a value and of its quality flags. -/
abbrev ItsVal := List UInt32 × List UInt32

/-- The settings of a series: when to compress, the words of a value (1 or 2) and of its quality flags. -/
structure ItsCfg where
  pol : PackPolicy
  vsz : Nat
  qsz : Nat

/-- ztsStoreIrreg7.c:164-178: DATA_TYPE_ITS or DATA_TYPE_ITD. -/
def itsType (cfg : ItsCfg) : UInt32 := if cfg.vsz = 1 then 110 else 115

/-- ztsWriteBlock.c:179-186 with boolUseTimes 1: the data area of a block. -/
def itsPacked (cfg : ItsCfg) (l : List (Entry ItsVal)) : Packed UInt32 :=
  aggregate cfg.pol (l.map fun e => i32 e.time) cfg.vsz (l.map fun e => e.val.1) cfg.qsz (if cfg.qsz = 0 then [] else l.map fun e => e.val.2) 0 []

/-- The ints 0 to 16 of the internal header (zStructAllocation.h:87-103): cleared (ztsStoreIrreg7.c:143-145), then
ztsWriteBlock.c:174-176, ztsStoreIrreg7.c:188, 218-219 and ztsAggregate.c. -/
def itsHeadInts (d : TsDesc) (h : PackHead) : List UInt32 :=
  [i32 d.granularity, i32 d.precision, i32 d.offset, 0, 0, 0,
    i32 h.valuesNumber, i32 h.valueSize, i32 h.valueSize, i32 h.vflag,
    i32 h.qualityNumber, i32 h.qualitySize, i32 h.qflag,
    i32 h.inotesNumber, i32 h.noteSize, i32 h.nflag, 0]

/-- ztsWriteBlock.c:137-252: what is written for a block. -/
def itsReq (cfg : ItsCfg) (d : TsDesc) (e : TsEnv) (path : Bytes) (r : IrregRec ItsVal) : Option Req :=
  let p := itsPacked cfg r.entries
  (ztsInternalHeaderPack d.strings e.carray (intsToBytes (itsHeadInts d p.head) ++ e.rest)).map fun x =>
    ⟨mallocAndCopyPath path, itsType cfg, bytesToInts (x.1.take (4 * x.2)), p.header2.map UInt32.ofNat, [], p.data, [], [],
      r.entries.length, r.logical.toNat, 0, r.logical.toNat * (cfg.vsz + cfg.qsz) + r.logical.toNat,
      e.w.now, e.w.firstDate, e.w.lastDate, e.w.dates, e.w.prog⟩

/-- The fields of a record that ztsDisaggregate uses. -/
def packedOf (R : Rec) : Packed UInt32 where
  data := R.v1
  header2 := R.h2.map UInt32.toNat
  head := {
    valuesNumber := (headInt R.ih 6).toNat
    valueSize := (headInt R.ih 7).toNat
    vflag := (headInt R.ih 9).toNat
    qualityNumber := (headInt R.ih 10).toNat
    qualitySize := (headInt R.ih 11).toNat
    qflag := (headInt R.ih 12).toNat
    inotesNumber := (headInt R.ih 13).toNat
    noteSize := (headInt R.ih 14).toNat
    nflag := (headInt R.ih 15).toNat }

/-- ztsIrregReadBlock.c:347, 437-472: times and values of a record.  (All of them are expanded here; how many the call
expands is in `irregReadBlock`.) -/
def irregRecOf (cfg : ItsCfg) (R : Rec) : IrregRec ItsVal :=
  let n := R.numberValues
  let times := (R.v1.take n).map fun w => toInt32 w.toNat
  let vals := unpackValues (packedOf R) n 0 n
  let quals := if cfg.qsz > 0 then unpackQuality (packedOf R) n n 0 n else List.replicate n []
  ⟨(times.zip (vals.zip quals)).map fun x => ⟨x.1, x.2⟩, R.logicalNumber, headInt R.ih 0⟩

/-- ztsIrregReadBlock.c:319-326: the record of a block; `none` is the error. -/
def irregRecord (cfg : ItsCfg) : Option Rec → Option (Option (IrregRec ItsVal))
  | none => some none
  | some R => if R.dataType = itsType cfg ∧ 5 ≤ R.ih.length ∧ headInt R.ih 11 = cfg.qsz then some (some (irregRecOf cfg R)) else none

/-- ztsIrregStoreBlock.c:353-730 on the file (`irregStoreBlock` on the block alone).  The result says whether the status
is no error. -/
def irregStoreBlockF (c : Cfg) (cfg : ItsCfg) (d : TsDesc) (e : TsEnv) (s : Eng) (path : Bytes) (blockSize jb next : Int)
    (new : List (Entry ItsVal)) : Option (Eng × Bool) :=
  (zread c s path).bind fun R =>
    match irregRecord cfg R with
    | none => some (s, false)
    | some old =>
      match irregStoreBlock (fun _ => old) blockSize jb next d.granularity new jb with
      | some r => (itsReq cfg d e path r).bind fun q => (zwrite c s q).map fun x => (x.1, decide (x.2 = .ok))
      | none => if old.isSome then (zdeleteInternal c s path false).map fun x => (x.1, decide (x.2 = .ok)) else some (s, true)

/-- ztsStoreIrreg7.c:344-559, as `irregStoreLoop`. -/
def irregStoreLoopF (c : Cfg) (cfg : ItsCfg) (d : TsDesc) (env : Int → TsEnv) (m : Around) (blockSize base endBlock : Int) :
    Nat → Bytes → Int → List (Entry ItsVal) → Eng → Option (Eng × Bool)
  | 0, _, jb, _, s => if jb ≤ endBlock then none else some (s, true)
  | fuel + 1, buf, jb, vals, s =>
    if jb ≤ endBlock then
      (blockName m buf jb).bind fun buf =>
        let g := d.granularity
        let next := ztsIncrementBlock jb blockSize
        let toStart := (jb - base) * unitsPerDay g
        let toEnd := (next - jb) * unitsPerDay g
        -- 402-413
        let now := vals.takeWhile (fun e => decide (e.time - toStart ≤ toEnd))
        -- 431-443
        let conv := now.map (fun e => (⟨if blockSize = 5 then cdiv ((e.time - toStart) * g) SECS_IN_1_MINUTE else (e.time - toStart) * g, e.val⟩ : Entry ItsVal))
        (if now.length > 0 then irregStoreBlockF c cfg d (env jb) s (cstr buf) blockSize jb next conv else some (s, true)).bind fun x =>
          if x.2 then irregStoreLoopF c cfg d env m blockSize base endBlock fuel buf next (vals.drop now.length) x.1 else some x
    else some (s, true)

/-- ztsStore of an irregular series, as `ztsStoreIrreg`: ztsStoreIrreg7.c:159-568.  `path` is the pathname of the struct,
`old` the local array before. -/
def ztsStoreIrregF (c : Cfg) (cfg : ItsCfg) (d : TsDesc) (env : Int → TsEnv) (m : Around) (old path : Bytes)
    (blockSize base : Int) (vals : List (Entry ItsVal)) (s : Eng) : Option (Eng × Bool) :=
  match vals with
  | [] => some (s, true)
  | e :: _ =>
    let startBlock := ztsIrregGetBlockStart (cleanTime base e.time d.granularity).1 blockSize
    let endBlock := ztsIrregGetBlockStart (cleanTime base (vals.getLast?.getD e).time d.granularity).1 blockSize
    (pathBuffer path old).bind fun buf =>
      irregStoreLoopF c cfg d env m blockSize base endBlock ((endBlock - startBlock).toNat + 1) buf startBlock vals s

/-- ztsGetSizesInternal.c:151-217: the number of values in the blocks. -/
def irregSizesF (c : Cfg) (m : Around) (blockSize endBlock : Int) (s : Eng) : Nat → Bytes → Int → Option Int
  | 0, _, jb => if jb ≤ endBlock then none else some 0
  | fuel + 1, buf, jb =>
    if jb ≤ endBlock then
      (blockName m buf jb).bind fun buf =>
        (zread c s (cstr buf)).bind fun R =>
          (irregSizesF c m blockSize endBlock s fuel buf (ztsIncrementBlock jb blockSize)).map fun n =>
            (match R with | none => 0 | some r => (r.numberValues : Int)) + n
    else some 0

/-- What ztsRetrieve gives: base date, numbers (the granularity among them) and strings of the struct, times and values,
and whether a record was found. -/
structure ItsGot where
  base : Int
  head : TsHead
  entries : List (Entry ItsVal)
  found : Bool

/-- ztsRetrieveIrreg7.c:580-582: the strings and numbers are taken from the first record found. -/
def itsHead (T : TsHead) (found : Bool) (ih : List UInt32) (behind ca : Bytes) : Option TsHead :=
  if found = false then ztsInternalHeaderUnpack T (intsToBytes (ih.take 200) ++ behind) (min ih.length 200) ca else some T

/-- ztsRetrieveIrreg7.c:510-678, as `irregRetrieveLoop` with flag 0.  `some none` is an error return. -/
def irregRetrieveLoopF (c : Cfg) (cfg : ItsCfg) (m : Around) (env : Int → Bytes × Bytes) (blockSize endBlock : Int) (w : TimeWindow) (s : Eng) :
    Nat → Bytes → Int → Int → Bool → Int → TsHead → Option (Option ItsGot)
  | 0, _, jb, _, found, base, T => if jb ≤ endBlock then none else some (some ⟨base, T, [], found⟩)
  | fuel + 1, buf, jb, max, found, base, T =>
    if jb ≤ endBlock then
      (blockName m buf jb).bind fun buf =>
        let next := ztsIncrementBlock jb blockSize
        (zread c s (mallocAndCopyPath (cstr buf))).bind fun R =>
          match R, irregRecord cfg R with
          | _, none => some none
          | some R, some (some r) =>
            let l := irregReadBlock r blockSize jb w max false false
            (itsHead T found R.ih (env jb).1 (env jb).2).bind fun T' =>
              let base' := if found then base
                else if base < 0 then jb
                else if T'.granularity = 1 ∧ base = 0 then jb
                else base
              -- 632-660
              let g := if T'.granularity = 0 then 60 else T'.granularity
              let conv := l.map (fun e =>
                (⟨(if blockSize = 5 then cdiv (e.time * SECS_IN_1_MINUTE) g else cdiv e.time g) + (jb - base') * unitsPerDay T'.granularity, e.val⟩ : Entry ItsVal))
              (irregRetrieveLoopF c cfg m env blockSize endBlock w s fuel buf next (max - l.length) true base' T').map
                (Option.map fun x => ⟨x.base, x.head, conv ++ x.entries, x.found⟩)
          | _, _ => irregRetrieveLoopF c cfg m env blockSize endBlock w s fuel buf next max found base T
    else some (some ⟨base, T, [], found⟩)

/-- ztsRetrieve of an irregular series for the time window `w` given by the caller, as `ztsRetrieveIrreg` with flag 0:
ztsProcessTimes.c:115-131, 412-490 and ztsRetrieveIrreg7.c:203-721.  `T` are the strings and numbers of the struct, `base`
its base date; `old`, `old2` are the local arrays of this function and of ztsGetSizesInternal. -/
def ztsRetrieveIrregF (c : Cfg) (cfg : ItsCfg) (m : Around) (env : Int → Bytes × Bytes) (old old2 path : Bytes) (blockSize : Int) (w : TimeWindow)
    (base : Int) (T : TsHead) (s : Eng) : Option (Option ItsGot) :=
  let a := if base = 0 then cleanTime w.startJulian w.startTimeSeconds 1 else (w.startJulian, w.startTimeSeconds)
  let e := if base = 0 then cleanTime w.endJulian w.endTimeSeconds 1 else (w.endJulian, w.endTimeSeconds)
  let startBlock := ztsIrregGetBlockStart a.1 blockSize
  let endBlock := ztsIrregGetBlockStart e.1 blockSize
  let gran := retrieveGran T.granularity a.1 e.1
  let base' := retrieveBase base gran a.1 e.1 startBlock
  let fuel := (endBlock - startBlock).toNat + 1
  (pathBuffer path old).bind fun buf =>
    (pathBuffer (cstr buf) old2).bind fun buf2 =>
      (irregSizesF c m blockSize endBlock s fuel buf2 startBlock).bind fun max =>
        irregRetrieveLoopF c cfg m env blockSize endBlock ⟨a.1, a.2, e.1, e.2⟩ s fuel buf startBlock max false base' { T with granularity := gran }

end Hec
