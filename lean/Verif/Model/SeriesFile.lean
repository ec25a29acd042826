import Verif.Model.Reg
import Verif.Model.Records
import Verif.Model.Headers
import Verif.Model.Dates
/-!
Regular time series in a file: the loops of ztsStoreReg7.c and ztsRetrieveReg7.c with the record of each block read from
and written to the file (ztsRegStoreBlock.c, ztsRegReadBlock.c, ztsWriteBlock.c), by pathname.

Simplifications, besides those of Model/Reg.lean and Model/Engine.lean: a record whose type is not that of the series
(floats or doubles) is an error as soon as it is met (the conversions between floats and doubles are not modelled);
there are no user headers; the locks are left out.  Local arrays that are not cleared are arguments (`TsEnv`, `Around`).
-/
namespace Hec

/-- What a store says about its series, besides values: granularity, precision, offset, and units, type and time zone. -/
structure TsDesc where
  granularity : Int
  precision : Int
  offset : Int
  strings : TsStrings

/-- For one block: what the write leaves in the file besides its arguments, the local array of ztsInternalHeaderPack
(300 bytes), and what is in the internal header (200 ints) after int 16. -/
structure TsEnv where
  w : WriteEnv
  carray : Bytes
  rest : Bytes

/-- For a call: the memory before the local array of the pathname, and an uninitialised variable (see
`zpathnameSetPart`). -/
structure Around where
  before : Int → UInt8
  junk : Int

/-- ztsStoreReg7.c:145-169: DATA_TYPE_RTS or DATA_TYPE_RTD. -/
def tsType (cfg : RegCfg UInt32) : UInt32 := if cfg.vsz = 1 then 100 else 105

/-- ztsStoreReg7.c:251-259, ztsRetrieveReg7.c:231-234: the pathname of the block, in the local array `buf`.  `none`: there
is no such date. -/
def blockName (m : Around) (buf : Bytes) (jb : Int) : Option Bytes :=
  (julianToDate (exactYearGuess jb) jb 4 20).bind fun date =>
    (zpathnameSetPart (fun j => some (m.before j)) buf date 4 m.junk).map Prod.fst

/-- ztsStoreReg7.c:132, ztsRetrieveReg7.c: the array `path[MAX_PATHNAME_LENGTH]` with the pathname of the caller;
`old` is what it held before (393 bytes). -/
def pathBuffer (path old : Bytes) : Option Bytes := (stringCopy old path path.length).map Prod.fst

/-- The ints 0 to 16 of the internal header (zStructAllocation.h:87-103): ztsWriteBlock.c:174-176, ztsStoreReg7.c:179,
207-208, ztsRegStoreBlock.c:834-835, and ztsAggregate.c. -/
def headInts (d : TsDesc) (r : RegRec UInt32) : List UInt32 :=
  let h := r.packed.head
  [i32 d.granularity, i32 d.precision, i32 d.offset, 0, i32 r.startPos, i32 r.endPos,
    i32 h.valuesNumber, i32 h.valueSize, i32 h.valueSize, i32 h.vflag,
    i32 h.qualityNumber, i32 h.qualitySize, i32 h.qflag,
    i32 h.inotesNumber, i32 h.noteSize, i32 h.nflag, 0]

/-- ztsWriteBlock.c:137-252: what is written for a block. -/
def tsReq (d : TsDesc) (e : TsEnv) (path : Bytes) (type : UInt32) (r : RegRec UInt32) : Option Req :=
  (ztsInternalHeaderPack d.strings e.carray (intsToBytes (headInts d r) ++ e.rest)).map fun p =>
    ⟨mallocAndCopyPath path, type, bytesToInts (p.1.take (4 * p.2)), r.packed.header2.map UInt32.ofNat, [], r.packed.data, [], [],
      r.numberData, r.logicalNumber, 0, r.logicalNumber * (r.packed.head.valueSize + r.packed.head.qualitySize),
      e.w.now, e.w.firstDate, e.w.lastDate, e.w.dates, e.w.prog⟩

/-- An int of an internal header. -/
def headInt (ih : List UInt32) (i : Nat) : Int := toInt32 ((ih[i]?).getD 0).toNat

/-- ztsRegReadBlock.c:232-345, ztsRegStoreBlock.c:354-411: the fields of the record that are used. -/
def regRecOf (R : Rec) : RegRec UInt32 where
  startPos := headInt R.ih 4
  endPos := headInt R.ih 5
  numberData := R.numberValues
  logicalNumber := R.logicalNumber
  packed := {
    data := R.v1
    header2 := R.h2.map UInt32.toNat
    head := {
      valuesNumber := (headInt R.ih 6).toNat
      valueSize := (headInt R.ih 7).toNat
      vflag := (headInt R.ih 9).toNat
      qualityNumber := (headInt R.ih 10).toNat
      qualitySize := (headInt R.ih 11).toNat
      qflag := (headInt R.ih 12).toNat
      inotesNumber := (headInt R.ih 13).toNat
      noteSize := (headInt R.ih 14).toNat
      nflag := (headInt R.ih 15).toNat } }

/-- ztsRegReadBlock.c:236-243: the record of a block; `none` is the error. -/
def tsRecord (cfg : RegCfg UInt32) : Option Rec → Option (Option (RegRec UInt32))
  | none => some none
  | some R => if R.dataType = tsType cfg ∧ 5 ≤ R.ih.length then some (some (regRecOf R)) else none

/-- ztsRegStoreBlock.c:813-814, zwriteNew.c:175-177, zwriteExisting.c:192-194: the times of the first and last value, and
their days, go to the info block and the bin. -/
def TsEnv.dated (e : TsEnv) (d : (Int × Int) × (Int × Int)) : TsEnv :=
  { e with w := ⟨e.w.now, packInts (i32 d.1.1) (i32 d.1.2), packInts (i32 d.2.1) (i32 d.2.2), packInts (i32 d.1.1) (i32 d.2.1), e.w.prog⟩ }

/-- ztsRegStoreBlock.c:192-915 on the file.  The result says whether the status is no error; `none` as in
`Model/Engine`. -/
def storeBlockF (c : Cfg) (cfg : RegCfg UInt32) (d : TsDesc) (e : TsEnv) (s : Eng) (path : Bytes) (b : BlockWhen) (qsz nib pos : Nat)
    (vals quals : List (List UInt32)) (readBlock : Bool) (flag : Int) : Option (Eng × Bool) :=
  (zread c s path).bind fun R =>
    match tsRecord cfg R with
    | none => some (s, false)
    | some old =>
      match regStoreBlock cfg old qsz nib pos vals quals readBlock flag with
      | .keep => some (s, true)
      | .write r => (tsReq d (e.dated (regDates cfg old b qsz nib pos vals quals readBlock flag)) path (tsType cfg) r).bind fun q => (zwrite c s q).map fun x => (x.1, decide (x.2 = .ok))
      | .delete => (zdeleteInternal c s path false).map fun x => (x.1, decide (x.2 = .ok))

/-- ztsStoreReg7.c:248-358, as `storeLoop`. -/
def storeLoopF (c : Cfg) (cfg : RegCfg UInt32) (d : TsDesc) (env : Int → TsEnv) (m : Around) (w : RegWindow) (qsz : Nat)
    (vals quals : List (List UInt32)) (flag : Int) : Nat → Bytes → Int → Int → Eng → Option (Eng × Bool)
  | 0, _, jb, _, s => if jb ≤ w.endBlock then none else some (s, true)
  | fuel + 1, buf, jb, current, s =>
    if jb ≤ w.endBlock then
      (blockName m buf jb).bind fun buf =>
        let next := ztsIncrementBlock jb w.blockSize
        let nib := numberInBlock w jb
        let readBlock := !((w.startJulian < jb && w.endJulian > next) && (flag = 0 || flag = 2))
        let bsp := blockStartPosition w jb current
        if bsp < 0 then some (s, false) else
        let rest := (vals.length : Int) - current
        let number := if rest < nib - bsp then rest else nib - bsp
        (storeBlockF c cfg d (env jb) s (cstr buf) ⟨w.interval, w.startJulian, w.startSeconds, current, jb⟩ qsz nib.toNat bsp.toNat ((vals.drop current.toNat).take number.toNat)
          ((quals.drop current.toNat).take number.toNat) readBlock flag).bind fun x =>
          if x.2 then storeLoopF c cfg d env m w qsz vals quals flag fuel buf next (current + number) x.1 else some x
    else some (s, true)

/-- ztsStore of a regular series, as `storeReg`: ztsProcessTimes.c:364-366, 380-389 and ztsStoreReg7.c:132-368.  `path` is
the pathname of the struct, `old` the local array before. -/
def ztsStoreReg (c : Cfg) (cfg : RegCfg UInt32) (d : TsDesc) (env : Int → TsEnv) (m : Around) (old path : Bytes)
    (interval startJulian startSeconds : Int) (qsz : Nat) (vals quals : List (List UInt32)) (flag : Int) (s : Eng) : Option (Eng × Bool) :=
  if vals.length = 0 then some (s, false) else
  let e := incrementTime interval ((vals.length : Int) - 1) startJulian startSeconds
  let w := regWindow interval startJulian startSeconds e.1 e.2
  (pathBuffer path old).bind fun buf =>
    storeLoopF c cfg d env m w qsz vals quals flag ((w.endBlock - w.startBlock).toNat + 1) buf w.startBlock 0 s

/-- What ztsRetrieve gives: the values, the strings and numbers of the header, and whether a record was found. -/
structure TsGot where
  values : List (List UInt32)
  head : TsHead
  found : Bool
deriving DecidableEq

/-- ztsRetrieveReg7.c:571-642: the strings are taken from the first record found, and from later ones as long as there are
no units.  `ca` is the local array of ztsInternalHeaderUnpack (200 bytes), `behind` what is in the array of 200 ints after
the header. -/
def takeHead (T : TsHead) (found : Bool) (ih : List UInt32) (behind ca : Bytes) : Option TsHead :=
  if found = false ∨ T.units.val = none then
    ztsInternalHeaderUnpack T (intsToBytes (ih.take 200) ++ behind) (min ih.length 200) ca
  else some T

/-- ztsRetrieveReg7.c:571-642, also if there is no record. -/
def headAfter (T : TsHead) (found : Bool) (R : Option Rec) (behind ca : Bytes) : Option TsHead :=
  match R with
  | none => some T
  | some R => takeHead T found R.ih behind ca

/-- ztsRetrieveReg7.c:228-653, as `retrieveLoop`.  `some none` is an error return.  (Quality and notes are not asked for,
and the values are read as they are stored.) -/
def retrieveLoopF (c : Cfg) (cfg : RegCfg UInt32) (m : Around) (env : Int → Bytes × Bytes) (w : RegWindow) (numberToRead : Int) (s : Eng) :
    Nat → Bytes → Int → Int → TsGot → Option (Option TsGot)
  | 0, _, jb, _, g => if jb ≤ w.endBlock then none else some (some g)
  | fuel + 1, buf, jb, current, g =>
    if jb ≤ w.endBlock then
      (blockName m buf jb).bind fun buf =>
        let next := ztsIncrementBlock jb w.blockSize
        let nib := numberInBlock w jb
        let bsp := blockStartPosition w jb current
        if bsp < 0 then some none else
        let rest := numberToRead - current
        let number := if rest < nib - bsp then rest else nib - bsp
        (zread c s (mallocAndCopyPath (cstr buf))).bind fun R =>
          match tsRecord cfg R with
          | none => some none
          | some old =>
            (headAfter g.head g.found R (env jb).1 (env jb).2).bind fun T =>
            retrieveLoopF c cfg m env w numberToRead s fuel buf next (current + number)
              ⟨g.values ++ (regReadBlock cfg old 0 number bsp).1, T, g.found || R.isSome⟩
    else some (some g)

/-- ztsRetrieve of a regular series over the given window, as `retrieveReg`: ztsProcessTimes.c:380-401 and
ztsRetrieveReg7.c:222-654.  `T` are the strings and numbers of the struct before.  Simplification: a window without
standard times (`number ≤ 0`) is an error here; the code goes on without values. -/
def ztsRetrieveReg (c : Cfg) (cfg : RegCfg UInt32) (m : Around) (env : Int → Bytes × Bytes) (old path : Bytes) (T : TsHead)
    (interval startJulian startSeconds endJulian endSeconds : Int) (s : Eng) : Option (Option TsGot) :=
  let w := regWindow interval startJulian startSeconds endJulian endSeconds
  let number := numberPeriods interval w.startJulian w.startSeconds w.endJulian w.endSeconds + 1
  if number ≤ 0 then some none else
  (pathBuffer path old).bind fun buf =>
    retrieveLoopF c cfg m env w number s ((w.endBlock - w.startBlock).toNat + 1) buf w.startBlock 0 ⟨[], T, false⟩

end Hec
