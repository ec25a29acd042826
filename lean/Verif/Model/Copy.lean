import Verif.Model.Headers
import Verif.Model.Rename
/-!
Copying every record of a file into another one: Public/zcopyFile.c and Internal/zcopyRecordInternal.c, as called by
zsqueeze7.c:317 with status REC_STATUS_VALID.

Simplifications, besides those of Model/Engine.lean: the file has no location records (zcopyRecordInternal.c:304-312
would store them once more); both files are version 7.
-/
namespace Hec

/-- `(int)` of a 64 bit word. -/
def toInt32 (w : Nat) : Int := if lo32 w < 2 ^ 31 then lo32 w else (lo32 w : Int) - 2 ^ 32

/-- zcompareRecordStatus.c:46-67 for `statusWanted` REC_STATUS_VALID; the status is an int. -/
def statusValid (st : Int) : Bool := decide (st ≤ REC_STATUS_PRIMARY) || decide (st = 2)

/-- zcopyFile.c:151-171: the words at `x` are taken for the start of the info block of a record that is to be copied.
(Lines 142-149 read the file in pieces; lines 159-165 read the words after the end of a piece.) -/
def isInfoBlock (d : Disk) (x : Nat) : Bool :=
  decide (d x = DSS_INFO_FLAG) && decide (0 < toInt32 (d (x + kinfoPathnameLength))) &&
    decide (toInt32 (d (x + kinfoPathnameLength)) < 393) && statusValid (toInt32 (d (x + kinfoStatus)))

/-- What the copy depends on besides the files: whether a time series block includes the present
(ztsIsCurrentTimeSeries), the times of the writes, the name of the program, the local character array before, and the
name of the program of the record as stringCopy leaves it (zcopyRecordInternal.c:288). -/
structure CopyEnv where
  current : Bytes → Bool
  now : Nat → Nat
  prog : Nat × Nat
  carray : Bytes
  oldProg : Nat → Nat × Nat

/-- The bytes of an array of ints. -/
def intsToBytes (xs : List UInt32) : Bytes :=
  xs.flatMap fun w => [byteOf w.toNat 0, byteOf w.toNat 1, byteOf w.toNat 2, byteOf w.toNat 3]

/-- The ints of an array of bytes. -/
def bytesToInts : Bytes → List UInt32
  | a :: b :: c :: d :: rest => UInt32.ofNat (a.toNat + 256 * b.toNat + 256 ^ 2 * c.toNat + 256 ^ 3 * d.toNat) :: bytesToInts rest
  | _ => []

/-- zcopyRecordInternal.c:186-227: the internal header that is written. -/
def copiedHeader (dataType : UInt32) (ih : List UInt32) (carray : Bytes) : Option (List UInt32) :=
  if 100 ≤ dataType ∧ dataType ≤ 119 ∧ ih.length > 18 ∧ unitsHavePadding (intsToBytes ih) 17 = false then
    (convertHeader dataType.toNat (intsToBytes ih) ih.length carray).map fun r => (bytesToInts r.1).take r.2
  else some ih

/-- zcopyRecordInternal.c:145-184: the number of expansions that is kept; 0 if the space for expansions is
given up. -/
def copiedExpansions (e : CopyEnv) (path : Bytes) (info : Nat → Nat) : UInt32 :=
  let n := lowInt (info kinfoExpansion)
  let t := lowInt (info kinfoTypeVersion)
  if 0 < toInt32 n.toNat ∧ 100 ≤ t ∧ t ≤ 119 ∧ e.current path = false then 0 else n

/-- zcopyRecordInternal.c:136-249: what is written.  `info` is the info block, `R` the record it describes, `path`
the pathname in it. -/
def copyReq (e : CopyEnv) (path : Bytes) (info : Nat → Nat) (R : Rec) (ih : List UInt32) (now : Nat) : Req where
  path := mallocAndCopyPath path
  dataType := R.dataType
  ih := ih
  h2 := R.h2
  uh := R.uh
  v1 := R.v1
  v2 := R.v2
  v3 := R.v3
  numberValues := R.numberValues
  logicalNumber := R.logicalNumber
  alloc := if copiedExpansions e path info = lowInt (info kinfoExpansion) then info kinfoAllocatedSize else R.numberValues
  expanded := if copiedExpansions e path info = lowInt (info kinfoExpansion) then 0 else R.numberValues
  now := now
  firstDate := info kinfoFirstDate
  lastDate := info kinfoLastDate
  -- zbinUpdate.c:256-258
  dates := pack32 (lo32 (info kinfoFirstDate)) (lo32 (info kinfoLastDate))
  prog := e.prog

/-- zcopyRecordInternal.c:284-292: the info block of the copy gets the words of the original. -/
def copiedInfo (infoTo infoFrom : Nat → Nat) (expansions : UInt32) (prog : Nat × Nat) : Nat → Nat :=
  let info := upd infoTo kinfoTypeVersion (infoFrom kinfoTypeVersion)
  let info := upd info kinfoExpansion (packInts expansions (highInt (infoFrom kinfoExpansion)))
  let info := upd info kinfoLastWriteTime (infoFrom kinfoLastWriteTime)
  let info := upd info kinfoProgram prog.1
  let info := upd info (kinfoProgram + 1) prog.2
  let info := upd info kinfoFirstDate (infoFrom kinfoFirstDate)
  -- kinfoReserved1, zinit.c:849
  let info := upd info 12 (infoFrom 12)
  let info := upd info kinfoCreationTime (infoFrom kinfoCreationTime)
  -- kinfoReserved, zinit.c:911
  upd info 29 (infoFrom 29)

/-- zcopyRecordInternal.c:111-322 (boolDuplicate 0, two files): the record with the info block at `x` of the disk `d` is
copied into the file `t`, with the pathname `pathTo`.  The address and the info block that zwrite leaves in ifltab (lines
264, 295) are found again by the pathname. -/
def zcopyRecordTo (cd : Cfg) (d : Disk) (e : CopyEnv) (t : Eng) (x : Nat) (pathTo : Bytes) : Option (Eng × Res) :=
  let info := fun i => d (x + i)
  let path := unpackBytes (fun j => info (kinfoPathname + j)) (toInt32 (info kinfoPathnameLength)).toNat
  let R := readArrays d info
  (copiedHeader R.dataType R.ih e.carray).bind fun ih =>
    let r := { copyReq e path info R ih (e.now x) with path := mallocAndCopyPath pathTo }
    (zwrite cd t r).bind fun w =>
      if w.2 = .ok then
        (zreadInfo cd w.1 r.path REC_STATUS_VALID).bind fun k =>
          k.2.map fun infoTo =>
            let ex := copiedExpansions e path info
            let t := w.1.put k.1.infoAdd (infoSize + nLongsB (infoTo kinfoPathnameLength)) (copiedInfo infoTo info ex (e.oldProg x))
            -- lines 300-303, 316-321
            let t := { t with hdr := { t.hdr with numberExpansions := t.hdr.numberExpansions + (if 0 < toInt32 ex.toNat then ex.toNat else 0) } }
            (t.permWrite cd, .ok)
      else some w

/-- zcopyFile.c:166-190: the record with the info block at `x` of the disk `d` is copied into the file `t`, with the
pathname it has. -/
def zcopyRecordInternal (cd : Cfg) (d : Disk) (e : CopyEnv) (t : Eng) (x : Nat) : Option Eng :=
  (zcopyRecordTo cd d e t x (unpackBytes (fun j => d (x + (kinfoPathname + j))) (toInt32 (d (x + kinfoPathnameLength))).toNat)).bind fun w =>
    if w.2 = .ok then some w.1 else none

/-- zcopyFile.c:141-208: from address `x` on, `n` words. -/
def copyFrom (cd : Cfg) (d : Disk) (e : CopyEnv) : Nat → Nat → Eng → Option Eng
  | 0, _, t => some t
  | n + 1, x, t => (if isInfoBlock d x then zcopyRecordInternal cd d e t x else some t).bind (copyFrom cd d e n (x + 1))

/-- zcopyFile.c:131-214: all records of `s` are copied to `t`. -/
def zcopyFile (cd : Cfg) (e : CopyEnv) (s t : Eng) : Option Eng := (copyFrom cd s.disk e s.hdr.fileSize 0 t).map (Eng.permWrite cd)

end Hec
