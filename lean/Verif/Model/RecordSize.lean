import Verif.Model.OldNames
import Verif.Model.Copy
/-!
Model of the functions that describe a record: Internal/zgetRecordSize7.c, Internal/zgetRecordBasics7.c and
Public/zgetLastWriteTimeRec.c (version 7 files).

Before they read the info block these functions compare the pathname with the words of `ifltab` that begin at
`kpathAddressInBin`; `memory` are the bytes of these words (the first eight are the address of the last pathname found,
zcheckInternal.c:369) and `old` is the info block left in memory.  Not modelled: the name of the program (charInt of two
words), the number of hashes and the times of the file in zgetRecordBasics.
-/
namespace Hec

/-- zStructRecordSize.h: the fields of time series. -/
structure TsFields where
  precision : Int
  timeOffset : Int
  profileDepthsNumber : Int
  blockStartPosition : Int
  blockEndPosition : Int
  valueSize : Int
  valueElementSize : Int
  valuesCompressionFlag : Int
  qualityElementSize : Int
  qualityCompressionFlag : Int
  inotesElementSize : Int
  inotesCompressionFlag : Int
  cnotesLength : Int
deriving DecidableEq

/-- zStructRecordSize.h: the fields of paired data. -/
structure PdFields where
  numberCurves : Int
  numberOrdinates : Int
  boolIndependentIsXaxis : Int
  labelsLength : Int
  precision : Int
deriving DecidableEq

/-- zStructRecordSize.h; `ts` and `pd` are `none` when the fields are left as they were. -/
structure RecordSize where
  dataType : Int
  version : Int
  numberValues : Int
  logicalNumberValues : Int
  values1Number : Int
  values2Number : Int
  values3Number : Int
  internalHeaderNumber : Int
  header2Number : Int
  userHeaderNumber : Int
  allocatedSize : Int
  lastWriteTimeMillis : Nat
  ts : Option TsFields
  pd : Option PdFields
deriving DecidableEq

/-- zgetRecordSize7.c:114-119: the array of 200 ints with the start of the internal header. -/
def headerStart (d : Disk) (info : Nat → Nat) : List UInt32 :=
  let number := if info kinfoInternalHeadNumber > 200 then 200 else info kinfoInternalHeadNumber
  getInts d (info kinfoInternalHeadAddress) number ++ List.replicate (200 - number) 0

/-- zgetRecordSize7.c:96-153. -/
def fillSize (d : Disk) (info : Nat → Nat) : RecordSize :=
  let dataType := toInt32 (lowInt (info kinfoTypeVersion)).toNat
  let h := headerStart d info
  let f (i : Nat) : Int := toInt32 (h.getD i 0).toNat
  { dataType := dataType
    version := toInt32 (highInt (info kinfoTypeVersion)).toNat
    numberValues := toInt32 (info kinfoNumberData)
    logicalNumberValues := toInt32 (info kinfoLogicalNumber)
    values1Number := toInt32 (info kinfoValues1Number)
    values2Number := toInt32 (info kinfoValues2Number)
    values3Number := toInt32 (info kinfoValues3Number)
    internalHeaderNumber := toInt32 (info kinfoInternalHeadNumber)
    header2Number := toInt32 (info kinfoHeader2Number)
    userHeaderNumber := toInt32 (info kinfoUserHeadNumber)
    allocatedSize := toInt32 (info kinfoAllocatedSize)
    lastWriteTimeMillis := info kinfoLastWriteTime
    ts := if dataType ≥ 100 ∧ dataType < 200 then
        some ⟨f 1, f 2, f 3, f 4, f 5, f 7, f 8, f 9, f 11, f 12, f 14, f 15, f 16⟩
      else none
    pd := if ¬ (dataType ≥ 100 ∧ dataType < 200) ∧ dataType ≥ 200 ∧ dataType < 300 then some ⟨f 1, f 0, f 2, f 3, f 4⟩ else none }

/-- zgetRecordSize7.c:51-160.  `none`: failure; `some none`: record not found. -/
def zgetRecordSize (c : Cfg) (s : Eng) (memory : Bytes) (old : Nat → Nat) (path : Bytes) : Option (Option RecordSize) :=
  if zstringCompare path memory path.length then some (some (fillSize s.disk old))
  else (zreadInfoName c s path).map fun x => x.2.map (fillSize s.disk)

/-- zStructRecordBasics.h, the fields that are in the info block. -/
structure RecordBasics where
  recordType : Int
  version : Int
  numberValues : Int
  logicalNumberValues : Int
  values1Number : Int
  values2Number : Int
  values3Number : Int
  internalHeaderNumber : Int
  header2Number : Int
  userHeaderNumber : Int
  allocatedSize : Int
  recLastWriteTimeMillis : Nat
  recCreationTimeMillis : Nat
deriving DecidableEq

/-- zgetRecordBasics7.c:93-107. -/
def fillBasics (info : Nat → Nat) : RecordBasics where
  recordType := toInt32 (lowInt (info kinfoTypeVersion)).toNat
  version := toInt32 (highInt (info kinfoTypeVersion)).toNat
  numberValues := toInt32 (info kinfoNumberData)
  logicalNumberValues := toInt32 (info kinfoLogicalNumber)
  values1Number := toInt32 (info kinfoValues1Number)
  values2Number := toInt32 (info kinfoValues2Number)
  values3Number := toInt32 (info kinfoValues3Number)
  internalHeaderNumber := toInt32 (info kinfoInternalHeadNumber)
  header2Number := toInt32 (info kinfoHeader2Number)
  userHeaderNumber := toInt32 (info kinfoUserHeadNumber)
  allocatedSize := toInt32 (info kinfoAllocatedSize)
  recLastWriteTimeMillis := info kinfoLastWriteTime
  recCreationTimeMillis := info kinfoCreationTime

/-- zgetRecordBasics7.c:51-122. -/
def zgetRecordBasics (c : Cfg) (s : Eng) (memory : Bytes) (old : Nat → Nat) (path : Bytes) : Option (Option RecordBasics) :=
  if zstringCompare path memory path.length then some (some (fillBasics old))
  else (zreadInfoName c s path).map fun x => x.2.map fillBasics

/-- zgetLastWriteTimeRec.c:41-65. -/
def zgetLastWriteTimeRec (c : Cfg) (s : Eng) (path : Bytes) : Option Nat :=
  (zreadInfoName c s path).map fun x =>
    match x.2 with
    | none => 0
    | some info => info kinfoLastWriteTime

end Hec
