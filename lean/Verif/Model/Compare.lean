import Verif.Model.Engine
/-!
Comparing two records: heclib/heclib_c/src/SemiPublic/zcompareDataSets.c, for zStructTransfer (`zcompare_ztransferStruct`), and the struct as zread fills
it.  Messages are not modelled.  `none`: an array is read outside.  `true`: STATUS_OKAY.
-/
namespace Hec

/-- One of the six arrays of a zStructTransfer: the pointer (`none`: a null pointer; otherwise the ints that are there), its length, its mode. -/
structure Section where
  ints : Option (List UInt32)
  number : Int
  mode : Int

/-- zStructTransfer.h:17-70, the members that are compared.  A pathname is a pointer, which may be null; programName is an array, shown up to its end. -/
structure Transfer where
  pathname : Option Bytes
  pathnameLength : Int
  dataType : UInt32
  ih : Section
  h2 : Section
  uh : Section
  v1 : Section
  v2 : Section
  v3 : Section
  numberValues : Int
  logicalNumber : Int
  totalAllocated : Int
  totalExpanded : Int
  version : UInt32
  insufficient : Int
  lastWritten : Int
  programName : Bytes

/-- zcompareDataSets.c:347-357. -/
def compareInts : List UInt32 → List UInt32 → Nat → Option Bool
  | _, _, 0 => some true
  | a :: x, b :: y, n + 1 => if a = b then compareInts x y n else some false
  | _, _, _ + 1 => none

/-- zcompareDataSets.c:324-362. -/
def zcompareIntArrays (a b : Option (List UInt32)) (number : Int) : Option Bool :=
  match a, b with
  | none, none => some true
  | none, some _ => some false
  | some _, none => some false
  | some x, some y => compareInts x y number.toNat

/-- zcompareDataSets.c:240-241: a character with `boolIgnoreCase` (`char` is signed). -/
def compareUpper (c : UInt8) : UInt8 := if c > 96 ∧ c < 128 then c - 32 else c

/-- zcompareDataSets.c:186-264 with `totalLength` 0, as it is always called. -/
def zcompareStrings (a b : Option Bytes) (ignoreCase : Bool) : Bool :=
  match a, b with
  | none, none => true
  | none, some y => decide (y.length = 0)
  | some x, none => decide (x.length = 0)
  | some x, some y =>
    if x.length ≠ y.length then false
    else if ignoreCase then decide (x.map compareUpper = y.map compareUpper) else decide (x = y)

/-- `if (status) return status;` after a comparison. -/
def nextCompare (x y : Option Bool) : Option Bool := x.bind fun ok => if ok then y else some false

/-- zcompareDataSets.c:908-926, and 930-948 and so on: one of the arrays. -/
def compareSection (exact : Bool) (a b : Section) : Option Bool :=
  nextCompare (some (decide (a.number = b.number))) <|
    nextCompare (some (!exact || decide (a.mode = b.mode))) <|
      zcompareIntArrays a.ints b.ints b.number

/-- zcompareDataSets.c:866-1097; with two structs of this type this is zcompareDataSets. -/
def zcompareTransfers (exact : Bool) (a b : Transfer) : Option Bool :=
  nextCompare (some (!exact || zcompareStrings a.pathname b.pathname true)) <|
    nextCompare (some (!exact || decide (a.pathnameLength = b.pathnameLength))) <|
      nextCompare (some (decide (a.dataType = b.dataType))) <|
        nextCompare (compareSection exact a.ih b.ih) <|
          nextCompare (compareSection exact a.h2 b.h2) <|
            nextCompare (compareSection exact a.v3 b.v3) <|
              nextCompare (compareSection exact a.uh b.uh) <|
                nextCompare (compareSection exact a.v1 b.v1) <|
                  nextCompare (compareSection exact a.v2 b.v2) <|
                    nextCompare (some (decide (a.numberValues = b.numberValues))) <|
                      nextCompare (some (decide (a.logicalNumber = b.logicalNumber))) <|
                        nextCompare (some (!exact || decide (a.totalAllocated = b.totalAllocated))) <|
                          nextCompare (some (!exact || decide (a.totalExpanded = b.totalExpanded))) <|
                            nextCompare (some (!exact || decide (a.version = b.version))) <|
                              nextCompare (some (!exact || decide (a.insufficient = b.insufficient))) <|
                                nextCompare (some (!exact || decide (a.lastWritten = b.lastWritten)))
                                  (some (!exact || zcompareStrings (some a.programName) (some b.programName) false))

/-- zreadInternal.c:291-321 with mode 1, and 323-493 for the other arrays: space is allocated only for an array that has ints; there is room for more
(`room`: what is there). -/
def readSection (l room : List UInt32) : Section := ⟨if l = [] then none else some (l ++ room), l.length, 1⟩

/-- What zread leaves in the struct that is not in `Rec`. -/
structure TransferRest where
  room : List UInt32
  totalAllocated : Int
  totalExpanded : Int
  insufficient : Int
  programName : Bytes

/-- A zStructTransfer, made by zstructTransferNew(path, 1) and filled by zread with the record `R`. -/
def readTransfer (path : Bytes) (R : Rec) (x : TransferRest) : Transfer where
  pathname := some path
  pathnameLength := path.length
  dataType := R.dataType
  ih := readSection R.ih x.room
  h2 := readSection R.h2 x.room
  uh := readSection R.uh x.room
  v1 := readSection R.v1 x.room
  v2 := readSection R.v2 x.room
  v3 := readSection R.v3 x.room
  numberValues := R.numberValues
  logicalNumber := R.logicalNumber
  totalAllocated := x.totalAllocated
  totalExpanded := x.totalExpanded
  version := R.version
  insufficient := x.insufficient
  lastWritten := R.lastWrite
  programName := x.programName

end Hec
