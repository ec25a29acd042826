import Verif.Model.Records
/-!
Locations: Public/zlocationStore.c, zlocationRetrieve.c, zlocationDelete.c, zlocationPath.c,
SemiPublic/zlocationStructValid.c.

Simplifications, besides those of Model/Engine.lean and Model/Records.lean: the bounds of all locations in the file
header (Internal/zlocationUpdatePerm.c), which no other function reads, are not kept; the struct has a pathname;
doubles are their bits; the machine is little endian.
-/
namespace Hec

/-- zStructLocation as given to zlocationStore. -/
structure LocIn where
  path : Bytes
  x : UInt64
  y : UInt64
  z : UInt64
  coordinateSystem : Int
  coordinateID : Int
  horizontalUnits : Int
  horizontalDatum : Int
  verticalUnits : Int
  verticalDatum : Int
  timeZone : Option Bytes
  supplemental : Option Bytes

/-- zlocationPath.c:7, "Location Info////". -/
def LOCATION_PATH : Bytes := [76, 111, 99, 97, 116, 105, 111, 110, 32, 73, 110, 102, 111, 47, 47, 47, 47]

/-- zlocationPath.c:38-51; `junk` as in zpathnamePartPositions.  `none`: access outside an array. -/
def zlocationPath (path : Bytes) (junk : Int) : Option Bytes :=
  let p2 := (zpathnamePartPositions path junk)[2]?.getD 0
  if p2 < 0 then none
  else
    (stringCopy (List.replicate (p2.toNat + LOCATION_PATH.length + 1) 0) path p2.toNat).map fun r =>
      -- stringCat.c:41-55
      let d := cstr r.1
      d ++ LOCATION_PATH.take (r.1.length - d.length - 1)

/-- `x != 0.0` for the bits of a double. -/
def nonZero (x : UInt64) : Bool := decide (x ≠ 0) && decide (x ≠ 9223372036854775808)

/-- zlocationStructValid.c:32-60. -/
def locationValid (l : LocIn) : Bool :=
  nonZero l.x || nonZero l.y || nonZero l.z || decide (l.horizontalDatum ≠ 0) || decide (l.verticalDatum ≠ 0) || l.supplemental.isSome ||
    (match l.timeZone with | some t => decide (0 < t.length) | none => false)

/-- zlocationStore.c:197-226: the array values1. -/
def locationValues (l : LocIn) : List UInt32 :=
  let v := doubleInts l.x ++ doubleInts l.y ++ doubleInts l.z ++
    [i32 l.coordinateSystem, i32 l.coordinateID, i32 l.horizontalUnits, i32 l.horizontalDatum, i32 l.verticalUnits, i32 l.verticalDatum]
  match l.timeZone with
  | none => v
  | some t => if 0 < t.length ∧ (t.length + 3) / 4 + v.length ≤ 30 then v ++ padInts t else v

/-- zlocationStore.c:228-236: the array values2. -/
def locationText (l : LocIn) : List UInt32 :=
  match l.supplemental with
  | none => []
  | some t => padInts (t ++ [0])

inductive LocRes where
  /-- nothing to store -/
  | nothing
  /-- there is one already -/
  | kept
  | written (r : Res)
deriving DecidableEq

/-- zlocationStore.c:114-261. -/
def zlocationStore (c : Cfg) (s : Eng) (e : WriteEnv) (junk : Int) (l : LocIn) (flag : Int) : Option (Eng × LocRes) :=
  if locationValid l then
    (zlocationPath (mallocAndCopyPath l.path) junk).bind fun path =>
      (if flag = 0 then (zcheck c s path REC_STATUS_VALID).map Chk.found else some false).bind fun there =>
        if there then some (s, .kept)
        else
          let v := locationValues l
          (zwritePublic c s (plainReq e path 20 [] [] [] v (locationText l) [] v.length)).map fun p => (p.1, .written p.2)
  else some (s, .nothing)

/-- What zlocationRetrieve sets; the strings as they are in memory. -/
structure LocOut where
  x : UInt64
  y : UInt64
  z : UInt64
  ints : List Int
  timeZone : Option Bytes
  supplemental : Option Bytes
deriving DecidableEq

/-- zlocationRetrieve.c:111-224 into a new struct.  `heap`: what malloc leaves in the eight bytes behind the characters. -/
def zlocationRetrieve (c : Cfg) (s : Eng) (junk : Int) (heap : Bytes) (path : Bytes) : Option (Got LocOut) :=
  (zlocationPath (mallocAndCopyPath path) junk).bind fun path =>
    (zread c s (mallocAndCopyPath path)).map fun r =>
      match r with
      | none => .notFound
      | some R =>
        if R.v1.length < 6 then .badHeader
        else
          let d := intsDoubles (R.v1.take 6)
          let ints := if R.v1.length ≥ 12 then ((R.v1.drop 6).take 6).map fun w => toInt32 w.toNat else List.replicate 6 0
          let zone := if R.v1.length > 12 then some (intsToBytes (R.v1.drop 12) ++ heap) else none
          let text := if R.v2.length > 0 then some (intsToBytes R.v2 ++ heap) else none
          .got ⟨d.getD 0 0, d.getD 1 0, d.getD 2 0, ints, zone, text⟩

/-- zlocationDelete.c:12-25; an array of 200 bytes. -/
def zlocationDelete (c : Cfg) (s : Eng) (junk : Int) (path : Bytes) (array : Bytes) : Option (Eng × Res) :=
  let p2 := (zpathnamePartPositions path junk)[2]?.getD 0
  if p2 < 0 then none
  else
    (stringCopy array path p2.toNat).bind fun r =>
      let d := cstr r.1
      zdeleteInternal c s (d ++ LOCATION_PATH.take (r.1.length - d.length - 1)) false

end Hec
