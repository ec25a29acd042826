import Verif.Model.Copy
import Verif.Model.TsRange
/-!
Copying one record under a pathname that is given: Public/zduplicateRecord.c (within a file) and
DssInterface/v6and7/zcopyRecord.c (to another file), with Internal/zcopyRecordInternal.c and the elevation tests of
Utilities/verticalDatum.c.

Simplifications, besides those of Model/Copy.lean: the copies that zcopyRecord.c:155-282 makes by retrieving and storing
the data set are not modelled, they are the argument `long` of the functions below; the new pathname has no
version 6 interval (Model/OldNames).
-/
namespace Hec

/-- The letters of `ELEV`. -/
def ELEV : Bytes := [69, 76, 69, 86]

/-- strncasecmp(s, "ELEV", 4) is 0. -/
def startsElev (s : Bytes) : Bool := decide ((s.take 4).map toupper = ELEV)

/-- The pieces strtok_r(s, "-", ...) finds one after the other; `cur` is the piece before. -/
def dashPieces : Bytes → (cur : Bytes) → List Bytes
  | [], cur => if cur = [] then [] else [cur]
  | b :: bs, cur =>
    if b = 45 then if cur = [] then dashPieces bs [] else cur :: dashPieces bs []
    else dashPieces bs (cur ++ [b])

/-- verticalDatum.c:1668-1670, with lines 1634-1642 (the C part starts with ELEV) and 1646-1663 (its first or second piece
does); `cPart` is the local array. -/
def pathnameIsElevTsOrPd (path cPart : Bytes) (junk : Int) : Option Bool :=
  (zpathnameGetPart path 3 cPart junk).map fun x => startsElev (cstr x.1) || ((dashPieces (cstr x.1) []).take 2).any startsElev

/-- verticalDatum.c:1646-1663. -/
def pathnameIsElevPd (path cPart : Bytes) (junk : Int) : Option Bool :=
  (zpathnameGetPart path 3 cPart junk).map fun x => ((dashPieces (cstr x.1) []).take 2).any startsElev

/-- The position `k` of a pathname, zpathnamePartPositions.c:53-81. -/
def positionOf (path : Bytes) (junk : Int) (k : Nat) : Int := ((zpathnamePartPositions path junk)[k]?).getD 0

/-- The `n` bytes of a string from position `i` on, as strncmp sees them; `none`: outside the string. -/
def strAt (s : Bytes) (i n : Int) : Option Bytes :=
  if 0 ≤ i ∧ i ≤ s.length then some ((s.drop i.toNat).take n.toNat) else none

/-- zcopyRecord.c:105-131: the D and E parts of both pathnames are found to be the same.  (Line 127 takes the start in the
new pathname for the old one, and the other way round.) -/
def sameDE (pathFrom pathTo : Bytes) (junk : Int) : Option Bool :=
  let to3 := positionOf pathTo junk 3
  let to4 := positionOf pathTo junk 4
  let to5 := positionOf pathTo junk 5
  let from3 := positionOf pathFrom junk 3
  let from5 := positionOf pathFrom junk 5
  (if to5 - to4 - 1 < 6 then (strAt pathTo (to5 - 4) 4).map fun x => decide (x = [77, 73, 78, 47]) else some false).bind fun isMin =>
    if isMin then some false
    else if to5 - to3 ≠ from5 - from3 then some false
    else
      (strAt pathFrom to3 (to5 - to3)).bind fun a =>
        (strAt pathTo from3 (to5 - to3)).map fun b => decide (a = b)

/-- zcopyRecord.c:93, 102-144, for two files of version 7: the record is copied as it is.  `dataType` is what zdataType
gives. -/
def copiesDirectly (dataType : Int) (pathFrom pathTo cPart : Bytes) (junk : Int) : Option Bool :=
  (pathnameIsElevTsOrPd pathFrom cPart junk).bind fun a =>
    (pathnameIsElevTsOrPd pathTo cPart junk).bind fun b =>
      if 100 ≤ dataType ∧ dataType < 200 then
        (sameDE pathFrom pathTo junk).map fun x => x && !(a && b)
      else if 200 ≤ dataType ∧ dataType < 300 then
        (pathnameIsElevPd pathFrom cPart junk).bind fun a => (pathnameIsElevPd pathTo cPart junk).map fun b => !(a && b)
      else some true

/-- zcopyRecordInternal.c:111-351 for one file, with boolDuplicate or not: the info block of the record that is read and the
one of the record that is written are in the same place of memory, and when lines 285-292 set the words of the one
from the other, both are the one zwrite has left there.  Only the expansions (lines 145, 286) were read before. -/
def zcopyRecordSame (c : Cfg) (e : CopyEnv) (s : Eng) (x : Nat) (pathTo : Bytes) : Option (Eng × Res) :=
  let info := fun i => s.disk (x + i)
  let path := unpackBytes (fun j => info (kinfoPathname + j)) (toInt32 (info kinfoPathnameLength)).toNat
  let R := readArrays s.disk info
  (copiedHeader R.dataType R.ih e.carray).bind fun ih =>
    let r := { copyReq e path info R ih (e.now x) with path := mallocAndCopyPath pathTo }
    (zwrite c s r).bind fun w =>
      if w.2 = .ok then
        (zreadInfo c w.1 r.path REC_STATUS_VALID).bind fun k =>
          k.2.map fun infoTo =>
            let ex := copiedExpansions e path info
            let s := w.1.put k.1.infoAdd (infoSize + nLongsB (infoTo kinfoPathnameLength))
              (copiedInfo infoTo (upd infoTo kinfoExpansion (info kinfoExpansion)) ex (e.oldProg x))
            -- lines 329-332, 345-350
            let s := { s with hdr := { s.hdr with numberExpansions := s.hdr.numberExpansions + (if 0 < toInt32 ex.toNat then ex.toNat else 0) } }
            (s.permWrite c, .ok)
      else some w

/-- zcopyRecord.c:86-153 and 283.  `same`: both files are the same.  `long` does lines 155-282. -/
def zcopyRecord (cf : Cfg) (f : Eng) (ct : Cfg) (t : Eng) (same : Bool) (e : CopyEnv) (pathFrom pathTo buf : Bytes) (junk : Int)
    (long : Option (Eng × Res)) : Option (Eng × Res) :=
  (hecDataType cf f pathFrom buf junk).bind fun dataType =>
    -- lines 96-100
    if dataType < 0 then some (t, .notFound)
    else
      (copiesDirectly dataType pathFrom pathTo buf junk).bind fun direct =>
        if direct then
          (zreadInfoName cf f pathFrom).bind fun p =>
            match p.2 with
            | none => some (t, .notFound)
            | some _ => if same then zcopyRecordSame ct e t p.1.1.infoAdd pathTo else zcopyRecordTo ct f.disk e t p.1.1.infoAdd pathTo
        else long

/-- zduplicateRecord.c:46-58. -/
def zduplicateRecord (c : Cfg) (s : Eng) (e : CopyEnv) (pathFrom pathTo buf : Bytes) (junk : Int) (long : Option (Eng × Res)) : Option (Eng × Res) :=
  (pathnameIsElevTsOrPd pathFrom buf junk).bind fun a =>
    (pathnameIsElevTsOrPd pathTo buf junk).bind fun b =>
      if a && b then zcopyRecord c s c s true e pathFrom pathTo buf junk long
      else
        (zreadInfoName c s pathFrom).bind fun p =>
          match p.2 with
          | none => some (s, .notFound)
          | some _ => zcopyRecordSame c e s p.1.1.infoAdd pathTo

end Hec
