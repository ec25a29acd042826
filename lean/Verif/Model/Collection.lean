import Verif.Model.Wild
import Verif.Model.Dates
import Verif.Model.Rename
/-!
Members of collections: Public/zsetCollectionSequence.c.
-/
namespace Hec

/-- zsetCollectionSequence.c:65-75: `collectionBar`; `f` are the first `flen` characters of `fPart`. -/
def collectionBar (f : Bytes) : Nat :=
  if f[0]? = some 99 ∨ f[0]? = some 67 then
    if f[1]? = some 58 then (if f.contains 124 then f.idxOf 124 else 0) else 0
  else 0

/-- zsetCollectionSequence.c:78: `"C:%6.6d|"`; the sign comes in addition to the six digits. -/
def sequenceText (n : Int) : Bytes :=
  [67, 58] ++ (if n < 0 then 45 :: zeroPad 6 (decimal n.natAbs) else zeroPad 6 (decimal n.natAbs)) ++ [124]

/-- zsetCollectionSequence.c:42-102.  `some none`: the null pointer is returned; `none`: an access outside an
array.  `u` is the content of the local array `fPart` before, `before` what lies in memory before the new pathname.
The status of zpathnameSetPart is not looked at (line 98). -/
def zsetCollectionSequence (before : Int → Option UInt8) (u : UInt8) (junk : Int) (path : Bytes) (n : Int) : Option (Option Bytes) :=
  if path.length < 7 then some none
  else (zpathnameGetPart path 6 (List.replicate 129 u) junk).bind fun r =>
    if r.2 = -1 then some none
    else
      let f := cstr r.1
      let bar := collectionBar (r.1.take r.2.toNat)
      -- lines 81-87
      let coll := stringCat 129 (sequenceText n) (if bar ≠ 0 then f.drop (bar + 1) else f) (-1)
      -- lines 90-98
      (stringCopy (List.replicate (path.length + 10) 0) path path.length).bind fun b =>
        (zpathnameSetPart before b.1 coll 6 junk).map fun b => some (cstr b.1)

end Hec
