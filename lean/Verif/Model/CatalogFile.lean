import Verif.Model.Open
/-!
The file in which a catalog is written: heclib/heclib_c/src/Public/zcatalogFile.c, Utilities/copyAndTrim.c, on Linux, of a version 7 file.
-/
namespace Hec

/-- zcatalogFile.c:112-114. -/
def catalogEnding (b : Bytes) : Bytes :=
  if 5 < b.length ∧ b.drop (b.length - 4) = DOT_DSS then b.take (b.length - 1) ++ [99] else b

/-- zcatalogFile.c:95-114: the name of the catalog file, for the full name of the DSS file (zopenInternal.c:403-405) and the caller's name if there is
one.  `none`: line 98 reads behind the array, which a name of 256 bytes or more fills without a zero (charLong.c:85-89).  A caller's name of 256 bytes or
more is cut (copyAndTrim.c:19-24); its length is then 256, and the four bytes compared at line 113 end in a zero. -/
def catalogFileName (full : Bytes) (given : Option Bytes) : Option Bytes :=
  match given with
  | none => if 256 ≤ full.length then none else some (catalogEnding full)
  | some g => if 256 ≤ trimLength g then some (g.take 255) else some (catalogEnding (g.take (trimLength g)))

/-- The file that a name leads to: where links point, or the name itself (zfileName.c:157-165). -/
def Place.leads (p : Place) (name : Bytes) : Bytes := (p.real name).getD name

/-- zcatalogFile.c:119, O_RDWR | O_CREAT | O_TRUNC, when `open` succeeds: the files when the catalog is about to be written. -/
def startCatalog (p : Place) (full : Bytes) (given : Option Bytes) : Option Files :=
  (catalogFileName full given).map fun name => fun x => if x = p.leads name then some [] else p.files x

end Hec
