import Verif.Model.Rename
import Verif.Model.SortCat
/-!
The lengths of the longest pathname and of the longest parts, which are kept in the file header:
Internal/zupdatePathStats.c, where it is called (zwriteNew.c:327, zrename.c:379), SemiPublic/zmaxPart.c and
zcatalogInternal.c:249-255.  Not modelled: the longest chain of pathnames with one hash (zupdatePathStats.c:57-60) and
aliases (zaliasAdd.c:211).
-/
namespace Hec

/-- The words kmaxPath and kmaxA to kmaxF of the file header (`part 0` is kmaxA). -/
structure PathStats where
  maxPath : Int
  part : Nat → Int

/-- zpermCreate.c:201-207: a new file. -/
def noPathStats : PathStats := ⟨0, fun _ => 0⟩

/-- zupdatePathStats.c:41-55.  `klenLastPath` (line 49) is `pathnameLen` in both calls: both set it to the length of the
pathname before (zcheckInternal.c, called for the pathname of a new record and in zrename.c:288). -/
def zupdatePathStats (st : PathStats) (path : Bytes) : PathStats :=
  let lengths := (zpathnamePartLengths path 6).2
  { maxPath := if (path.length : Int) > st.maxPath then path.length else st.maxPath
    part := fun k => if lengths.getD k 0 > st.part k then lengths.getD k 0 else st.part k }

/-- zwriteInternal.c:323-… and zwriteNew.c:327: the header after a write to the file `s`; only a new record changes it. -/
def statsWrite (c : Cfg) (s : Eng) (r : Req) (st : PathStats) : Option PathStats :=
  (zreadInfo c s r.path REC_STATUS_VALID).map fun p =>
    match p.2 with
    | none => zupdatePathStats st r.path
    | some _ => st

/-- zrename.c:192-233, 379: the header after `renameFrom c s old new r`. -/
def statsFrom (c : Cfg) (s : Eng) (old new : Bytes) (r : RenEnv) (st : PathStats) : Option PathStats :=
  (zcheck c s old REC_STATUS_VALID).bind fun k =>
    if k.found = false then some st
    else
      let binType := lo32 (s.disk (k.pathBinAddress + 4))
      let path := if 100 ≤ binType ∧ binType < 200 then renamePath old new r.junk else some (mallocAndCopyPath new)
      path.map fun path => zupdatePathStats st path

/-- zrename.c:159-182: the header after `zrenameTo c s old new r`. -/
def statsTo (c : Cfg) (s : Eng) (old new : Bytes) (r : RenEnv) (st : PathStats) : Option PathStats :=
  (zcheck c s new REC_STATUS_VALID).bind fun k =>
    if k.found then
      (zdeleteInternal c s new false).bind fun q => if q.2 = .ok then statsFrom c q.1 old new r st else none
    else statsFrom c s old new r st

/-- zrename.c:121-157: the header after `zrename c s old new r`. -/
def statsRename (c : Cfg) (s : Eng) (old new : Bytes) (r : RenEnv) (st : PathStats) : Option PathStats :=
  if old.length = new.length ∧ zstringCompare old new old.length = true then
    (stringCopy (List.replicate 393 0) old old.length).bind fun d =>
      (zpathnameSetPart r.before d.1 r.fpart 6 r.junk).bind fun t =>
        if t.2 = true then
          (statsTo c s old (cstr t.1) r st).bind fun st1 => (zrenameTo c s old (cstr t.1) r).bind fun q =>
            if q.2 = .ok then statsTo c q.1 (cstr t.1) new r st1 else some st1
        else some st
  else statsTo c s old new r st

/-- `(int)` of a word of the header. -/
def statInt (x : Int) : Int := toInt32 (x % 2 ^ 64).toNat

/-- zmaxPart.c:30-47, and the answers of zinquire to "maxa" to "maxf" (zinquire.c:208-231, as `long long`). -/
def zmaxPart7 (st : PathStats) : List Int := (List.range 6).map fun k => statInt (st.part k)

/-- zcatalogInternal.c:249-255: the widths of the columns that a sorted catalog is sorted by: A, B, C, F, E, D. -/
def columnWidths (st : PathStats) (k : Nat) : Nat :=
  (statInt (st.part (if k = 3 then 5 else if k = 5 then 3 else k))).toNat

end Hec
