import Verif.Model.Catalog
import Verif.Model.Crc
/-!
The records that have changed since a start: heclib/heclib_c/src/Public/zwhatChangedSetStart.c, zwhatChangedCompare.c and zwhatChanged.c.
Not modelled: sorted catalogs and the copy of the dates.
-/
namespace Hec

/-- What zwhatChangedSetStart keeps in the zStructCatalog: lastWriteTimeFile, pathWithWildChars (as the comparison with it, see `CatReq`)
and, with boolUseCRC, the rows of the catalog with their check sums; `none`: crcValues is a null pointer. -/
structure ChangeStart where
  time : Nat
  wild : Bytes → Bool
  crcs : Option (List (CatRow × UInt32))

/-- zcatalogInternal.c:490-492: the check sum of every row. -/
def rowCRCs (c : Cfg) (s : Eng) : List CatRow → Option (List (CatRow × UInt32))
  | [] => some []
  | r :: rows => (zgetDataCRC c s r.path 0).bind fun v => (rowCRCs c s rows).map ((r, v) :: ·)

/-- zwhatChangedSetStart.c:84-103.  `fileTime` is the time of the last write in the file header (not kept in `Hdr`).  zcatalogInternal.c:482:
no check sums are allocated if there is no row. -/
def zwhatChangedSetStart (c : Cfg) (s : Eng) (fileTime : Nat) (wild : Bytes → Bool) (useCRC : Bool) : Option ChangeStart :=
  if useCRC then
    (zcatalog c s ⟨REC_STATUS_VALID, 0, 0, 0, 0, 0, wild⟩).bind fun rows =>
      (rowCRCs c s rows).map fun l => ⟨fileTime, wild, if rows = [] then none else some l⟩
  else some ⟨fileTime, wild, none⟩

/-- zwhatChangedCompare.c:122-132: the list `index`, as the rows it points at.  (pathnameHash, read from the bin, is the hash of the pathname.) -/
def changedRows (c : Cfg) (before now : List (CatRow × UInt32)) : List CatRow :=
  now.flatMap fun x => (before.filter fun y => c.pHash x.1.path = c.pHash y.1.path ∧ x.2 ≠ y.2).map fun _ => x.1

/-- zwhatChangedCompare.c:73-210 (and zwhatChanged.c:49 with the start kept by the library).  Line 114: `index` has room for the rows found;
`none` also if more are put into it (line 128). -/
def zwhatChanged (c : Cfg) (s : Eng) (st : ChangeStart) : Option (List CatRow) :=
  (zcatalog c s ⟨REC_STATUS_VALID, 0, 0, st.time, 2, 0, st.wild⟩).bind fun rows =>
    match st.crcs with
    -- lines 73-83
    | none => some rows
    | some before =>
      (rowCRCs c s rows).bind fun now =>
        let changed := changedRows c before now
        if changed.length ≤ rows.length then some changed else none

end Hec
