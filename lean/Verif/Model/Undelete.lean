import Verif.Model.Catalog
/-! Undeleting everything: heclib/heclib_c/src/Public/zundeleteAll.c. -/
namespace Hec

/-- zundeleteAll.c:45-53: the catalog that is made: every entry with the status REC_STATUS_DELETED. -/
def deletedOnes : CatReq := ⟨REC_STATUS_DELETED, 0, 0, 0, 0, 0, fun _ => true⟩

/-- zundeleteAll.c:60-67: the loop over the pathnames of the catalog.  A record that is not found is no error. -/
def undeleteRows (c : Cfg) : Eng → List CatRow → Option Eng
  | s, [] => some s
  | s, row :: rows => (zdeleteInternal c s row.path true).bind fun q => undeleteRows c q.1 rows

/-- zundeleteAll.c:33-80: the file and the number returned.  `none`: an error. -/
def zundeleteAll (c : Cfg) (s : Eng) : Option (Eng × Nat) :=
  (zcatalog c s deletedOnes).bind fun rows => (undeleteRows c s rows).map fun s => (s, rows.length)

end Hec
