import Verif.Model.TsApi
import Verif.Model.OldNames
/-!
Units and type of a time series record: hec_dss_tsRetrieveInfo (heclib/hecdss/hecdss.c).

Simplifications: those of Model/Headers.lean and Model/OldNames.lean.  The call of ztsProcessTimes is left out: it sets only times and the
time window of the struct, which are not used.  Memory is never exhausted.
-/
namespace Hec

/-- What the call returns. -/
inductive TsInfo where
  | ok
  /-- STATUS_RECORD_NOT_FOUND -/
  | notFound
  /-- STATUS_NOT_OKAY: the record has no header -/
  | failed
deriving DecidableEq

/-- hecdss.c:283-306 with ztsInternalHeaderUnpack.c:80; zreadInternal.c:291-316 gives all ints of the header.  `carray`: the local array of
ztsInternalHeaderUnpack.  The struct is new (zstructTsNew.c): no strings, nothing allocated.  `none`: as in Model/Engine, or memory that is
not the caller's or the header's (a header of two ints). -/
def hecTsRetrieveInfo (c : Cfg) (carray path units : Bytes) (unitsSize : Int) (type : Bytes) (typeSize : Int) (s : Eng) : Option (TsInfo × Bytes × Bytes) :=
  (zreadName c s (mallocAndCopyPath path)).bind fun R =>
    match R with
    | none => some (.notFound, units, type)
    | some R =>
      if R.ih.length < 2 then some (.failed, units, type)
      else if R.ih.length = 2 then none
      else
        (ztsInternalHeaderUnpack ⟨0, -1, 0, ⟨none, false⟩, ⟨none, false⟩, ⟨none, false⟩, ⟨none, false⟩, ⟨none, false⟩⟩ (intsToBytes R.ih) R.ih.length carray).bind fun h =>
        (putString units unitsSize h.units.val).bind fun u =>
        (putString type typeSize h.type.val).map fun t => (.ok, u, t)

end Hec
