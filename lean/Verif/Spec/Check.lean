import Verif.Model.Engine
import Verif.Spec.Store
/-! What the check of a file takes for granted about its records (C73). -/
namespace Spec
open Hec

/-- A record that has at least one int, numbers that are not negative, and, if it is a time series, a header of 18 ints or
more with a location header if the header says so. -/
structure Sound (R : Rec) : Prop where
  data : R.ih ++ R.h2 ++ R.uh ++ R.v1 ++ R.v2 ++ R.v3 ≠ []
  type : R.dataType < 2 ^ 31
  version : R.version < 2 ^ 31
  values : R.numberValues < 2 ^ 63
  logical : R.logicalNumber < 2 ^ 63
  series : 100 ≤ R.dataType → R.dataType < 200 → 18 ≤ R.ih.length ∧ (R.ih[9]? = some 1 → R.h2 ≠ [])

/-- Every record of the file is sound, and its name has at most 391 characters. -/
def AllSound (c : Cfg) (s : Eng) : Prop :=
  ∀ p R, p.length ≤ 392 → zread c s p = some (some R) → p.length ≤ 391 ∧ Sound R

/-- A call that is not an undelete. -/
def NoUndelete (past : List Op) : Prop := ∀ op ∈ past, ∀ p, op ≠ .undelete p

/-- A call that leaves neither a name of 392 characters nor a record that is not sound. -/
def SoundCall : Op → Prop
  | .write r => r.path.length ≤ 391 ∧ Sound (stored r 1)
  | .rename o n _ => (join n).length ≤ 391 ∧ (keepDates o n).length ≤ 391
  | _ => True

end Spec
