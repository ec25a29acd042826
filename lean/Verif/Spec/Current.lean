import Verif.Spec.FullSet
import Verif.Spec.Blocks
import Verif.Model.Current
/-! Specification for C103: the time window of a pathname. -/
namespace Spec
open Hec Hec.Spec

/-- The blocks of a series: days below 15 minutes, months below a day, years below a week, decades below a year, then centuries; for irregular
series (a negative number) as the E part says. -/
def BlockFor (secs : Int) : Block :=
  if secs > 0 then
    if secs < 900 then .day else if secs < 86400 then .month else if secs < 604800 then .year else if secs < 31536000 then .decade else .century
  else if secs = -1 then .day else if secs = -2 then .month else if secs = -3 then .year else if secs = -4 then .decade else .century

/-- Six parts of 128 characters or fewer; the E part is the name of an interval of the library, letter case ignored. -/
structure IntervalPath (ps : List Bytes) (name : Bytes) (secs : Int) : Prop where
  six : SixParts ps
  short : ∀ x ∈ ps, x.length ≤ 128
  known : (name, secs) ∈ intervalTable 7
  epart : ∃ e, ps[4]? = some e ∧ sameUpToCase e name

/-- The pathname is that of a record for the day `d`: its D part is the date, as in 01Jan2000, letter case ignored. -/
def DPartIs (julianOf : Date → Int) (ps : List Bytes) (d : Date) : Prop := NamesDay ps (julianOf d) (join ps)

end Spec
