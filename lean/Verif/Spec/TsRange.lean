import Verif.Spec.RegSeries
import Verif.Spec.OldNames
import Verif.Model.TsRange
import Verif.Model.Dates
/-! The blocks of a regular series, and the type of data of a pathname. -/
namespace Spec
open Hec Hec.Spec

/-- `d` is the day of the standard time number `a`. -/
def DayOf (julianOf : Date → Int) (r : RegInterval) (a : Int) (d : Date) : Prop := d.Valid ∧ 100 ≤ d.year ∧ julianOf d = (r.time julianOf a).1

/-- The two times are in the same block: their blocks start on the same day. -/
def SameBlock (julianOf : Date → Int) (r : RegInterval) (a b : Int) : Prop :=
  ∃ d e, DayOf julianOf r a d ∧ DayOf julianOf r b e ∧ julianOf (r.block.start d) = julianOf (r.block.start e)

/-- The pathname of the block of the series `ps` that starts on day `j`: the D part is that day, as in 01Jan2000. -/
def IsBlockName (ps : List Bytes) (j : Int) (p : Bytes) : Prop :=
  ∃ t, julianToDate (exactYearGuess j) j 4 20 = some t ∧ p = join (ps.set 3 t)

/-- The pathname is that of the record of the series that starts on day `j`, letter case ignored. -/
def NamesDay (ps : List Bytes) (j : Int) (p : Bytes) : Prop := ∃ q, IsBlockName ps j q ∧ sameUpToCase p q

end Spec
