import Verif.Spec.SeriesFile
import Verif.Model.TsApi
/-! Regular time series through the public interface. -/
namespace Spec
open Hec Hec.Spec

/-- Printable ASCII. -/
def Printable (s : Bytes) : Prop := ∀ c ∈ s, 32 ≤ c ∧ c ≤ 126

/-- The texts give the time `t` (day and second): a date, and a time of day from 0:00 to 24:00.  Midnight at the start of
the last day of 1899 has to be written with 24:00 of the day before (`0000` of that day is no time to the library). -/
structure TextOf (date time : Bytes) (t : Int × Int) : Prop where
  hasDate : date ≠ []
  hasTime : time ≠ []
  says : ∃ s, timeStringToSeconds time = some s ∧ 0 ≤ s ∧ s ≤ 86400 ∧ dateToJulian date * 86400 + s = t.1 * 86400 + t.2 ∧
    ¬ (dateToJulian date = 0 ∧ s = 0)

/-- A pathname for the series `ps` of interval `secs`: any D part (that does not ask for a pattern), and any spelling of
the E part. -/
structure PathFor (ps : List Bytes) (secs : Int) (path : Bytes) : Prop where
  made : ∃ y e : Bytes, path = join ((ps.set 3 y).set 4 e) ∧ IsPart y ∧ IsPart e ∧ Printable y ∧ Printable e ∧ y.length ≤ 128 ∧ 4 ≤ e.length ∧ e.length ≤ 128 ∧
    ePartToSeconds 7 e = some (0, secs, ps.getD 4 []) ∧ (4 < y.length → (y.take 4).map toupper ≠ [84, 83, 45, 80])

/-- The parts of the name of a series: no more than 128 characters each and 392 in a block's pathname, printable; the F part has no
malformed tags. -/
structure SeriesName (ps : List Bytes) : Prop where
  six : SixParts ps
  length : ∀ p ∈ ps, p.length ≤ 128
  printable : ∀ p ∈ ps, Printable p
  fits : blockLength ps ≤ 392
  tags : (normalizeFPart (ps.getD 5 [])).1 < 10

/-- The description that goes with a store through the public interface: a new struct has precision -1. -/
def apiDesc (secs : Int) (units type zone : Bytes) : TsDesc :=
  ⟨if secs < 60 then 1 else 60, -1, 0, ⟨false, some (mallocAndCopy units), none, none, some (mallocAndCopy type), some (mallocAndCopy zone)⟩⟩

/-- The arrays of the library have their sizes. -/
structure TsMemOk (m : TsMem) : Prop where
  ePart : m.ePart.length = 129
  dPart : m.dPart.length = 129
  cPart : m.cPart.length = 129
  parts : ∀ i, (m.parts i).length = 129
  path : m.path.length = 393

end Spec
