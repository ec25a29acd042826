import Verif.Spec.TsApi
import Verif.Model.ItsApi
/-! Irregular time series through the public interface. -/
namespace Spec
open Hec Hec.Spec

/-- A pathname for the irregular series `ps` in blocks `b`: any D part (that does not ask for a pattern), and any spelling
of the E part. -/
structure ItsPathFor (ps : List Bytes) (b : Block) (path : Bytes) : Prop where
  made : ∃ y e name : Bytes, path = join ((ps.set 3 y).set 4 e) ∧ IsPart y ∧ IsPart e ∧ Printable y ∧ Printable e ∧ y.length ≤ 128 ∧ 4 ≤ e.length ∧ e.length ≤ 128 ∧
    ePartToSeconds 7 e = some (1, -b.code, name) ∧ ps.getD 4 [] = (if e.head? = some 126 then 126 :: name else name) ∧ (4 < y.length → (y.take 4).map toupper ≠ [84, 83, 45, 80])

/-- The text gives the day from which times are counted: a text of up to four characters is the day 0. -/
def BaseText (date : Bytes) (base : Int) : Prop := (date.length ≤ 4 ∧ base = 0) ∨ (4 < date.length ∧ dateToJulian date = base)

/-- The description that goes with a store through the public interface: a new struct has precision -1. -/
def itsApiDesc (gran : Int) (units type zone : Bytes) : TsDesc :=
  ⟨gran, -1, 0, ⟨false, some (mallocAndCopy units), none, none, some (mallocAndCopy type), some (mallocAndCopy zone)⟩⟩

/-- The values as they are stored through the public interface: without quality flags. -/
def withoutFlags (vals : List (Entry (List UInt32))) : List (Entry ItsVal) := vals.map fun e => ⟨e.time, (e.val, [])⟩

end Spec
