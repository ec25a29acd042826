import Verif.Spec.TsApi
import Verif.Spec.Records
import Verif.Model.TsPattern
/-! Time patterns through the public interface. -/
namespace Spec
open Hec Hec.Spec

/-- The parts of the name of a pattern: the D part is TS-Pattern in any letter case; no more than 128 characters each and 392 in all,
printable. -/
structure PatternName (ps : List Bytes) : Prop where
  six : SixParts ps
  length : ∀ p ∈ ps, p.length ≤ 128
  printable : ∀ p ∈ ps, Printable p
  fits : (join ps).length ≤ 392
  dPart : (ps.getD 3 []).map toupper = [84, 83, 45, 80, 65, 84, 84, 69, 82, 78]

/-- A pathname for the pattern `ps`: any spelling of the E part, which is that of the interval `secs` (`kind` 0) or of blocks (`kind` 1). -/
def PatternFor (ps : List Bytes) (kind secs : Int) (path : Bytes) : Prop :=
  ∃ e name : Bytes, path = join (ps.set 4 e) ∧ IsPart e ∧ Printable e ∧ 4 ≤ e.length ∧ e.length ≤ 128 ∧ ePartToSeconds 7 e = some (kind, secs, name) ∧
    ps.getD 4 [] = if e.head? = some 126 then 126 :: name else name

/-- The texts of a date and a time of day can be read (whatever they say), or are missing. -/
def AnyTime (date time : Bytes) : Prop := time = [] ∨ ∃ s, timeStringToSeconds time = some s

/-- Room for the results: the lengths given are not longer than the memory. -/
structure TsRoom (b : TsBuffers) (size units type zone : Int) : Prop where
  size : 0 ≤ size ∧ size ≤ b.times.length ∧ size ≤ b.values.length
  units : 0 ≤ units ∧ units ≤ b.units.length
  type : 0 ≤ type ∧ type ≤ b.type.length
  zone : 0 ≤ zone ∧ zone ≤ b.zone.length

end Spec
