import Verif.Spec.Pathnames
import Verif.Model.Headers
/-! Specification of the strings (units, type, time zone) in the headers of time series and paired data. -/
namespace Spec

/-- What is read back of a string: its text without blanks at the ends; nothing, if none was given or it is blank. -/
def shown (s : Option (List UInt8)) : Option (List UInt8) :=
  if trim (s.getD []) = [] then none else some (trim (s.getD []))

/-- The text without its trailing blanks. -/
def rtrim (s : List UInt8) : List UInt8 := (s.reverse.dropWhile (· = 32)).reverse

/-- The number of bytes a string takes in a header: its text without trailing blanks and a zero, in units of eight. -/
def cells (s : Option (List UInt8)) : Nat := 8 * ((rtrim (s.getD [])).length / 8 + 1)

/-- C strings contain no zero. -/
def NoZero (s : Option (List UInt8)) : Prop := ∀ c ∈ s.getD [], c ≠ 0

open Hec in
/-- What a string of the caller's struct is after reading `s`: it is only set if the library had not set it before and
`s` is not blank. -/
def setField (f : Field) (s : Option Bytes) : Field :=
  if f.allocated then f else match shown s with | some x => ⟨some x, true⟩ | none => f

open Hec in
/-- The strings of a time series that are stored: profiles have two units. -/
def strings (t : TsStrings) : List (Option Bytes) :=
  if t.profile then [t.unitsDepths, t.unitsValues, t.type, t.zone] else [t.units, t.type, t.zone]

end Spec
