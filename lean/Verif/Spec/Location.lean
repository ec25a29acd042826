import Verif.Spec.Records
import Verif.Model.Location
/-! Locations. -/
namespace Spec
open Hec Hec.Spec

/-- Where the location of all records with the parts A and B is kept: "/A/B/Location Info////". -/
def locationName (a b : Bytes) : Bytes := join [a, b, [76, 111, 99, 97, 116, 105, 111, 110, 32, 73, 110, 102, 111], [], [], []]

/-- There is something to keep: a coordinate or a datum that is not zero (the second number is minus zero), a time zone
or other text. -/
def HasContent (l : LocIn) : Prop :=
  (∃ v ∈ [l.x, l.y, l.z], v ≠ 0 ∧ v ≠ 0x8000000000000000) ∨ l.horizontalDatum ≠ 0 ∨ l.verticalDatum ≠ 0 ∨ l.supplemental ≠ none ∨
    (l.timeZone ≠ none ∧ l.timeZone ≠ some [])

/-- The arguments are ints and strings; a time zone has at most 72 bytes, and their number is not divisible by four. -/
structure IsLocation (l : LocIn) : Prop where
  ints : ∀ n ∈ [l.coordinateSystem, l.coordinateID, l.horizontalUnits, l.horizontalDatum, l.verticalUnits, l.verticalDatum], IsInt n
  zone : ∀ t, l.timeZone = some t → (∀ b ∈ t, b ≠ 0) ∧ (t = [] ∨ (t.length ≤ 72 ∧ t.length % 4 ≠ 0))
  text : ∀ t, l.supplemental = some t → ∀ b ∈ t, b ≠ 0

/-- Memory with the string `t` in it, or no memory. -/
def HoldsString (t m : Option Bytes) : Prop :=
  match t with
  | none => m = none
  | some t => ∃ rest, m = some (t ++ 0 :: rest)

/-- What is read is what was stored.  An empty time zone is none. -/
structure ReadsBack (l : LocIn) (o : LocOut) : Prop where
  x : o.x = l.x
  y : o.y = l.y
  z : o.z = l.z
  ints : o.ints = [l.coordinateSystem, l.coordinateID, l.horizontalUnits, l.horizontalDatum, l.verticalUnits, l.verticalDatum]
  zone : HoldsString (if l.timeZone = some [] then none else l.timeZone) o.timeZone
  text : HoldsString l.supplemental o.supplemental

end Spec
