import Verif.Spec.Grid
import Verif.Model.Tin
/-! Triangulated surfaces. -/
namespace Spec
open Hec Hec.Spec

/-- The strings of a surface. -/
def tinStrings (t : TinIn) : List (Option Bytes) := [t.system, t.srsName, t.srsUnits, t.units, t.type, t.zone]

/-- The labels come back: they have no zero byte, or one before their last four bytes, or they are stored in an even number of
ints. -/
def KeepsLabels (labels : Bytes) : Prop :=
  (∀ b ∈ labels, b ≠ 0) ∨ 0 ∈ labels.take (4 * ((labels.length - 1) / 4)) ∨ (labels.length + 3) / 4 % 2 = 0

/-- A surface of points with coordinates, values, types and numbers of connections; a table of connections; labels.  Numbers
are ints, strings have characters 1 to 127 and no blank at the end.  The arrays may be longer than what is used of them. -/
structure IsTin (t : TinIn) (x y value pointType connections table : List UInt32) (labels : Bytes) : Prop where
  points : t.points = x.length ∧ 3 * x.length < 2 ^ 31
  same : y.length = x.length ∧ value.length = x.length ∧ pointType.length = x.length ∧ connections.length = x.length
  arrays : (∃ r, t.x = x ++ r) ∧ (∃ r, t.y = y ++ r) ∧ (∃ r, t.value = value ++ r) ∧ (∃ r, t.pointType = pointType ++ r) ∧ ∃ r, t.connections = connections ++ r
  table : t.tableLength = table.length ∧ table.length < 2 ^ 31 ∧ ∃ r, t.connectTo = table ++ r
  names : t.labelLength = labels.length ∧ labels.length < 2 ^ 31 ∧ ∃ r, t.label = some (labels ++ r)
  kept : KeepsLabels labels
  srsType : IsInt t.srsType
  strings : ∀ s ∈ tinStrings t, ∀ u, s = some u → Ascii u ∧ NoBlankEnd u

/-- The number of header sections of odd length: perhaps the six strings, perhaps the labels. -/
def tinOdd (t : TinIn) (labels : Bytes) : Nat :=
  (((tinStrings t).map fun s => (s.getD []).length + 1).sum + 3) / 4 % 2 +
    if (labels.length + 3) / 4 % 2 = 1 ∧ 0 ∈ labels.take (4 * ((labels.length - 1) / 4)) then 1 else 0

/-- What is read is what was stored: an empty array is read as none, a string that is not given as an empty one. -/
structure TinBack (t : TinIn) (x y value pointType connections table : List UInt32) (labels : Bytes) (withData : Bool) (o : TinOut) : Prop where
  numbers : o.points = x.length ∧ o.tableLength = table.length ∧ o.labelLength = labels.length ∧ o.srsType = t.srsType
  floats : o.floats = [t.slenderness, t.minX, t.minY, t.maxX, t.maxY, t.minValue, t.meanValue, t.maxValue]
  strings : o.strings = (tinStrings t).map fun s => s.getD []
  arrays : [o.x, o.y, o.value, o.pointType, o.connections] = [x, y, value, pointType, connections].map fun a => if withData ∧ x ≠ [] then some a else none
  table : o.connectTo = if withData ∧ table ≠ [] then some table else none
  labels : o.label = if withData ∧ labels ≠ [] then some labels else none

end Spec
