import Verif.Spec.Api
import Verif.Model.Grid
/-! Grids. -/
namespace Spec
open Hec Hec.Spec

/-- What zlib compresses it gives back. -/
def Inverse (z : Zlib) : Prop :=
  ∀ b p, z.compress b = some p → 0 < p.length ∧ p.length < 2 ^ 31 ∧ z.uncompress p b.length = some b

/-- The bytes of ints, lowest first. -/
def bytesOf (xs : List UInt32) : Bytes :=
  (xs.flatMap fun w => [w.toNat % 256, w.toNat / 256 % 256, w.toNat / 256 ^ 2 % 256, w.toNat / 256 ^ 3]).map UInt8.ofNat

/-- Cells filled up with zeros to a number of cells that is even and not zero. -/
def evened (cells : List UInt32) : List UInt32 :=
  if cells = [] then [0, 0] else if cells.length % 2 = 1 then cells ++ [0] else cells

/-- The caller gives the cells: as they are, to be stored without compression or with zlib; or compressed, in `pre`
bytes. -/
def GivesCells (z : Zlib) (g : GridIn) (pre : Nat) (cells : List UInt32) : Prop :=
  (pre = 0 ∧ g.compression = 1 ∧ 4 * cells.length < 2 ^ 31 ∧ ∃ rest, g.data = cells ++ rest) ∨
  (pre = 0 ∧ g.compression = 26 ∧ (∃ p, z.compress (bytesOf (evened cells)) = some p) ∧ ∃ rest, g.data = cells ++ rest) ∨
  (g.compression = 26 ∧ ∃ p, z.compress (bytesOf (evened cells)) = some p ∧ pre = p.length ∧ ∃ rest, bytesOf g.data = p ++ rest)

/-- The numbers of a grid besides its sizes. -/
def gridNumbers (g : GridIn) : List Int :=
  [g.type, g.dataType, g.lowerLeftX, g.lowerLeftY, g.srsType, g.zoneOffset, g.isInterval, g.isTimeStamped]

/-- A grid of `nx` times `ny` cells with a table of ranges: numbers are ints, the type is one of a grid, strings have
characters 1 to 127 and no blank at the end. -/
structure IsGrid (g : GridIn) (nx ny : Nat) (stats : List UInt32) (limits exceeding : List UInt32) : Prop where
  struct : g.structVersion = -100 ∧ g.storageType = 0
  type : 400 ≤ g.type ∧ g.type ≤ 431
  numbers : ∀ n ∈ gridNumbers g, IsInt n
  cells : g.cellsX = nx ∧ nx < 2 ^ 31 ∧ g.cellsY = ny ∧ ny < 2 ^ 31
  strings : ∀ s ∈ [g.units, g.source, g.srsName, g.srsDefinition, g.zone], ∀ t, s = some t → Ascii t ∧ NoBlankEnd t
  stats : [g.min, g.max, g.mean] = stats.map some
  ranges : g.ranges = limits.length ∧ exceeding.length = limits.length ∧ limits.length < 2 ^ 31
  tables : (∃ rest, g.limits = limits ++ rest) ∧ ∃ rest, g.exceeding = exceeding ++ rest

/-- The number of header sections of odd length: the user header of 11 ints, and perhaps the five strings. -/
def gridOdd (g : GridIn) : Nat :=
  1 + (([g.units, g.source, g.srsName, g.srsDefinition, g.zone].map fun s => (s.getD []).length + 1).sum + 3) / 4 % 2

/-- What is read is what was stored.  A string that is not given is read as an empty one. -/
structure GridBack (g : GridIn) (nx ny : Nat) (stats limits exceeding : List UInt32) (cells : Option (List UInt32)) (o : GridOut) : Prop where
  numbers : [o.type, o.dataType, o.lowerLeftX, o.lowerLeftY, o.srsType, o.zoneOffset, o.isInterval, o.isTimeStamped] = gridNumbers g
  sizes : o.cellsX = nx ∧ o.cellsY = ny
  strings : o.strings = [g.units, g.source, g.srsName, g.srsDefinition, g.zone].map fun s => s.getD []
  floats : [o.cellSize, o.x0, o.y0, o.nullValue] = [g.cellSize, g.x0, g.y0, g.nullValue]
  stats : [o.min, o.max, o.mean] = stats.map some
  ranges : o.ranges = limits.length ∧ o.limits = limits ∧ o.exceeding = exceeding
  data : o.data.map (·.take (nx * ny)) = cells

/-- The lengths given for strings are not longer than the memory, nor are those for tables and cells. -/
structure GridRoom (m : GridMem) (l : GridLengths) : Prop where
  strings : ∀ x ∈ [(m.units, l.units), (m.source, l.source), (m.srsName, l.srsName), (m.srsDefinition, l.srsDefinition), (m.zone, l.zone)],
    0 ≤ x.2 ∧ x.2 ≤ x.1.length
  ranges : 0 ≤ l.ranges ∧ l.ranges ≤ m.limits.length ∧ l.ranges ≤ m.exceeding.length
  data : 0 ≤ l.data ∧ l.data ≤ m.data.length

end Spec
