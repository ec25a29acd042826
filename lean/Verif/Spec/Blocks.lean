import Verif.Spec.Calendar
/-!
Independent specification of storage blocks: day, month, year, decade and century.
-/
namespace Spec

inductive Block where
  | day | month | year | decade | century
deriving DecidableEq, Repr

/-- Code of a block size in the API. -/
def Block.code : Block → Int
  | .day => 1 | .month => 2 | .year => 3 | .decade => 4 | .century => 5

/-- First day of the block that contains a date. -/
def Block.start : Block → Date → Date
  | .day, d => d
  | .month, d => ⟨d.year, d.month, 1⟩
  | .year, d => ⟨d.year, 1, 1⟩
  | .decade, d => ⟨d.year / 10 * 10, 1, 1⟩
  | .century, d => ⟨d.year / 100 * 100, 1, 1⟩

/-- First day of the following block. -/
def Block.next : Block → Date → Date
  | .day, d => d.next
  | .month, d => if d.month < 12 then ⟨d.year, d.month + 1, 1⟩ else ⟨d.year + 1, 1, 1⟩
  | .year, d => ⟨d.year + 1, 1, 1⟩
  | .decade, d => ⟨d.year / 10 * 10 + 10, 1, 1⟩
  | .century, d => ⟨d.year / 100 * 100 + 100, 1, 1⟩

end Spec
