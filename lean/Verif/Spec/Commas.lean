import Verif.Model.Commas
/-! Specification for C104: a number with commas. -/
namespace Spec
open Hec

/-- The text is the digits with a comma before every third digit from the right, but not in front. -/
structure WithCommas (digits text : Bytes) : Prop where
  digits : text.filter (· ≠ 44) = digits
  /-- Counted from the right, from 0: the commas are at 3, 7, 11 and so on. -/
  places : ∀ k, k < text.length → (text.reverse[k]? = some 44 ↔ k % 4 = 3)
  front : text.head? ≠ some 44

/-- The sign. -/
def signed (n : Int) (text : Bytes) : Bytes := if n < 0 then 45 :: text else text

end Spec
