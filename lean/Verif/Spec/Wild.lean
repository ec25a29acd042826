import Verif.Spec.Names
/-! What a pathname part with wild characters stands for. -/
namespace Spec
open Hec.Spec (sameUpToCase)

/-- `Matches pattern part`, letter case ignored: a star stands for anything, a star at the end for
any continuation, a star at the beginning for any beginning, stars at both ends for anything around
the text; a star elsewhere is a character like others. -/
inductive Matches : List UInt8 → List UInt8 → Prop
  | all {p : List UInt8} : Matches [42] p
  | exact {q p : List UInt8} : q.head? ≠ some 42 → q.getLast? ≠ some 42 → sameUpToCase q p → Matches q p
  | startsWith {x a b : List UInt8} : x ≠ [] → x.head? ≠ some 42 → sameUpToCase x a → Matches (x ++ [42]) (a ++ b)
  | endsWith {x a b : List UInt8} : x ≠ [] → x.getLast? ≠ some 42 → sameUpToCase x b → Matches (42 :: x) (a ++ b)
  | contains {x a m b : List UInt8} : sameUpToCase x m → Matches (42 :: (x ++ [42])) (a ++ m ++ b)

end Spec
