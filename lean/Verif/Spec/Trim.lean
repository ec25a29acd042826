/-!
Specification of trimming: remove from both ends the rows that are missing.
-/
namespace Spec

/-- Drop the leading and the trailing rows that are missing. -/
def trimEnds {R : Type} (missing : R → Bool) (rows : List R) : List R :=
  ((rows.dropWhile missing).reverse.dropWhile missing).reverse

/-- The note number `k` in a sequence of null terminated notes. -/
def noteAt : List Nat → Nat → List Nat
  | bytes, 0 => bytes.takeWhile (fun c => c ≠ 0)
  | bytes, k + 1 => noteAt ((bytes.dropWhile (fun c => c ≠ 0)).drop 1) k

end Spec
