import Verif.Spec.Layout
import Verif.Model.Records
/-! Storing and reading text, arrays, and other records that are not time series. -/
namespace Spec
open Hec Hec.Spec

/-- `x` are the first `n` elements of what `p` points to; nothing if `n` is not positive. -/
def Points {α : Type} (p : Option (List α)) (n : Int) (x : List α) : Prop :=
  (n ≤ 0 ∧ x = []) ∨ (0 < n ∧ n < 2 ^ 31 ∧ ∃ rest, p = some (x ++ rest) ∧ (x.length : Int) = n)

/-- An `int` of the language. -/
def IsInt (n : Int) : Prop := -2 ^ 31 ≤ n ∧ n < 2 ^ 31

/-- Conditions for writing under the pathname `p` a record with `odd` header sections of odd length: those of
`Allowed`. -/
def MayStore (c : Cfg) (past : List Op) (s : Eng) (p : Bytes) (odd : Nat) : Prop :=
  p.length ≤ 392 ∧ (∀ R, zread c s p = some (some R) → odd ≤ 1 ∨ odd ≤ oddHeaders R.ih R.h2 R.uh) ∧
    (zread c s p = some none → ∀ d ∈ past.flatMap Op.deletes, (d.length + 7) / 8 ≤ (p.length + 7) / 8)

/-- The calls are made under the conditions of `Allowed`, and none of them is about the pathname `p`. -/
def Later (c : Cfg) (past : List Op) (s : Eng) (p : Bytes) (ops : List Op) (s' : Eng) : Prop :=
  AllAllowed c past s ops ∧ (∃ ress, runs c s ops = some (s', ress)) ∧ ∀ op ∈ ops, ∀ q ∈ op.paths, ¬ sameUpToCase q p

/-- The characters of a user header, up to the first zero byte. -/
def headerString (uh : List UInt32) : Bytes :=
  (uh.flatMap fun w => [w.toNat % 256, w.toNat / 256 % 256, w.toNat / 256 ^ 2 % 256, w.toNat / 256 ^ 3]).map UInt8.ofNat |>.takeWhile (· != 0)

/-- The user header as it is stored: unchanged, except that a string of an odd number of ints gets four blanks more. -/
def HeaderKept (uh uh' : List UInt32) : Prop :=
  if uh.length % 2 = 1 ∧ 4 * (uh.length - 1) < (headerString uh).length
  then uh'.length = uh.length + 1 ∧ headerString uh' = headerString uh ++ [32, 32, 32, 32] else uh' = uh

/-- 1 if the stored user header has an odd number of ints. -/
def headerOdd (uh : List UInt32) : Nat :=
  if uh.length % 2 = 1 ∧ (headerString uh).length ≤ 4 * (uh.length - 1) then 1 else 0

end Spec
