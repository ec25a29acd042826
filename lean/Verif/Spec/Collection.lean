import Verif.Spec.Names
/-! Collections: pathnames that differ only in a sequence number in front of the F part,
`C:000123|rest`. -/
namespace Spec

/-- `n` in six digits. -/
def six (n : Nat) : List UInt8 := [100000, 10000, 1000, 100, 10, 1].map fun k => UInt8.ofNat (48 + n / k % 10)

/-- `f` is the F part of a member of a collection: `C:` (either case), the sequence, a bar, the rest. -/
def IsMember (f sequence rest : List UInt8) : Prop :=
  (f = 67 :: 58 :: (sequence ++ 124 :: rest) ∨ f = 99 :: 58 :: (sequence ++ 124 :: rest)) ∧ (124 : UInt8) ∉ sequence

/-- What stands behind the sequence number, or the whole F part when there is none. -/
def Behind (f rest : List UInt8) : Prop :=
  (∃ sequence, IsMember f sequence rest) ∨ (¬ (∃ sequence r, IsMember f sequence r) ∧ rest = f)

end Spec
