/-!
Specification of storing in one block of a regular interval series, value by value.
-/
namespace Spec

/-- Two values that a reader cannot tell apart: equal, or both missing. -/
def SameValue {V : Type} (isMissing : V → Bool) (a b : V) : Prop :=
  a = b ∨ (isMissing a = true ∧ isMissing b = true)

/-- Does the storage flag let the new value replace the stored one?
Flags 0, 2, 3: always; 1: only if the stored value is missing; 4: only if the new one is not. -/
def replaces {V : Type} (isMissing : V → Bool) (flag : Int) (stored new : V) : Bool :=
  if flag = 1 then isMissing stored
  else if flag = 4 then !isMissing new
  else true

/-- The value at position `p` of the block after storing the values `new` from position `pos`, when
the block held `stored`. -/
def regStored {V : Type} (isMissing : V → Bool) (flag : Int) (pos : Nat) (new : List V)
    (stored : Nat → V) (p : Nat) : V :=
  match (if pos ≤ p then new[p - pos]? else none) with
  | none => stored p
  | some v => if replaces isMissing flag (stored p) v then v else stored p

end Spec
