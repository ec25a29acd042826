import Verif.Model.Strings
/-! When two pathnames name the same record. -/
namespace Hec

/-- Two byte strings are the same up to the case of ASCII letters: same length, and at every
position equal bytes, or the two cases of one letter. -/
def Spec.sameUpToCase (p q : Bytes) : Prop :=
  p.length = q.length ∧ ∀ (i : Nat) (a b : UInt8), p[i]? = some a → q[i]? = some b →
    a = b ∨ (97 ≤ a ∧ a ≤ 122 ∧ b + 32 = a) ∨ (97 ≤ b ∧ b ≤ 122 ∧ a + 32 = b)

end Hec
