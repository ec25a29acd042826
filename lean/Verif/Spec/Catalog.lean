/-! What may be asked of the catalog about the time of the last write. -/
namespace Spec

/-- The five comparisons with a time that can be asked for: before, not after, at, not before, after. -/
inductive WrittenIn : Int → Nat → Nat → Prop
  | before {t x : Nat} : x < t → WrittenIn (-2) t x
  | notAfter {t x : Nat} : x ≤ t → WrittenIn (-1) t x
  | at_ {t x : Nat} : x = t → WrittenIn 0 t x
  | notBefore {t x : Nat} : t ≤ x → WrittenIn 1 t x
  | after {t x : Nat} : t < x → WrittenIn 2 t x

end Spec
