import Verif.Spec.Store
import Verif.Model.Compare
/-! Specification for C102: comparing two records. -/
namespace Spec
open Hec Hec.Spec

/-- Two records with the same contents: the type, the three headers, the three arrays of values, and the numbers of values. -/
def SameContents (R R' : Rec) : Prop :=
  R.dataType = R'.dataType ∧ R.ih = R'.ih ∧ R.h2 = R'.h2 ∧ R.uh = R'.uh ∧ R.v1 = R'.v1 ∧ R.v2 = R'.v2 ∧ R.v3 = R'.v3 ∧
    R.numberValues = R'.numberValues ∧ R.logicalNumber = R'.logicalNumber

/-- The array of a struct holds these ints; without ints, the pointer is null. -/
def HoldsInts (a : Section) (l : List UInt32) : Prop :=
  a.number = l.length ∧ (l = [] ↔ a.ints = none) ∧ ∀ x, a.ints = some x → l <+: x

/-- A struct, made by an application, with the contents of the record. -/
structure HoldsRecord (t : Transfer) (R : Rec) : Prop where
  dataType : t.dataType = R.dataType
  ih : HoldsInts t.ih R.ih
  h2 : HoldsInts t.h2 R.h2
  uh : HoldsInts t.uh R.uh
  v1 : HoldsInts t.v1 R.v1
  v2 : HoldsInts t.v2 R.v2
  v3 : HoldsInts t.v3 R.v3
  numberValues : t.numberValues = R.numberValues
  logicalNumber : t.logicalNumber = R.logicalNumber

/-- No characters above 'z' in ASCII: { | } ~ and DEL. -/
def NoBraces (p : Bytes) : Prop := ∀ c ∈ p, c ≤ 122 ∨ 128 ≤ c

end Spec
