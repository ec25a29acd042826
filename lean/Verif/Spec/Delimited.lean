import Verif.Spec.Pathnames
/-! Specification of texts made of entries: what was put under a name is found under it. -/
namespace Spec

/-- What a program does with such a text. -/
inductive TextCall where
  /-- put a value under a name; a value that is there is only replaced if `replace` -/
  | put (name value : List UInt8) (replace : Bool)
  /-- take the entry with a name away -/
  | remove (name : List UInt8)

/-- The value under a name after the calls (the first call is the first in the list). -/
def valueUnder (name : List UInt8) (calls : List TextCall) : Option (List UInt8) :=
  calls.foldl (fun now c =>
    match c with
    | .put n v replace => if n = name ∧ (replace ∨ now = none) then some v else now
    | .remove n => if n = name then none else now) none

/-- The characters a call may add to the text. -/
def TextCall.room (separator : List UInt8) : TextCall → Nat
  | .put n v _ => n.length + separator.length + v.length + 1
  | .remove _ => 0

/-- `t` is somewhere in `s`. -/
def InText (t s : List UInt8) : Prop := ∃ a b, s = a ++ t ++ b

/-- Values are not empty and have neither the delimiter nor a zero in them. -/
def GoodValues (delimiter : UInt8) (calls : List TextCall) : Prop :=
  ∀ n v r, TextCall.put n v r ∈ calls → v ≠ [] ∧ (∀ c ∈ v, c ≠ 0 ∧ c ≠ delimiter) ∧ (∀ c ∈ n, c ≠ 0 ∧ c ≠ delimiter)

/-- The name, with the separator, is in none of the entries with another name. -/
def Distinguished (separator name : List UInt8) (calls : List TextCall) : Prop :=
  ∀ n v r, TextCall.put n v r ∈ calls → n ≠ name → ¬ InText (name ++ separator) (n ++ separator ++ v)

def TextCall.name : TextCall → List UInt8
  | .put n _ _ => n
  | .remove n => n

end Spec
