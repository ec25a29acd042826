import Verif.Model.Irreg
/-!
Specification of storing irregular data: sets of (time, payload) with strictly increasing times.
-/
namespace Spec
open Hec

/-- Times strictly increase. -/
def Increasing {α : Type} (l : List (Entry α)) : Prop := l.Pairwise (fun a b => a.time < b.time)

/-- Each value of a set with its own note: blank without notes, else one line per value. -/
def withNotes {α : Type} (l : List (Entry α)) : Lines → List (Entry α × String)
  | none => l.map (fun e => (e, ""))
  | some ls => l.zip ls

/-- A set has no notes or one line for each of its values. -/
def NotesFit {α : Type} (l : List (Entry α)) : Lines → Prop
  | none => True
  | some ls => ls.length = l.length

/-- No value of `l` has time `t`. -/
def NoTime {α : Type} (l : List (Entry α)) (t : Int) : Prop := ∀ e ∈ l, e.time ≠ t

end Spec
