import Verif.Model.IrregSeries
import Verif.Spec.Irreg
/-!
Specification of an irregular time series: a map from instants (seconds since the start of day 0) to
values.  Storing a set puts its values at their instants.
-/
namespace Spec
open Hec

/-- One store: times in units of `gran` seconds from the start of day `base`. -/
structure IrregStore (α : Type) where
  gran : Int
  base : Int
  vals : List (Entry α)

/-- The instant of a value. -/
def IrregStore.at {α : Type} (s : IrregStore α) (e : Entry α) : Int := s.base * 86400 + e.time * s.gran

/-- The series after one more store. -/
def IrregStore.apply {α : Type} (s : IrregStore α) (x : Int → Option α) : Int → Option α := fun t =>
  match s.vals.find? (fun e => decide (s.at e = t)) with
  | some e => some e.val
  | none => x t

/-- The series after a history of stores, first store first. -/
def seriesOf {α : Type} (h : List (IrregStore α)) : Int → Option α :=
  h.foldl (fun x s => s.apply x) (fun _ => none)

end Spec
