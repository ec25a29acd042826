import Verif.Model.Locks
/-!
Vocabulary for the properties of concurrent writers.
-/
namespace Spec
open Hec

/-- Handle `i` could write to the file now: a write is accepted. -/
def CanWrite (pr : Nat → Nat) (s : LSys) (i : Nat) : Prop := ∃ u s', lstep pr s (.write i u) = some s'

/-- The event does not put a handle in read-only mode (1) or in no mode (0, after opening). -/
def WriterMode : LEv → Prop
  | .openF _ a => a ≠ 1
  | .setAccess _ a => 2 ≤ a
  | _ => True

/-- The event does not ask for locking or unlocking without reading or saving the file header. -/
def WithFlush : LEv → Prop
  | .lockOn _ _ fl => fl = true
  | .lockOff _ _ fl => fl = true
  | _ => True

instance : DecidablePred WriterMode := fun e => by cases e <;> simp only [WriterMode] <;> infer_instance
instance : DecidablePred WithFlush := fun e => by cases e <;> simp only [WithFlush] <;> infer_instance

end Spec
