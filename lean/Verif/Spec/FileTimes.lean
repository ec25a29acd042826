import Verif.Spec.Histories
import Verif.Model.FileTimes
/-! Specification for C101: the time of the last write in the file header. -/
namespace Spec
open Hec Hec.Spec

/-- A call, with what the clock shows each time it is read during the call (writes carry their time, `now`, themselves). -/
abbrev Timed := Op × (Nat → Nat)

/-- The times that the clock shows during a call. -/
def readings : Timed → List Nat
  | (.write r, _) => [r.now]
  | (.delete _, now) => [now 0]
  | (.undelete _, now) => [now 0]
  | (.rename _ _ _, now) => [now 0, now 1]

/-- The clock is never set back: not before the file was made, at `t0`, and not afterwards. -/
def Rising (t0 : Nat) (calls : List Timed) : Prop := (t0 :: calls.flatMap readings).Pairwise (· ≤ ·)

/-- The times after one call, made on the file `s`. -/
def timesAfter (c : Cfg) (s : Eng) (t : FileTimes) : Timed → Option FileTimes
  | (.write r, _) => timesWrite c s r t
  | (.delete p, now) => timesDelete c s p false (now 0) t
  | (.undelete p, now) => timesDelete c s p true (now 0) t
  | (.rename o n v, now) => timesRename c s (join o) (join n) v now t

/-- The times after a sequence of calls, the first of them made on the file `s`. -/
def timesRuns (c : Cfg) : Eng → FileTimes → List Timed → Option FileTimes
  | _, t, [] => some t
  | s, t, x :: calls => (timesAfter c s t x).bind fun t' => (run c s x.1).bind fun p => timesRuns c p.1 t' calls

end Spec
