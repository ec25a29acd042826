import Verif.Spec.Periods
import Verif.Spec.Blocks
import Verif.Spec.Times
import Verif.Spec.Reg
/-!
Specification of regular interval series: their standard times, numbered from a fixed origin, and
what a sequence of stores makes of the series.
-/
namespace Spec

/-- The regular intervals considered: a fixed number of seconds that measures a day exactly, or a
calendar period (weeks are excluded). -/
inductive RegInterval where
  | fixed (seconds : Int)
  | period (p : Period)

/-- Interval in seconds by which it is known to the library. -/
def RegInterval.secs : RegInterval → Int
  | .fixed i => i
  | .period p => p.secs

def RegInterval.Ok : RegInterval → Prop
  | .fixed i => 1 ≤ i ∧ i ∣ 86400
  | .period _ => True

/-- Day and second of day (1 to 86400) of the standard time number `k`: `k` intervals after the
origin of the axis, or the end of the last day of period `k`. -/
def RegInterval.time (julianOf : Date → Int) : RegInterval → Int → Int × Int
  | .fixed i, k => ((k * i - 1) / 86400, (k * i - 1) % 86400 + 1)
  | .period p, k => (julianOf (p.endDate k), 86400)

/-- The kind of block in which the library keeps the series. -/
def RegInterval.block : RegInterval → Block
  | .fixed i => if i < 900 then .day else if i < 86400 then .month else .year
  | .period .year => .century
  | .period _ => .decade

/-- One store: the values of the standard times `start`, `start + 1`, ... (their quality if
`qualitySize` is not 0) and the storage flag. -/
structure RegStore (V : Type) where
  start : Int
  qualitySize : Nat
  values : List V
  quality : List V
  flag : Int

/-- The series (value at each standard time) after a store. -/
def RegStore.put {V : Type} (isMissing : V → Bool) (x : RegStore V) (s : Int → V) (k : Int) : V :=
  match (if x.start ≤ k then x.values[(k - x.start).toNat]? else none) with
  | none => s k
  | some v => if replaces isMissing x.flag (s k) v then v else s k

/-- The series after a sequence of stores (first store first). -/
def regSeries {V : Type} (isMissing : V → Bool) (missing : V) : List (RegStore V) → Int → V :=
  List.foldl (fun s x => x.put isMissing s) (fun _ => missing)

end Spec
