/-!
Independent specification of the proleptic Gregorian calendar: leap rule, month lengths and the
successor of a date.  Nothing here refers to the model of the code.
-/
namespace Spec

/-- The Gregorian leap year rule (floor remainder, meaningful for every year). -/
def leap (y : Int) : Prop := y % 4 = 0 ∧ (y % 100 ≠ 0 ∨ y % 400 = 0)

instance (y : Int) : Decidable (leap y) := by unfold leap; infer_instance

/-- Number of days of a month. -/
def monthLen (y m : Int) : Int :=
  if m = 2 then (if leap y then 29 else 28)
  else if m = 4 ∨ m = 6 ∨ m = 9 ∨ m = 11 then 30 else 31

structure Date where
  year : Int
  month : Int
  day : Int
deriving DecidableEq, Repr

/-- A date that exists in the calendar. -/
def Date.Valid (d : Date) : Prop :=
  1 ≤ d.month ∧ d.month ≤ 12 ∧ 1 ≤ d.day ∧ d.day ≤ monthLen d.year d.month

/-- The following day. -/
def Date.next (d : Date) : Date :=
  if d.day < monthLen d.year d.month then ⟨d.year, d.month, d.day + 1⟩
  else if d.month < 12 then ⟨d.year, d.month + 1, 1⟩
  else ⟨d.year + 1, 1, 1⟩

/-- Calendar order. -/
def Date.before (a b : Date) : Prop :=
  a.year < b.year ∨ (a.year = b.year ∧ (a.month < b.month ∨ (a.month = b.month ∧ a.day < b.day)))

/-- The month `n` months after month `m` of year `y` (floor division; `m` counts from 1). -/
def addMonths (y m n : Int) : Int × Int := (y + (m - 1 + n) / 12, (m - 1 + n) % 12 + 1)

end Spec
