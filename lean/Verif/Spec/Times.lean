/-!
Independent specification of points in time: a time is a day number and a number of time units
within the day; the instant is a count of units (or seconds) on one axis.
-/
namespace Spec

/-- Seconds on a single axis of day `j`, second `s` (`s = 86400` is the end of day `j`). -/
def instant (j s : Int) : Int := j * 86400 + s

/-- Seconds on the axis of a time given in units of `g` seconds. -/
def instantG (j t g : Int) : Int := j * 86400 + t * g

/-- The one representation of an instant used in files: end of day is 24:00 of the day, not 00:00
of the next. -/
def Normal (p : Int × Int) : Prop := 1 ≤ p.2 ∧ p.2 ≤ 86400

end Spec
