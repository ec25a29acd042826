import Verif.Spec.Calendar
/-!
Independent specification of the "end of period" dates of series whose interval is not a fixed
number of days.
-/
namespace Spec

inductive Period where
  | year | month | semiMonth | triMonth
deriving DecidableEq, Repr

/-- The interval in seconds by which each period is known to the library. -/
def Period.secs : Period → Int
  | .year => 31536000
  | .month => 2592000
  | .semiMonth => 1296000
  | .triMonth => 864000

/-- The day `d` of the month with index `k` (months counted from January of year 0). -/
def dayOfMonth (k d : Int) : Date := ⟨k / 12, k % 12 + 1, d⟩

/-- Last day of the month with index `k`. -/
def lastDay (k : Int) : Date := ⟨k / 12, k % 12 + 1, monthLen (k / 12) (k % 12 + 1)⟩

/-- The last day of the `i`-th period: 31 December; end of month; the 15th and end of month;
the 10th, 20th and end of month. -/
def Period.endDate : Period → Int → Date
  | .year, i => ⟨i, 12, 31⟩
  | .month, i => lastDay i
  | .semiMonth, i => if i % 2 = 0 then dayOfMonth (i / 2) 15 else lastDay (i / 2)
  | .triMonth, i =>
    if i % 3 = 0 then dayOfMonth (i / 3) 10
    else if i % 3 = 1 then dayOfMonth (i / 3) 20 else lastDay (i / 3)

end Spec
