import Verif.Proofs.Dates
/-! The text before the year, for every day, month and style (C45): the domain has 12 x 31 x 14
elements and is enumerated completely by the kernel. -/
namespace Hec

/-- Styles with day, name of the month and full year (yearMonthDayToDate.c, table of styles). -/
def wordStyles : List Int := [0, 1, 2, 4, 5, 7, 8, 100, 101, 102, 104, 105, 107, 108]
/-- Numeric styles with a year of four digits, month first. -/
def numberStyles : List Int := [-101, -102, -111, -112]

/-- The text before the year. -/
def wordPrefix (month day style : Int) : Bytes :=
  let b := cmod style 10
  if b > 1 then dayText day style ++ monthText month style
  else monthText month style ++ (dayText day style ++ str ", ")

theorem wordPrefix_ok : ∀ s ∈ wordStyles, ∀ m : Fin 12, ∀ d : Fin 31,
    PrefixOk (upperText (wordPrefix (m.val + 1) (d.val + 1) s)) (m.val + 1) (d.val + 1) = true := by
  decide +kernel

theorem wordPrefix_length : ∀ s ∈ wordStyles, ∀ m : Fin 12, ∀ d : Fin 31, s ≠ 5 → s ≠ 105 →
    5 ≤ (wordPrefix (m.val + 1) (d.val + 1) s).length := by
  decide +kernel

theorem wordPrefix_length4 : ∀ s ∈ wordStyles, ∀ m : Fin 12, ∀ d : Fin 31,
    4 ≤ (wordPrefix (m.val + 1) (d.val + 1) s).length := by
  decide +kernel

end Hec
