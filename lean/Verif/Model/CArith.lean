/-!
C integer arithmetic used by the models.

C's `/` and `%` on `int` truncate toward zero: they are `Int.tdiv` and `Int.tmod`.
Values are unbounded `Int`; overflow is not modelled (see DESIGN.md).
-/
namespace Hec

/-- C `a / b` on signed integers (truncation toward zero). -/
def cdiv (a b : Int) : Int := Int.tdiv a b

/-- C `a % b` on signed integers (sign of the dividend). -/
def cmod (a b : Int) : Int := Int.tmod a b

theorem cdiv_eq (a b : Int) : cdiv a b = if 0 ≤ a then a / b else -((-a) / b) := by
  unfold cdiv
  split
  · rename_i h
    exact Int.tdiv_eq_ediv_of_nonneg h
  · rename_i h
    have h2 : 0 ≤ -a := by omega
    have := Int.tdiv_eq_ediv_of_nonneg (a := -a) (b := b) h2
    rw [Int.neg_tdiv] at this
    omega

theorem cmod_eq (a b : Int) : cmod a b = if 0 ≤ a then a % b else -((-a) % b) := by
  unfold cmod
  split
  · rename_i h
    exact Int.tmod_eq_emod_of_nonneg h
  · rename_i h
    have h2 : 0 ≤ -a := by omega
    have := Int.tmod_eq_emod_of_nonneg (a := -a) (b := b) h2
    rw [Int.neg_tmod] at this
    omega

theorem cdiv_nonneg_eq {a : Int} (h : 0 ≤ a) (b : Int) : cdiv a b = a / b := by
  rw [cdiv_eq, if_pos h]

theorem cmod_nonneg_eq {a : Int} (h : 0 ≤ a) (b : Int) : cmod a b = a % b := by
  rw [cmod_eq, if_pos h]

end Hec
