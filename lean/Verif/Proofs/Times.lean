import Verif.Model.Times
import Verif.Spec.Times
import Verif.Proofs.Calendar
/-! Helper lemmas about the time arithmetic model. -/
namespace Hec

/-- Neither of the two encodings of "no time" (julian UNDEFINED, or day 0 time 0). -/
def IsTime (j t : Int) : Prop := j ≠ UNDEFINED_TIME ∧ ¬ (j = 0 ∧ t = 0)

theorem cleanTime_spec {j t g : Int} (h : IsTime j t) (hL : 1 ≤ dayLengthOf g) :
    let r := cleanTime j t g
    1 ≤ r.2 ∧ r.2 ≤ dayLengthOf g ∧ r.1 * dayLengthOf g + r.2 = j * dayLengthOf g + t := by
  have h60 : dayLengthOf 60 = 1440 := by decide
  have h1 : dayLengthOf 1 = 86400 := by decide
  intro r
  have hr : r = cleanTime j t g := rfl
  unfold cleanTime at hr
  rw [if_neg h.1, if_neg h.2] at hr
  by_cases c1 : g = 60 ∧ t > 0 ∧ t ≤ MINS_IN_1_DAY
  · rw [if_pos c1] at hr
    rw [hr, c1.1, h60]
    have := c1.2.2
    unfold MINS_IN_1_DAY at this
    exact ⟨by have := c1.2.1; omega, this, rfl⟩
  rw [if_neg c1] at hr
  by_cases c2 : g = 1 ∧ t > 0 ∧ t ≤ SECS_IN_1_DAY
  · rw [if_pos c2] at hr
    rw [hr, c2.1, h1]
    have := c2.2.2
    unfold SECS_IN_1_DAY at this
    exact ⟨by have := c2.2.1; omega, this, rfl⟩
  rw [if_neg c2] at hr
  generalize dayLengthOf g = D at *
  simp only at hr
  by_cases c3 : t > 0 ∧ t ≤ D
  · rw [if_pos c3] at hr
    rw [hr]
    exact ⟨by have := c3.1; omega, c3.2, rfl⟩
  rw [if_neg c3] at hr
  by_cases ht : 0 ≤ t
  · rw [cdiv_nonneg_eq ht] at hr
    have e1 := Int.mul_ediv_add_emod t D
    have e2 := Int.emod_nonneg t (b := D) (by omega)
    have e3 := Int.emod_lt_of_pos t (b := D) (by omega)
    generalize hq : t / D = q at *
    generalize t % D = m at *
    have hcomm : q * D = D * q := Int.mul_comm _ _
    have hexp : ∀ x : Int, (j + q) * D = j * D + D * q := fun _ => by rw [Int.add_mul, hcomm]
    by_cases hq0 : q > 0
    · simp only [hq0, if_true] at hr
      by_cases hz : t - q * D = 0
      · rw [if_pos hz] at hr
        rw [hr]; simp only
        refine ⟨hL, Int.le_refl _, ?_⟩
        rw [Int.sub_mul, hexp 0]; omega
      · rw [if_neg hz] at hr
        rw [hr]; simp only
        refine ⟨by omega, by omega, ?_⟩
        rw [hexp 0]; omega
    · -- then t = 0
      have hq1 : q ≤ 0 := by omega
      have hq2 : q = 0 := by
        have : 0 ≤ t / D := Int.ediv_nonneg ht (by omega)
        omega
      have ht0 : t = 0 := by
        rw [hq2] at e1; omega
      simp only [hq2, ht0] at hr
      simp at hr
      rw [if_neg (by omega)] at hr
      rw [hr]; simp only
      refine ⟨hL, Int.le_refl _, ?_⟩
      rw [Int.sub_mul]; omega
  · rw [cdiv_eq, if_neg ht] at hr
    have e1 := Int.mul_ediv_add_emod (-t) D
    have e2 := Int.emod_nonneg (-t) (b := D) (by omega)
    have e3 := Int.emod_lt_of_pos (-t) (b := D) (by omega)
    have e4 : 0 ≤ (-t) / D := Int.ediv_nonneg (by omega) (by omega)
    generalize (-t) / D = q at *
    generalize (-t) % D = m at *
    have hcomm : q * D = D * q := Int.mul_comm _ _
    have hneg : -q * D = -(D * q) := by rw [Int.neg_mul, hcomm]
    have hng : ¬ (-q > 0) := by omega
    simp only [hng, if_false, hneg] at hr
    have hnz : ¬ (t - -(D * q) + D = 0) := by omega
    rw [if_neg hnz] at hr
    rw [hr]; simp only
    refine ⟨by omega, by omega, ?_⟩
    have : (j + -q - 1) * D = j * D - D * q - D := by
      rw [Int.sub_mul, Int.add_mul, hneg]; omega
    omega

theorem dayLengthOf_pos {g : Int} (h : g ≤ 86400) : 1 ≤ dayLengthOf g := by
  unfold dayLengthOf
  simp only
  by_cases h1 : g < 1
  · rw [if_pos h1]; decide
  · rw [if_neg h1]
    by_cases h2 : g = 60
    · rw [if_pos h2]; decide
    · rw [if_neg h2]
      by_cases h3 : g = 1
      · rw [if_pos h3]; decide
      · rw [if_neg h3]
        unfold SECS_IN_1_DAY
        rw [cdiv_nonneg_eq (by omega)]
        exact (Int.le_ediv_iff_mul_le (by omega)).2 (by omega)

/-- A granularity that measures a day exactly. -/
theorem dayLengthOf_mul {g : Int} (h1 : 1 ≤ g) (hd : g ∣ 86400) : dayLengthOf g * g = 86400 := by
  unfold dayLengthOf
  have hg : (if g < 1 then (60:Int) else g) = g := if_neg (by omega)
  simp only [hg]
  by_cases h2 : g = 60
  · rw [if_pos h2, h2]; decide
  · rw [if_neg h2]
    by_cases h3 : g = 1
    · rw [if_pos h3, h3]; decide
    · rw [if_neg h3]
      unfold SECS_IN_1_DAY
      rw [cdiv_nonneg_eq (by omega)]
      exact Int.ediv_mul_cancel hd

theorem cleanTime_secs {j t : Int} (h : IsTime j t) :
    let r := cleanTime j t 1
    1 ≤ r.2 ∧ r.2 ≤ 86400 ∧ r.1 * 86400 + r.2 = j * 86400 + t := by
  have := cleanTime_spec (g := 1) h (by decide)
  have h1 : dayLengthOf 1 = 86400 := by decide
  rw [h1] at this
  exact this

/-- A normal time is left alone. -/
theorem cleanTime_normal {j t : Int} (h1 : 1 ≤ t) (h2 : t ≤ 86400) :
    cleanTime j t 1 = (j, t) := by
  unfold cleanTime
  by_cases hj : j = UNDEFINED_TIME
  · rw [if_pos hj]
  · rw [if_neg hj, if_neg (by omega), if_neg (by omega), if_pos]
    unfold SECS_IN_1_DAY
    omega

theorem incrementSimple_spec {i n j s : Int} (h : IsTime j s) (hz : ¬ (j = 0 ∧ s + i * n = 0)) :
    let r := incrementSimple i n j s
    1 ≤ r.2 ∧ r.2 ≤ 86400 ∧ r.1 * 86400 + r.2 = j * 86400 + s + i * n := by
  unfold incrementSimple SECS_IN_1_DAY
  simp only
  generalize hx : i * n = x at *
  by_cases hbig : x + s < -86400 ∨ x + s > 86400
  · rw [if_pos hbig]
    simp only [cdiv_eq]
    by_cases hp : 0 ≤ x + s
    · simp only [hp, if_true]
      split
      · rw [cleanTime_normal (by simp only; omega) (by simp only; omega)]
        simp only; omega
      · rw [cleanTime_normal (by simp only; omega) (by simp only; omega)]
        simp only; omega
    · simp only [hp, if_false]
      split
      · rw [cleanTime_normal (by simp only; omega) (by simp only; omega)]
        simp only; omega
      · rw [cleanTime_normal (by simp only; omega) (by simp only; omega)]
        simp only; omega
  · rw [if_neg hbig]
    simp only
    have := cleanTime_secs (j := j) (t := s + x) ⟨h.1, hz⟩
    simp only at this
    omega

/-- Two normal times with the same instant are the same. -/
theorem normal_unique {a b : Int × Int} (ha : 1 ≤ a.2 ∧ a.2 ≤ 86400) (hb : 1 ≤ b.2 ∧ b.2 ≤ 86400)
    (he : a.1 * 86400 + a.2 = b.1 * 86400 + b.2) : a = b := by
  apply Prod.ext <;> omega

theorem offset_intraday {i j s : Int} (hi : 1 ≤ i) (hle : i ≤ 86400)
    (c1 : 1 ≤ (cleanTime j s 1).2) : ztsOffset i j s = (cleanTime j s 1).2 % i := by
  have hle' : i ≤ SECS_IN_1_DAY := hle
  unfold ztsOffset
  rw [if_neg (by omega)]
  simp only
  rw [if_pos hle', cdiv_nonneg_eq (by omega), Int.mul_comm]
  have := Int.mul_ediv_add_emod (cleanTime j s 1).2 i
  omega

theorem cdiv_mul_cancel {i n : Int} (hi : 1 ≤ i) : cdiv (i * n) i = n := by
  unfold cdiv
  exact Int.mul_tdiv_cancel_left n (by omega)

end Hec
