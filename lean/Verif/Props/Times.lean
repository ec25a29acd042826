import Verif.Proofs.Times
/-!
Property theorems for instants and fixed length intervals: C05, C06, C07, C08 and the fixed
length part of C11.
-/
namespace Hec
open Spec

/-! ### C05: normalising a time -/

/-- C05. Normalising a defined time keeps the instant and gives a time of day from the first unit
of the day to its end, and any such representation of the same instant is the one returned.
The granularity `g` (seconds per unit) measures a day exactly, as all granularities in use do. -/
theorem C05_cleanTime (j t g : Int) (hg : 1 ≤ g) (hd : g ∣ 86400) (h : IsTime j t) :
    let r := cleanTime j t g
    instantG r.1 r.2 g = instantG j t g ∧ 1 ≤ r.2 ∧ r.2 * g ≤ 86400 ∧
      ∀ j' t' : Int, instantG j' t' g = instantG j t g → 1 ≤ t' → t' * g ≤ 86400 → r = (j', t') := by
  intro r
  have hle : g ≤ 86400 := Int.le_of_dvd (by decide) hd
  obtain ⟨h1, h2, h3⟩ := cleanTime_spec h (dayLengthOf_pos hle)
  have hm := dayLengthOf_mul hg hd
  have hi : instantG r.1 r.2 g = instantG j t g := by
    unfold instantG
    rw [← hm]
    have := congrArg (· * g) h3
    simp only [Int.add_mul, Int.mul_assoc] at this
    rw [this]
  have hb : r.2 * g ≤ 86400 := by
    rw [← hm]; exact Int.mul_le_mul_of_nonneg_right h2 (by omega)
  refine ⟨hi, h1, hb, ?_⟩
  intro j' t' he ht1 ht2
  have e : instantG r.1 r.2 g = instantG j' t' g := by rw [hi, he]
  unfold instantG at e
  have h1' : 1 ≤ r.2 := h1
  clear_value r
  have p1 : 1 ≤ r.2 * g := by
    have := Int.mul_le_mul h1' hg (by omega) (by omega); omega
  have p2 : 1 ≤ t' * g := by
    have := Int.mul_le_mul ht1 hg (by omega) (by omega); omega
  have ej : r.1 = j' := by omega
  have et : r.2 * g = t' * g := by omega
  have et' : r.2 = t' := Int.eq_of_mul_eq_mul_right (by omega) et
  exact Prod.ext ej et'

example : IsTime 36525 (-3000) ∧ (60 : Int) ∣ 86400 ∧ cleanTime 36525 (-3000) 60 = (36522, 1320) := by
  unfold IsTime; decide

/-- C05, boundary: the pair (day 0, time 0) is the encoding of "undefined", so the instant
30Dec1899 24:00 is only kept when written as (day -1, 24:00). -/
theorem C05_undefined_pair :
    cleanTime 0 0 1 = (UNDEFINED_TIME, -1) ∧ instant 0 0 = instant (-1) 86400 ∧
      cleanTime (-1) 86400 1 = (-1, 86400) := by
  decide

/-! ### C06: comparing times -/

/-- The three way comparison of two numbers as -1, 0, 1. -/
def cmp3 (a b : Int) : Int := if a < b then -1 else if b < a then 1 else 0

/-- C06. `compareTimes` compares the two instants, whatever base dates and granularities they are
written in. -/
theorem C06_compareTimes (j1 t1 b1 g1 j2 t2 b2 g2 : Int) (hg1 : 1 ≤ g1) (hd1 : g1 ∣ 86400)
    (hg2 : 1 ≤ g2) (hd2 : g2 ∣ 86400) (h1 : IsTime (j1 + b1) t1) (h2 : IsTime (j2 + b2) t2) :
    compareTimes j1 t1 b1 g1 j2 t2 b2 g2 =
      cmp3 (instantG (j1 + b1) t1 g1) (instantG (j2 + b2) t2 g2) := by
  obtain ⟨e1, l1, u1, _⟩ := C05_cleanTime (j1 + b1) t1 g1 hg1 hd1 h1
  obtain ⟨e2, l2, u2, _⟩ := C05_cleanTime (j2 + b2) t2 g2 hg2 hd2 h2
  unfold compareTimes
  generalize cleanTime (j1 + b1) t1 g1 = a at *
  generalize cleanTime (j2 + b2) t2 g2 = b at *
  rw [← e1, ← e2]
  have m1 : (if g1 > 1 then a.2 * g1 else a.2) = a.2 * g1 := by
    by_cases h : g1 > 1
    · rw [if_pos h]
    · have : g1 = 1 := by omega
      rw [if_neg h, this, Int.mul_one]
  have m2 : (if g2 > 1 then b.2 * g2 else b.2) = b.2 * g2 := by
    by_cases h : g2 > 1
    · rw [if_pos h]
    · have : g2 = 1 := by omega
      rw [if_neg h, this, Int.mul_one]
  have p1 : 1 ≤ a.2 * g1 := by
    have := Int.mul_le_mul l1 hg1 (by omega) (by omega); omega
  have p2 : 1 ≤ b.2 * g2 := by
    have := Int.mul_le_mul l2 hg2 (by omega) (by omega); omega
  simp only [m1, m2]
  unfold cmp3 instantG
  generalize a.2 * g1 = x at *
  generalize b.2 * g2 = y at *
  split
  · rw [if_pos (by omega)]
  · split
    · rw [if_neg (by omega), if_pos (by omega)]
    · split
      · rw [if_pos (by omega)]
      · split
        · rw [if_neg (by omega), if_pos (by omega)]
        · rw [if_neg (by omega), if_neg (by omega)]

example : IsTime (100 + 36000) 1440 ∧ IsTime (36101 + 0) 0 ∧
    compareTimes 100 1440 36000 60 36101 0 0 1 = 0 := by
  unfold IsTime; decide

/-- C06 consequence: the comparison is antisymmetric and transitive, so it can be used to sort. -/
theorem C06_order (j1 t1 j2 t2 j3 t3 : Int) (h1 : IsTime (j1 + 0) t1) (h2 : IsTime (j2 + 0) t2)
    (h3 : IsTime (j3 + 0) t3) :
    compareTimes j2 t2 0 1 j1 t1 0 1 = - compareTimes j1 t1 0 1 j2 t2 0 1 ∧
    (compareTimes j1 t1 0 1 j2 t2 0 1 ≤ 0 → compareTimes j2 t2 0 1 j3 t3 0 1 ≤ 0 →
      compareTimes j1 t1 0 1 j3 t3 0 1 ≤ 0) := by
  have d : (1 : Int) ∣ 86400 := ⟨86400, rfl⟩
  rw [C06_compareTimes j1 t1 0 1 j2 t2 0 1 (by omega) d (by omega) d h1 h2,
    C06_compareTimes j2 t2 0 1 j1 t1 0 1 (by omega) d (by omega) d h2 h1,
    C06_compareTimes j2 t2 0 1 j3 t3 0 1 (by omega) d (by omega) d h2 h3,
    C06_compareTimes j1 t1 0 1 j3 t3 0 1 (by omega) d (by omega) d h1 h3]
  unfold cmp3
  constructor <;> (split <;> split <;> (try split) <;> omega)

example : IsTime (0 + 0) 60 ∧ compareTimes 0 60 0 1 0 61 0 1 = -1 := by unfold IsTime; decide

/-- C06, failing part: the two ways of writing 30Dec1899 24:00 are not compared as equal,
because one of them is the encoding of "undefined". -/
theorem C06_undefined_violation :
    instantG 0 0 1 = instantG (-1) 86400 1 ∧ compareTimes 0 0 0 1 (-1) 86400 0 1 = -1 := by
  decide

/-! ### C07: incrementing by fixed length intervals -/

/-- The result of an increment is the undefined pair: the sum of the time of day and the
increment is zero on day 0. -/
def HitsUndefined (i n j s : Int) : Prop := j = 0 ∧ s + i * n = 0

/-- C07. With an interval below ten days, moving `n` periods adds exactly `n` intervals and the
result is normalised. -/
theorem C07_increment_adds (i n j s : Int) (hi : 1 ≤ i) (hi2 : i < 864000) (h : IsTime j s)
    (hz : ¬ HitsUndefined i n j s) :
    let r := incrementTime i n j s
    Normal r ∧ instant r.1 r.2 = instant j s + n * i := by
  unfold incrementTime SECS_IN_TRI_MONTH
  rw [if_neg (by omega), if_pos hi2]
  obtain ⟨h1, h2, h3⟩ := incrementSimple_spec h hz
  refine ⟨⟨h1, h2⟩, ?_⟩
  unfold instant
  rw [h3, Int.mul_comm n i]

example : IsTime 36525 86400 ∧ ¬ HitsUndefined 3600 25 36525 86400 ∧
    incrementTime 3600 25 36525 86400 = (36527, 3600) := by
  unfold IsTime HitsUndefined; decide

/-- C07. Two increments compose to one. -/
theorem C07_increment_compose (i n m j s : Int) (hi : 1 ≤ i) (hi2 : i < 864000) (h : IsTime j s)
    (hz1 : ¬ HitsUndefined i n j s) (hz2 : ¬ HitsUndefined i (n + m) j s)
    (hu : (incrementTime i n j s).1 ≠ UNDEFINED_TIME)
    (hz3 : ¬ HitsUndefined i m (incrementTime i n j s).1 (incrementTime i n j s).2) :
    incrementTime i m (incrementTime i n j s).1 (incrementTime i n j s).2 =
      incrementTime i (n + m) j s := by
  obtain ⟨a1, a2⟩ := C07_increment_adds i n j s hi hi2 h hz1
  obtain ⟨c1, c2⟩ := C07_increment_adds i (n + m) j s hi hi2 h hz2
  have ht : IsTime (incrementTime i n j s).1 (incrementTime i n j s).2 := by
    refine ⟨hu, ?_⟩
    unfold Normal at a1
    omega
  obtain ⟨b1, b2⟩ := C07_increment_adds i m _ _ hi hi2 ht hz3
  apply normal_unique b1 c1
  show instant _ _ = instant _ _
  rw [b2, a2, c2, Int.add_mul]
  omega

example : IsTime 36525 900 ∧ ¬ HitsUndefined 900 (-2) 36525 900 ∧
    ¬ HitsUndefined 900 (-2 + 5) 36525 900 ∧ (incrementTime 900 (-2) 36525 900) = (36524, 85500) ∧
    (incrementTime 900 5 36524 85500) = (36525, 3600) := by
  unfold IsTime HitsUndefined; decide

/-- C07, failing part: stepping back one hour from 31Dec1899 01:00 gives an undefined time instead
of 30Dec1899 24:00. -/
theorem C07_hits_undefined :
    incrementTime 3600 (-1) 0 3600 = (UNDEFINED_TIME, -1) := by decide

/-! ### C08: counting periods -/

/-- C08. The number of periods from a time to that time incremented by `n` periods is `n`. -/
theorem C08_numberPeriods_inverse (i n j s : Int) (hi : 1 ≤ i) (hi2 : i < 864000) (h : IsTime j s)
    (hz : ¬ HitsUndefined i n j s) :
    numberPeriods i j s (incrementTime i n j s).1 (incrementTime i n j s).2 = n := by
  obtain ⟨a1, a2⟩ := C07_increment_adds i n j s hi hi2 h hz
  have hs := cleanTime_secs h
  unfold Normal at a1
  unfold instant at a2
  unfold numberPeriods
  rw [if_neg (by omega), cleanTime_normal a1.1 a1.2]
  simp only [SECS_IN_TRI_MONTH, hi2, if_true]
  have : ((incrementTime i n j s).1 - (cleanTime j s 1).1) * SECS_IN_1_DAY +
      ((incrementTime i n j s).2 - (cleanTime j s 1).2) = i * n := by
    unfold SECS_IN_1_DAY
    rw [Int.mul_comm i n]
    simp only at hs
    omega
  rw [this, cdiv_mul_cancel hi]

example : numberPeriods 3600 36525 86400 36527 3600 = 25 := by decide

/-- C08. In general the count is the whole number of intervals between the two instants (toward
zero). -/
theorem C08_numberPeriods_counts (i j s j2 s2 : Int) (hi : 1 ≤ i) (hi2 : i < 864000)
    (h : IsTime j s) (h2 : IsTime j2 s2) (hle : instant j s ≤ instant j2 s2) :
    let k := numberPeriods i j s j2 s2
    0 ≤ k ∧ instant j s + k * i ≤ instant j2 s2 ∧ instant j2 s2 < instant j s + (k + 1) * i := by
  intro k
  have a := cleanTime_secs h
  have b := cleanTime_secs h2
  simp only at a b
  have hk : k = (instant j2 s2 - instant j s) / i := by
    show numberPeriods i j s j2 s2 = _
    unfold numberPeriods
    rw [if_neg (by omega)]
    simp only [SECS_IN_TRI_MONTH, hi2, if_true]
    unfold SECS_IN_1_DAY
    unfold instant at *
    rw [cdiv_nonneg_eq (by omega)]
    congr 1
    omega
  have e1 := Int.mul_ediv_add_emod (instant j2 s2 - instant j s) i
  have e2 := Int.emod_nonneg (instant j2 s2 - instant j s) (b := i) (by omega)
  have e3 := Int.emod_lt_of_pos (instant j2 s2 - instant j s) (b := i) (by omega)
  rw [← hk, Int.mul_comm] at e1
  have e4 : 0 ≤ k := by rw [hk]; exact Int.ediv_nonneg (by omega) (by omega)
  refine ⟨e4, by omega, ?_⟩
  rw [Int.add_mul]; omega

example : instant 36525 86400 ≤ instant 36526 5000 ∧ numberPeriods 3600 36525 86400 36526 5000 = 1 := by
  decide

/-! ### C11: offsets of fixed length intervals -/

/-- A time is on the standard grid of an interval that measures a day exactly. -/
def OnGrid (i : Int) (p : Int × Int) : Prop := i ∣ instant p.1 p.2

/-- C11 for intervals up to a day, general form with the exact conditions under which no
intermediate result is an undefined time. -/
theorem C11_offset_intraday_gen (i j s : Int) (hi : 1 ≤ i) (hd : i ∣ 86400) (h : IsTime j s)
    (hu : (cleanTime j s 1).1 ≠ UNDEFINED_TIME) :
    let off := ztsOffset i j s
    let a := ztsOffsetAdjustToStandard i j s
    0 ≤ off ∧ off < i ∧ a.1 = off ∧ Normal a.2 ∧ OnGrid i a.2 ∧
      instant j s ≤ instant a.2.1 a.2.2 ∧ instant a.2.1 a.2.2 < instant j s + i ∧
      (a.2.1 ≠ UNDEFINED_TIME → ¬ HitsUndefined i (-1) a.2.1 a.2.2 →
        IsTime (incrementSimple i (-1) a.2.1 a.2.2).1
          ((incrementSimple i (-1) a.2.1 a.2.2).2 + off) →
        ztsOffsetAdjustToOffset off i a.2.1 a.2.2 = cleanTime j s 1) := by
  have hle : i ≤ 86400 := Int.le_of_dvd (by decide) hd
  obtain ⟨c1, c2, c3⟩ := cleanTime_secs h
  intro off a
  have hoff : off = (cleanTime j s 1).2 % i := by
    exact offset_intraday hi hle c1
  have ho1 : 0 ≤ off := by rw [hoff]; exact Int.emod_nonneg _ (by omega)
  have ho2 : off < i := by rw [hoff]; exact Int.emod_lt_of_pos _ (by omega)
  have hdm : i ∣ (cleanTime j s 1).2 - off := by
    rw [hoff]; exact Int.dvd_self_sub_emod
  have hgrid : ∀ x y : Int, i ∣ y - off → i ∣ x * 86400 + (y - off) := fun x y hy =>
    Int.dvd_add (Int.dvd_mul_of_dvd_right hd) hy
  -- offset is unchanged by normalising first
  have hoff2 : ztsOffset i (cleanTime j s 1).1 (cleanTime j s 1).2 = off := by
    have h3 := cleanTime_normal (j := (cleanTime j s 1).1) c1 c2
    rw [hoff, offset_intraday hi hle (by rw [h3]; exact c1), h3]
  have hweek : i ≤ SECS_IN_1_WEEK := by unfold SECS_IN_1_WEEK; omega
  have ha : a = if off > 0 then
      (off, (cleanTime (cleanTime j s 1).1 ((cleanTime j s 1).2 + (i - off)) 1).1,
        (cleanTime (cleanTime j s 1).1 ((cleanTime j s 1).2 + (i - off)) 1).2)
      else (off, (cleanTime j s 1).1, (cleanTime j s 1).2) := by
    show ztsOffsetAdjustToStandard i j s = _
    unfold ztsOffsetAdjustToStandard
    rw [if_neg (by omega)]
    simp only [hoff2, hweek, if_true]
  have main : a.1 = off ∧ Normal a.2 ∧
      instant a.2.1 a.2.2 = instant j s + (if off > 0 then i - off else 0) := by
    by_cases hp : off > 0
    · rw [if_pos hp] at ha
      rw [ha, if_pos hp]
      have q := cleanTime_secs (j := (cleanTime j s 1).1)
        (t := (cleanTime j s 1).2 + (i - off)) ⟨hu, by omega⟩
      simp only at q
      refine ⟨rfl, ⟨q.1, q.2.1⟩, ?_⟩
      unfold instant
      simp only
      omega
    · rw [if_neg hp] at ha
      rw [ha, if_neg hp]
      refine ⟨rfl, ⟨c1, c2⟩, ?_⟩
      unfold instant
      simp only
      omega
  obtain ⟨m1, m2, m3⟩ := main
  refine ⟨ho1, ho2, m1, m2, ?_, ?_, ?_, ?_⟩
  · unfold OnGrid
    rw [m3]
    have hst : instant j s = (cleanTime j s 1).1 * 86400 + ((cleanTime j s 1).2 - off) + off := by
      unfold instant; omega
    rw [hst]
    have hg := hgrid (cleanTime j s 1).1 (cleanTime j s 1).2 hdm
    by_cases hp : off > 0
    · rw [if_pos hp]
      have : (cleanTime j s 1).1 * 86400 + ((cleanTime j s 1).2 - off) + off + (i - off) =
        ((cleanTime j s 1).1 * 86400 + ((cleanTime j s 1).2 - off)) + i := by omega
      rw [this]
      exact Int.dvd_add hg (Int.dvd_refl i)
    · rw [if_neg hp]
      have : off = 0 := by omega
      rw [this] at hg ⊢
      simpa using hg
  · rw [m3]; split <;> omega
  · rw [m3]; split <;> omega
  · intro hu2 hz hdt
    have hN := m2
    unfold Normal at m2
    -- the standard time is already standard
    have hstd : ztsOffsetAdjustToStandard i a.2.1 a.2.2 = (0, a.2.1, a.2.2) := by
      have hcl := cleanTime_normal (j := a.2.1) m2.1 m2.2
      have hz0 : ztsOffset i a.2.1 a.2.2 = 0 := by
        rw [offset_intraday hi hle (by rw [hcl]; exact m2.1), hcl]
        have hdv : i ∣ a.2.2 := by
          have hg : i ∣ instant a.2.1 a.2.2 := by
            rw [m3]
            have hst : instant j s = (cleanTime j s 1).1 * 86400 + ((cleanTime j s 1).2 - off) + off := by
              unfold instant; omega
            rw [hst]
            have hg := hgrid (cleanTime j s 1).1 (cleanTime j s 1).2 hdm
            by_cases hp : off > 0
            · rw [if_pos hp]
              have : (cleanTime j s 1).1 * 86400 + ((cleanTime j s 1).2 - off) + off + (i - off) =
                ((cleanTime j s 1).1 * 86400 + ((cleanTime j s 1).2 - off)) + i := by omega
              rw [this]
              exact Int.dvd_add hg (Int.dvd_refl i)
            · rw [if_neg hp]
              have : off = 0 := by omega
              rw [this] at hg ⊢
              simpa using hg
          unfold instant at hg
          have h2 : i ∣ a.2.1 * 86400 := Int.dvd_mul_of_dvd_right hd
          exact (Int.dvd_add_right h2).1 hg
        exact Int.emod_eq_zero_of_dvd hdv
      unfold ztsOffsetAdjustToStandard
      rw [if_neg (by omega)]
      simp [hcl, hz0, hweek]
    unfold ztsOffsetAdjustToOffset
    rw [if_neg (by omega)]
    simp only [hstd]
    by_cases h0 : off = 0
    · rw [if_pos h0]
      apply normal_unique m2 ⟨c1, c2⟩
      have e := m3
      rw [if_neg (by omega)] at e
      unfold instant at e
      omega
    · rw [if_neg h0]
      have hlt : i < SECS_IN_TRI_MONTH := by unfold SECS_IN_TRI_MONTH; omega
      simp only [hlt, if_true]
      have hat : IsTime a.2.1 a.2.2 := ⟨hu2, by omega⟩
      have inc := incrementSimple_spec (i := i) (n := -1) hat hz
      simp only at inc
      have q := cleanTime_secs hdt
      simp only at q
      have hla : leapAdjust i = fun x => x := by
        funext x
        unfold leapAdjust SECS_IN_1_YEAR
        rw [if_neg (by omega)]
      rw [hla]
      apply normal_unique ⟨q.1, q.2.1⟩ ⟨c1, c2⟩
      have e := m3
      rw [if_pos (by omega)] at e
      unfold instant at e
      omega

/-- C11 for intervals up to a day.  The offset is in [0, interval); removing it gives the first
grid time at or after the time, on the same day; adding the offset back gives the original time.
Day 0 (31Dec1899) is excluded because its first interval start is the undefined pair. -/
theorem C11_offset_intraday (i j s : Int) (hi : 1 ≤ i) (hd : i ∣ 86400) (hn : Normal (j, s))
    (hj : -693960 ≤ j) (hj0 : j ≠ 0) :
    let off := ztsOffset i j s
    let a := ztsOffsetAdjustToStandard i j s
    0 ≤ off ∧ off < i ∧ a.1 = off ∧ Normal a.2 ∧ OnGrid i a.2 ∧ a.2.1 = j ∧
      instant j s ≤ instant a.2.1 a.2.2 ∧ instant a.2.1 a.2.2 < instant j s + i ∧
      ztsOffsetAdjustToOffset off i a.2.1 a.2.2 = (j, s) := by
  have hle : i ≤ 86400 := Int.le_of_dvd (by decide) hd
  have hn' : 1 ≤ s ∧ s ≤ 86400 := hn
  have hc := cleanTime_normal (j := j) hn'.1 hn'.2
  have hU : UNDEFINED_TIME < -1000000 := by decide
  have hit : IsTime j s := ⟨by omega, by omega⟩
  have g := C11_offset_intraday_gen i j s hi hd hit (by rw [hc]; simp only; omega)
  rw [hc] at g
  simp only at g
  intro off a
  change 0 ≤ off ∧ off < i ∧ a.1 = off ∧ Normal a.2 ∧ OnGrid i a.2 ∧ _ ∧ _ ∧ _ at g
  obtain ⟨g1, g2, g3, g4, g5, g6, g7, g8⟩ := g
  have e : a.2.1 = j := by
    have h1 : i ∣ instant a.2.1 a.2.2 - (j + 1) * 86400 :=
      Int.dvd_sub g5 (Int.dvd_mul_of_dvd_right hd)
    have h2 : ¬ (0 < instant a.2.1 a.2.2 - (j + 1) * 86400) := by
      intro hp
      have := Int.le_of_dvd hp h1
      have h7 : instant a.2.1 a.2.2 < instant j s + i := g7
      unfold instant at this h7
      omega
    have h6 : instant j s ≤ instant a.2.1 a.2.2 := g6
    have h4 : 1 ≤ a.2.2 ∧ a.2.2 ≤ 86400 := g4
    unfold instant at h2 h6
    omega
  refine ⟨g1, g2, g3, g4, g5, e, g6, g7, ?_⟩
  have h4 : 1 ≤ a.2.2 ∧ a.2.2 ≤ 86400 := g4
  have hz : ¬ HitsUndefined i (-1) a.2.1 a.2.2 := by
    intro hh
    have := hh.1
    omega
  have inc := incrementSimple_spec (i := i) (n := -1) (j := a.2.1) (s := a.2.2)
    ⟨by omega, by omega⟩ hz
  simp only at inc
  have q1 : a.2.1 ≠ UNDEFINED_TIME := by omega
  have q2 : IsTime (incrementSimple i (-1) a.2.1 a.2.2).1
      ((incrementSimple i (-1) a.2.1 a.2.2).2 + off) := ⟨by omega, by omega⟩
  exact g8 q1 hz q2

example : Normal (36525, 4000) ∧ (3600 : Int) ∣ 86400 ∧ ztsOffset 3600 36525 4000 = 400 ∧
    ztsOffsetAdjustToStandard 3600 36525 4000 = (400, 36525, 7200) ∧
    ztsOffsetAdjustToOffset 400 3600 36525 7200 = (36525, 4000) := by
  unfold Normal; decide

/-- C11 for weeks, from January 1900 on: standard times are Saturdays 24:00. -/
theorem C11_offset_week_partial (j s : Int) (hn : Normal (j, s)) (hj : 8 ≤ j) :
    let off := ztsOffset 604800 j s
    let a := ztsOffsetAdjustToStandard 604800 j s
    0 ≤ off ∧ off < 604800 ∧ a.1 = off ∧ a.2.2 = 86400 ∧ a.2.1 % 7 = 6 ∧
      instant j s ≤ instant a.2.1 a.2.2 ∧ instant a.2.1 a.2.2 < instant j s + 604800 ∧
      ztsOffsetAdjustToOffset off 604800 a.2.1 a.2.2 = (j, s) := by
  unfold Normal at hn
  simp only at hn
  have hc := cleanTime_normal (j := j) hn.1 hn.2
  have hdow : ∀ x : Int, 0 ≤ x → dayOfWeek x = x % 7 + 1 := fun x hx => by
    unfold dayOfWeek; rw [cmod_nonneg_eq hx]
  have hoffg : ∀ x t : Int, 0 ≤ x → 1 ≤ t → t ≤ 86400 → ztsOffset 604800 x t =
      if x % 7 * 86400 + t = 604800 then 0 else x % 7 * 86400 + t := by
    intro x t hx h1 h2
    unfold ztsOffset
    rw [cleanTime_normal h1 h2]
    simp only [SECS_IN_1_DAY, SECS_IN_1_WEEK, hdow x hx]
    simp
  have hstdg : ∀ x t : Int, 0 ≤ x → 1 ≤ t → t ≤ 86400 → ztsOffsetAdjustToStandard 604800 x t =
      (ztsOffset 604800 x t, x + (6 - x % 7), 86400) := by
    intro x t hx h1 h2
    have hcl := cleanTime_normal (j := x) h1 h2
    unfold ztsOffsetAdjustToStandard
    simp only [hcl, SECS_IN_1_WEEK]
    rw [if_neg (by omega), if_pos (by omega)]
    have ho := hoffg x t hx h1 h2
    by_cases hz : x % 7 * 86400 + t = 604800
    · rw [if_pos hz] at ho
      rw [ho, if_neg (by omega)]
      refine Prod.ext rfl (Prod.ext ?_ ?_) <;> simp only <;> omega
    · rw [if_neg hz] at ho
      have hpos : ztsOffset 604800 x t > 0 := by omega
      rw [if_pos hpos]
      have q := cleanTime_secs (j := x) (t := t + (604800 - ztsOffset 604800 x t))
        ⟨by unfold UNDEFINED_TIME; omega, by omega⟩
      simp only at q
      refine Prod.ext rfl (Prod.ext ?_ ?_) <;> simp only <;> omega
  intro off a
  have hoff : off = _ := hoffg j s (by omega) hn.1 hn.2
  have ha : a = _ := hstdg j s (by omega) hn.1 hn.2
  rw [ha]
  refine ⟨by rw [hoff]; split <;> omega, by rw [hoff]; split <;> omega, rfl, rfl, by simp only; omega,
    by unfold instant; simp only; omega, by unfold instant; simp only; omega, ?_⟩
  have h2 := hstdg (j + (6 - j % 7)) 86400 (by omega) (by omega) (by omega)
  have e6 : (j + (6 - j % 7)) % 7 = 6 := by omega
  unfold ztsOffsetAdjustToOffset
  rw [if_neg (by omega)]
  simp only
  rw [h2]
  simp only [e6]
  by_cases h0 : off = 0
  · rw [if_pos h0]
    rw [h0] at hoff
    have : j % 7 * 86400 + s = 604800 := by
      rcases Classical.em (j % 7 * 86400 + s = 604800) with h | h
      · exact h
      · rw [if_neg h] at hoff; omega
    apply Prod.ext <;> simp only <;> omega
  · rw [if_neg h0]
    have hne : ¬ (j % 7 * 86400 + s = 604800) := by
      intro h; rw [if_pos h] at hoff; omega
    rw [if_neg hne] at hoff
    rw [if_pos (by decide)]
    have inc := incrementSimple_spec (i := 604800) (n := -1) (j := j + (6 - j % 7) + (6 - 6))
      (s := 86400) ⟨by unfold UNDEFINED_TIME; omega, by omega⟩ (by omega)
    simp only at inc
    generalize incrementSimple 604800 (-1) (j + (6 - j % 7) + (6 - 6)) 86400 = w at *
    have q := cleanTime_secs (j := w.1) (t := w.2 + off)
      ⟨by unfold UNDEFINED_TIME; omega, by omega⟩
    simp only at q
    have hla : leapAdjust 604800 = fun x => x := by
      funext x
      unfold leapAdjust SECS_IN_1_YEAR
      rw [if_neg (by omega)]
    rw [hla]
    apply Prod.ext <;> simp only <;> omega

example : Normal (36525, 3600) ∧ ztsOffset 604800 36525 3600 = 6 * 86400 + 3600 := by
  unfold Normal; decide

/-- C11, failing part: before 1900 the day of week is not in 1..7, so the offset of a weekly time
can be negative: 01Jan1890 12:00 (a Wednesday, day 4) gets an offset below 0. -/
theorem C11_week_violation :
    ztsOffset 604800 (yearMonthDayToJulian 1890 1 1) 43200 = -302400 := by decide

end Hec
