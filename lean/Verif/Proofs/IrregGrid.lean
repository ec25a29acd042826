import Verif.Proofs.RegGrid
/-!
The blocks of irregular data from the year 100 on, numbered.
-/
namespace Hec
open _root_.Spec (Block Date)
open Spec

/-- `jbOf n` is the first day of block `n`. -/
structure BlockGrid (code : Int) (jbOf : Int → Int) (n0 : Int) : Prop where
  lt : ∀ n, n0 ≤ n → jbOf n < jbOf (n + 1)
  next : ∀ n, n0 ≤ n → ztsIncrementBlock (jbOf n) code = jbOf (n + 1)
  block : ∀ n j, n0 ≤ n → jbOf n ≤ j → j < jbOf (n + 1) → ztsIrregGetBlockStart j code = jbOf n

variable {code n0 : Int} {jbOf : Int → Int}

theorem BlockGrid.mono (G : BlockGrid code jbOf n0) {m n : Int} (hm : n0 ≤ m) (h : m < n) : jbOf m < jbOf n := by
  obtain ⟨k, rfl⟩ : ∃ k : Nat, n = m + 1 + k := ⟨(n - m - 1).toNat, by omega⟩
  clear h
  induction k with
  | zero => simpa using G.lt m hm
  | succ k ih =>
    have := G.lt (m + 1 + k) (by omega)
    have e : m + 1 + ((k + 1 : Nat) : Int) = m + 1 + k + 1 := by omega
    rw [e]; omega

theorem BlockGrid.inj (G : BlockGrid code jbOf n0) {m n : Int} (hm : n0 ≤ m) (hn : n0 ≤ n) (h : jbOf m = jbOf n) : m = n := by
  rcases Int.lt_trichotomy m n with c | c | c
  · have := G.mono hm c; omega
  · exact c
  · have := G.mono hn c; omega

theorem BlockGrid.mono_le (G : BlockGrid code jbOf n0) {m n : Int} (hm : n0 ≤ m) (h : m ≤ n) : jbOf m ≤ jbOf n := by
  rcases Int.lt_or_eq_of_le h with c | c
  · have := G.mono hm c; omega
  · rw [c]; omega

theorem BlockGrid.le_iff (G : BlockGrid code jbOf n0) {m n : Int} (hm : n0 ≤ m) (hn : n0 ≤ n) : jbOf m ≤ jbOf n ↔ m ≤ n := by
  constructor
  · intro h
    rcases Int.lt_or_le n m with c | c
    · have := G.mono hn c; omega
    · exact c
  · exact G.mono_le hm

theorem BlockGrid.dist (G : BlockGrid code jbOf n0) {m n : Int} (hm : n0 ≤ m) (h : m ≤ n) : n - m ≤ jbOf n - jbOf m := by
  obtain ⟨k, rfl⟩ : ∃ k : Nat, n = m + k := ⟨(n - m).toNat, by omega⟩
  clear h
  induction k with
  | zero => simp
  | succ k ih =>
    have := G.lt (m + k) (by omega)
    have e : m + ((k + 1 : Nat) : Int) = m + k + 1 := by omega
    rw [e]; omega

theorem BlockGrid.onto (G : BlockGrid code jbOf n0) {j : Int} (hj : jbOf n0 ≤ j) :
    ∃ n, n0 ≤ n ∧ jbOf n ≤ j ∧ j < jbOf (n + 1) := by
  have h : ∀ k : Nat, j < jbOf (n0 + k) → ∃ n, n0 ≤ n ∧ jbOf n ≤ j ∧ j < jbOf (n + 1) := by
    intro k
    induction k with
    | zero => intro h; simp at h; omega
    | succ k ih =>
      intro h
      rcases Int.lt_or_le j (jbOf (n0 + k)) with c | c
      · exact ih c
      · refine ⟨n0 + k, by omega, c, ?_⟩
        have e : n0 + ((k + 1 : Nat) : Int) = n0 + k + 1 := by omega
        rw [e] at h; exact h
  have d := G.dist (m := n0) (n := n0 + ((j - jbOf n0).toNat + 1 : Nat)) (by omega) (by omega)
  exact h ((j - jbOf n0).toNat + 1) (by omega)

theorem years_grid {b : Block} {Y m0 : Int} (hY : 1 ≤ Y) (hm : Y * m0 = 100)
    (hs : ∀ d : Date, 100 ≤ d.year → b.start d = ⟨Y * (d.year / Y), 1, 1⟩)
    (hn : ∀ n : Int, b.next ⟨Y * n, 1, 1⟩ = ⟨Y * (n + 1), 1, 1⟩) :
    BlockGrid b.code (fun n => julianOf ⟨Y * n, 1, 1⟩) m0 := by
  have hge : ∀ n, m0 ≤ n → 100 ≤ Y * n := by
    intro n h
    have := Int.mul_le_mul_of_nonneg_left h (show 0 ≤ Y by omega)
    omega
  have e : ∀ n : Int, Y * (n + 1) = Y * n + Y := by intro n; rw [Int.mul_add]; omega
  refine ⟨?_, ?_, ?_⟩
  · intro n h
    have := hge n h
    apply julian_lt (jan1_valid _) (jan1_valid _) (by simp only; omega) (by simp only; rw [e]; omega)
    unfold Date.before; simp only; rw [e]; omega
  · intro n h
    have h' := hge n h
    have k := C12_step_forward b ⟨Y * n, 1, 1⟩ (jan1_valid _) h'
    rw [hn, hs _ h'] at k
    simp only at k
    rw [Int.mul_ediv_cancel_left _ (by omega : Y ≠ 0)] at k
    exact k
  · intro n j h h1 h2
    have h' := hge n h
    have h100 : julianOf ⟨100, 1, 1⟩ ≤ j := by
      rcases Int.lt_or_eq_of_le h' with c | c
      · have := julian_lt (a := ⟨100, 1, 1⟩) (b := ⟨Y * n, 1, 1⟩) (jan1_valid _) (jan1_valid _) (by decide)
          (by simp only; omega) (by unfold Date.before; simp only; omega)
        show julianOf ⟨100, 1, 1⟩ ≤ j; have h1x : julianOf ⟨Y * n, 1, 1⟩ ≤ j := h1; omega
      · rw [← c] at h1; exact h1
    obtain ⟨d, hv, hy, rfl⟩ := date_of_day h100
    have hb := years_of_block hY h' hv (by omega) h1 h2
    rw [C12_irreg_block_start b d hv (by omega), hs d hy]
    have hq : d.year / Y = n := by
      rw [e] at hb
      have : d.year / Y = (d.year - Y * n + Y * n) / Y := by congr 1; omega
      rw [this, Int.add_mul_ediv_left _ _ (by omega : Y ≠ 0), Int.ediv_eq_zero_of_lt (by omega) (by omega)]
      omega
    rw [hq]

theorem year_len {y : Int} (hy : 5 ≤ y) : julianOf ⟨y + 1, 1, 1⟩ - julianOf ⟨y, 1, 1⟩ ≤ 366 := by
  unfold julianOf
  simp only
  rw [jan1_formula hy, jan1_formula (by omega), L_succ]
  by_cases h : Spec.leap y
  · rw [if_pos h]; omega
  · rw [if_neg h]; omega

theorem month_len {n : Int} (hn : 1200 ≤ n) : julianOf (dayOfMonth (n + 1) 1) - julianOf (dayOfMonth n 1) ≤ 366 := by
  have h1 : julianOf ⟨n / 12, 1, 1⟩ ≤ julianOf (dayOfMonth n 1) := by
    by_cases c : n % 12 = 0
    · unfold dayOfMonth; rw [c]; exact Int.le_refl _
    · have := julian_lt (a := ⟨n / 12, 1, 1⟩) (b := dayOfMonth n 1) (jan1_valid _) (first_valid n) (by simp only; omega)
        (by simp only [dayOfMonth]; omega) (Or.inr ⟨rfl, Or.inl (by simp only [dayOfMonth]; omega)⟩)
      omega
  have h2 : julianOf (dayOfMonth (n + 1) 1) ≤ julianOf ⟨n / 12 + 1, 1, 1⟩ := by
    by_cases c : n % 12 = 11
    · have e1 : (n + 1) / 12 = n / 12 + 1 := by omega
      have e2 : (n + 1) % 12 = 0 := by omega
      unfold dayOfMonth; rw [e1, e2]; exact Int.le_refl _
    · have := julian_lt (a := dayOfMonth (n + 1) 1) (b := ⟨n / 12 + 1, 1, 1⟩) (first_valid _) (jan1_valid _)
        (by simp only [dayOfMonth]; omega) (by simp only; omega) (by unfold Date.before dayOfMonth; simp only; omega)
      omega
  have := year_len (y := n / 12) (by omega)
  omega

/-- The blocks of each kind, from 1 January of the year 100 on. -/
theorem block_grid (b : Block) : ∃ jbOf n0, BlockGrid b.code jbOf n0 ∧ jbOf n0 = julianOf ⟨100, 1, 1⟩ ∧
    ∀ n, n0 ≤ n → b.code < 4 → jbOf (n + 1) - jbOf n + 1 < 370 := by
  cases b
  · refine ⟨fun n => n, julianOf ⟨100, 1, 1⟩, ⟨fun n _ => by show n < n + 1; omega, fun n _ => rfl, ?_⟩, rfl, fun n _ _ => by simp only; omega⟩
    intro n j hn h1 h2
    have e : j = n := by omega
    subst e
    obtain ⟨d, hv, hy, rfl⟩ := date_of_day hn
    exact C12_irreg_block_start .day d hv (by omega)
  · have G := month_grid (i := 3600) (P := 24) (by omega) (by omega) (by omega) (by omega)
    refine ⟨fun n => julianOf (dayOfMonth n 1), 1200, ⟨G.jbLt, G.next, ?_⟩, rfl, fun n hn _ => by have := month_len hn; simp only; omega⟩
    intro n j hn h1 h2
    have k := (G.block n (j * 24 + 1) hn (by omega) (by omega)).1
    have e : (fixedTime 3600 (j * 24 + 1)).1 = j := by
      unfold fixedTime; simp only; omega
    rw [e] at k
    unfold ztsRegGetBlockStart at k
    rw [if_neg (by decide)] at k
    simp only at k
    rw [if_pos (by decide)] at k
    have k1 := congrArg Prod.fst k
    simp only at k1
    unfold ztsIrregGetBlockStart
    exact k1
  · refine ⟨_, 100, years_grid (b := .year) (Y := 1) (m0 := 100) (by omega) (by omega) ?_ ?_, rfl, ?_⟩
    · intro d _; unfold Block.start; simp
    · intro n; unfold Block.next; simp
    · intro n hn _
      have := year_len (y := n) (by omega)
      simp only [Int.one_mul]; omega
  · refine ⟨_, 10, years_grid (b := .decade) (Y := 10) (m0 := 10) (by omega) (by omega) ?_ ?_, rfl, fun n _ h => absurd h (by decide)⟩
    · intro d _; unfold Block.start; simp only; congr 1; omega
    · intro n; unfold Block.next; simp only; congr 1; omega
  · refine ⟨_, 1, years_grid (b := .century) (Y := 100) (m0 := 1) (by omega) (by omega) ?_ ?_, rfl, fun n _ h => absurd h (by decide)⟩
    · intro d _; unfold Block.start; simp only; congr 1; omega
    · intro n; unfold Block.next; simp only; congr 1; omega

end Hec
