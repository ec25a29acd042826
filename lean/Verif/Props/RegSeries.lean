import Verif.Proofs.RegGrid
/-! C39: whole regular series, stored and retrieved over any number of blocks. -/
namespace Hec
open _root_.Spec (Date Block Period RegInterval RegStore regSeries SameValue)

/-- The standard time `k` lies in the year 100 or later. -/
def InRange : RegInterval → Int → Prop
  | .fixed i, k => julianOf ⟨100, 1, 1⟩ * 86400 < k * i
  | .period p, k => 100 ≤ (p.endDate k).year

/-- The stores considered: not empty, not before the year 100, elements of the right sizes (the size
`q` for quality, when there is quality), storage flag 0 to 4, and: with flag 0, and unless the library
is set to keep empty records, every block that lies inside the range of days stored (neither the
first nor the last one) gets a value that is not missing. -/
structure StoreOk {W : Type} (cfg : RegCfg W) (r : RegInterval) (q : Nat) (x : RegStore (List W)) : Prop where
  inRange : InRange r x.start
  nonempty : x.values ≠ []
  values : ∀ v ∈ x.values, v.length = cfg.vsz
  qsize : x.qualitySize = 0 ∨ x.qualitySize = q
  quality : ∀ v ∈ x.quality, v.length = x.qualitySize
  both : 0 < x.qualitySize → x.quality.length = x.values.length
  flag : 0 ≤ x.flag ∧ x.flag ≤ 4
  notBlank : cfg.keepEmpty = true ∨ x.flag ≠ 0 ∨
    ∀ d : Date, d.Valid → 100 ≤ d.year → (r.time julianOf x.start).1 < julianOf (r.block.start d) →
      julianOf (r.block.next d) < (r.time julianOf (x.start + x.values.length - 1)).1 →
      ∃ k : Nat, k < x.values.length ∧ julianOf (r.block.start d) ≤ (r.time julianOf (x.start + k)).1 ∧
        (r.time julianOf (x.start + k)).1 < julianOf (r.block.next d) ∧
        cfg.isMissing ((x.values[k]?).getD []) = false

/-- Run the stores, in order. -/
def storeAll {W : Type} [DecidableEq W] [Inhabited W] (cfg : RegCfg W) (r : RegInterval) :
    List (RegStore (List W)) → RegFile W → Option (RegFile W)
  | [], f => some f
  | x :: xs, f =>
    match storeReg cfg r.secs (r.time julianOf x.start).1 (r.time julianOf x.start).2 x.qualitySize x.values x.quality x.flag f with
    | none => none
    | some f' => storeAll cfg r xs f'

theorem year_days {y : Int} (hy : 5 ≤ y) : julianOf ⟨y + 1, 1, 1⟩ - julianOf ⟨y, 1, 1⟩ ≤ 366 := by
  unfold julianOf
  rw [jan1_formula hy, jan1_formula (show 5 ≤ y + 1 by omega), L_succ]
  split <;> omega

theorem month_days {n : Int} (hn : 1200 ≤ n) : julianOf (Spec.dayOfMonth (n + 1) 1) - julianOf (Spec.dayOfMonth n 1) ≤ 366 := by
  have h := year_days (y := n / 12) (by omega)
  have h1 : julianOf ⟨n / 12, 1, 1⟩ ≤ julianOf (Spec.dayOfMonth n 1) := by
    by_cases hm : n % 12 = 0
    · rw [show Spec.dayOfMonth n 1 = ⟨n / 12, 1, 1⟩ by unfold Spec.dayOfMonth; rw [hm]; rfl]; omega
    · exact Int.le_of_lt (julian_lt (jan1_valid _) (first_valid n) (by simp only; omega) (by simp only [Spec.dayOfMonth]; omega)
        (Or.inr ⟨rfl, Or.inl (by simp only [Spec.dayOfMonth]; omega)⟩))
  have h2 : julianOf (Spec.dayOfMonth (n + 1) 1) ≤ julianOf ⟨n / 12 + 1, 1, 1⟩ := by
    by_cases hm : n % 12 = 11
    · rw [show Spec.dayOfMonth (n + 1) 1 = ⟨n / 12 + 1, 1, 1⟩ by unfold Spec.dayOfMonth; congr 1 <;> omega]; omega
    · exact Int.le_of_lt (julian_lt (first_valid (n + 1)) (jan1_valid _) (by simp only [Spec.dayOfMonth]; omega) (by simp only; omega)
        (by unfold Date.before; simp only [Spec.dayOfMonth]; omega))
  omega

theorem grid_of (r : RegInterval) (hr : r.Ok) :
    ∃ (code : Int) (jbOf edge : Int → Int) (n0 : Int),
      Grid r.secs code (r.time julianOf) jbOf edge n0 ∧ (∀ a, InRange r a → edge n0 < a) ∧
      (∀ n, n0 ≤ n → ∃ d : Date, d.Valid ∧ 100 ≤ d.year ∧ jbOf n = julianOf (r.block.start d) ∧
        jbOf (n + 1) = julianOf (r.block.next d)) ∧ (∀ n, n0 ≤ n → edge (n + 1) - edge n ≤ 86400) := by
  cases r with
  | fixed i =>
    obtain ⟨hi, P, hP⟩ := hr
    have hP : i * P = 86400 := hP.symm
    have hile : i ≤ 86400 := Int.le_of_dvd (by decide) ⟨P, hP.symm⟩
    have hfirst : ∀ m a : Int, m * 86400 < a * i → m * P < a := by
      intro m a h
      have e : m * 86400 = (m * P) * i := by rw [← hP, Int.mul_assoc, Int.mul_comm P i]
      rw [e] at h
      exact Int.lt_of_mul_lt_mul_right h (by omega)
    have hPle : P ≤ 86400 := Int.le_of_dvd (by decide) ⟨i, by rw [← hP, Int.mul_comm]⟩
    by_cases h1 : i < 900
    · refine ⟨_, _, _, _, day_grid hi hP h1, fun a h => hfirst _ a h, ?_, fun n _ => by
        rw [Int.add_mul]; omega⟩
      intro n hn
      obtain ⟨d, hv, hy, he⟩ := date_of_day hn
      refine ⟨d, hv, hy, ?_, ?_⟩
      · simp only [RegInterval.block, if_pos h1, Block.start]; omega
      · simp only [RegInterval.block, if_pos h1, Block.next]
        rw [C01_julian_consecutive.2 d hv (by omega)]; omega
    · by_cases h2 : i < 86400
      · refine ⟨_, _, _, _, month_grid (i := i) hi hP (by omega) h2, fun a h => hfirst _ a h, ?_, fun n hn => ?_⟩
        rotate_left
        · have hm := month_days hn
          have hP96 : P ≤ 96 := by
            apply Decidable.byContradiction
            intro h
            have := Int.mul_le_mul (show 900 ≤ i by omega) (show 97 ≤ P by omega) (by omega) (by omega)
            omega
          have hP0 : 0 ≤ P := by
            apply Decidable.byContradiction
            intro h
            have := Int.mul_le_mul_of_nonneg_left (show P ≤ -1 by omega) (show 0 ≤ i by omega)
            omega
          rw [← Int.sub_mul]
          have := Int.mul_le_mul hm hP96 hP0 (by omega)
          omega
        intro n hn
        refine ⟨Spec.dayOfMonth n 1, first_valid n, by simp only [Spec.dayOfMonth]; omega, ?_, ?_⟩
        · simp only [RegInterval.block, if_neg h1, if_pos h2, Block.start]; rfl
        · simp only [RegInterval.block, if_neg h1, if_pos h2]
          congr 1
          unfold Block.next Spec.dayOfMonth
          by_cases h : n % 12 + 1 < 12
          · refine Eq.trans ?_ (if_pos h).symm; congr 1 <;> (try simp only) <;> omega
          · refine Eq.trans ?_ (if_neg h).symm; congr 1 <;> (try simp only) <;> omega
      · have : i = 86400 := by omega
        subst this
        refine ⟨_, _, _, _, year_grid, fun a h => ?_, ?_, fun n hn => ?_⟩
        · have : P = 1 := by omega
          subst this; exact hfirst _ a h
        · intro n hn
          exact ⟨⟨n, 1, 1⟩, jan1_valid n, hn, rfl, rfl⟩
        · have := year_days (y := n) (by omega)
          omega
  | period p =>
    refine ⟨_, _, _, _, period_grid p, ?_, ?_, fun n _ => ?_⟩
    · intro a h
      have h : 100 ≤ (p.endDate a).year := h
      rw [endDate_year] at h
      have hp := perYear_pos p
      have := (Int.le_ediv_iff_mul_le (by omega)).1 h
      show perYear p * (blockYears p * (100 / blockYears p)) - 1 < a
      have e : blockYears p * (100 / blockYears p) = 100 := by cases p <;> decide
      rw [e, Int.mul_comm]; omega
    rotate_left
    · cases p <;> simp only [blockYears, perYear] <;> omega
    · intro n hn
      refine ⟨⟨blockYears p * n, 1, 1⟩, jan1_valid _, ?_, ?_, ?_⟩
      · cases p <;> simp only [blockYears] at * <;> omega
      · cases p <;> simp only [blockYears, RegInterval.block, Block.start] <;> congr 2 <;> omega
      · cases p <;> simp only [blockYears, RegInterval.block, Block.next] <;> congr 2 <;> omega

theorem put_eq {V : Type} (m : V → Bool) (x : RegStore V) (s : Int → V) :
    x.put m s = seriesPut m x.flag x.start x.values s := rfl

theorem storeAll_holds {W : Type} [DecidableEq W] [Inhabited W] {cfg : RegCfg W} (hc : CfgOK cfg) {q : Nat}
    {r : RegInterval} {code : Int} {jbOf edge : Int → Int} {n0 : Int}
    (G : Grid r.secs code (r.time julianOf) jbOf edge n0) (hrange : ∀ a, InRange r a → edge n0 < a)
    (hdate : ∀ n, n0 ≤ n → ∃ d : Date, d.Valid ∧ 100 ≤ d.year ∧ jbOf n = julianOf (r.block.start d) ∧
        jbOf (n + 1) = julianOf (r.block.next d)) :
    ∀ (xs : List (RegStore (List W))) (f : RegFile W) (s : Int → List W), (∀ x ∈ xs, StoreOk cfg r q x) →
      FileHolds cfg q jbOf edge n0 f s →
      ∃ f', storeAll cfg r xs f = some f' ∧
        FileHolds cfg q jbOf edge n0 f' (xs.foldl (fun s x => x.put cfg.isMissing s) s) ∧
        ((∀ x ∈ xs, x.qualitySize = 0 ∧ x.flag ≠ 2) → cfg.keepEmpty = false → (∀ n, n0 ≤ n → Tight cfg (f (jbOf n))) →
          ∀ n, n0 ≤ n → Tight cfg (f' (jbOf n))) := by
  intro xs
  induction xs with
  | nil => intro f s _ hf; exact ⟨f, rfl, hf, fun _ _ h => h⟩
  | cons x xs ih =>
    intro f s hx hf
    have ho := hx x (by simp)
    have ha := hrange _ ho.inRange
    have hlen : 1 ≤ x.values.length := by
      have := ho.nonempty
      rcases h : x.values with _ | ⟨v, vs⟩
      · exact absurd h this
      · simp
    have hk : ∀ n, n0 ≤ n → KeepsBlock cfg (r.time julianOf) jbOf edge x.start x.values x.flag n := by
      intro n hn
      unfold KeepsBlock
      rcases ho.notBlank with h | h | h
      · exact Or.inl h
      · exact Or.inr (Or.inl h)
      · obtain ⟨d, hv, hy, e1, e2⟩ := hdate n hn
        by_cases c1 : jbOf n ≤ (r.time julianOf x.start).1
        · exact Or.inr (Or.inr (Or.inl c1))
        · by_cases c2 : (r.time julianOf (x.start + x.values.length - 1)).1 ≤ jbOf (n + 1)
          · exact Or.inr (Or.inr (Or.inr (Or.inl c2)))
          · obtain ⟨k, k1, k2, k3, k4⟩ := h d hv hy (by omega) (by omega)
            refine Or.inr (Or.inr (Or.inr (Or.inr ⟨k, ?_, ?_, k1, k4⟩)))
            · exact G.day_after hn (by omega) (by omega)
            · exact G.day_before (by omega) (by omega) (by omega)
    obtain ⟨f', h1, h2, t1⟩ := holds_store hc G (q := q) (qsz := x.qualitySize) (quals := x.quality) ha ho.nonempty ho.values
      ho.qsize ho.quality ho.both ho.flag hk hf
    obtain ⟨f'', h3, h4, t2⟩ := ih f' _ (fun y hy => hx y (by simp [hy])) h2
    refine ⟨f'', ?_, h4, fun u1 u2 u3 => t2 (fun y hy => u1 y (by simp [hy])) u2 (t1 (u1 x (by simp)).1 u2 (u1 x (by simp)).2 u3)⟩
    unfold storeAll
    rw [h1]
    exact h3

/-- C39. For every regular interval but weeks: after any sequence of stores (of any lengths, with any
storage flags, over any number of blocks), retrieving any window returns one value for every standard
time of the window: the one that the sequence of stores leaves there (see `Spec.regSeries`; missing
where nothing was stored).  Missing: the stores excluded by `StoreOk` and weekly data. -/
theorem C39_series_partial {W : Type} [DecidableEq W] [Inhabited W] {cfg : RegCfg W} (hc : CfgOK cfg) (q : Nat)
    (r : RegInterval) (hr : r.Ok) (stores : List (RegStore (List W))) (hs : ∀ x ∈ stores, StoreOk cfg r q x)
    (a b : Int) (ha : InRange r a) (hab : a ≤ b) :
    ∃ f vals, storeAll cfg r stores (fun _ => none) = some f ∧
      retrieveReg cfg r.secs (r.time julianOf a).1 (r.time julianOf a).2 (r.time julianOf b).1 (r.time julianOf b).2 f = some vals ∧
      (vals.length : Int) = b - a + 1 ∧
      ∀ k : Nat, k < vals.length →
        SameValue cfg.isMissing ((vals[k]?).getD []) (regSeries cfg.isMissing cfg.missing stores (a + k)) := by
  obtain ⟨code, jbOf, edge, n0, G, hrange, hdate, _⟩ := grid_of r hr
  obtain ⟨f, h1, h2, _⟩ := storeAll_holds hc (q := q) G hrange hdate stores (fun _ => none) (fun _ => cfg.missing) hs
    (holds_empty hc q jbOf edge n0)
  obtain ⟨vals, h3, h4, h5⟩ := holds_retrieve hc G (q := q) (hrange a ha) hab h2
  exact ⟨f, vals, h1, h3, h4, h5⟩

/-- The standard times of the specification are what they should be: for fixed intervals the time
number `k` is `k` intervals after the origin, in the form used in files. -/
theorem C39_times (i k : Int) :
    Spec.Normal ((RegInterval.fixed i).time julianOf k) ∧
    Spec.instant ((RegInterval.fixed i).time julianOf k).1 ((RegInterval.fixed i).time julianOf k).2 = k * i := by
  have := fixedTime_facts i k
  exact ⟨⟨this.1, this.2.1⟩, this.2.2⟩

/-- Three months of monthly values over the turn of the decade, then a missing value and a 9 with
flag 4. -/
def sampleStores : List (RegStore (List Int)) :=
  [⟨12 * 2019 + 10, 0, [[5], [6], [7]], [], 0⟩, ⟨12 * 2019 + 11, 0, [[-901], [9]], [], 4⟩]

example : (RegInterval.period .month).Ok ∧ ∀ x ∈ sampleStores, StoreOk sampleCfg (.period .month) 0 x := by
  refine ⟨trivial, ?_⟩
  have hm : ∀ (s n : Int) (d : Date), d.Valid → 100 ≤ d.year → s ≤ 12 * 2019 + 11 → 12 * 2019 + 10 ≤ s → n = s + 2 ∨ n = s + 1 →
      ¬ (((RegInterval.period .month).time julianOf s).1 < julianOf ((RegInterval.period .month).block.start d) ∧
        julianOf ((RegInterval.period .month).block.next d) < ((RegInterval.period .month).time julianOf n).1) := by
    rintro s n d hv hy h1 h2 h3 ⟨h4, h5⟩
    have e : julianOf (Period.month.endDate s) < julianOf (Block.decade.start d) := h4
    have e2 : julianOf (Block.decade.next d) < julianOf (Period.month.endDate n) := h5
    have b1 := julian_before (endDate_facts .month s).1 (Block.start_valid .decade d hv hy).1 (by simp only [endDate_year, perYear]; omega)
      (Block.start_valid .decade d hv hy).2 e
    have b2 := julian_before (jan1_valid _) (endDate_facts .month n).1 (by simp only; omega) (by simp only [endDate_year, perYear]; omega) e2
    unfold Date.before at b1 b2
    have y1 := endDate_year .month s
    have y2 := endDate_year .month n
    simp only [perYear] at y1 y2
    rw [y1] at b1; rw [y2] at b2
    simp only [Block.start] at b1 b2
    have m1 : (Period.month.endDate s).month = s % 12 + 1 := rfl
    omega
  intro x hx
  rcases List.mem_cons.1 hx with rfl | hx
  · exact ⟨by show (100 : Int) ≤ _; decide, by decide, by decide, Or.inl rfl, by decide, by decide, by decide,
      Or.inr (Or.inr (fun d hv hy h4 h5 => absurd ⟨h4, h5⟩ (hm _ _ d hv hy (by decide) (by decide) (by decide))))⟩
  · have := List.mem_singleton.1 hx
    subst this
    exact ⟨by show (100 : Int) ≤ _; decide, by decide, by decide, Or.inl rfl, by decide, by decide, by decide, Or.inr (Or.inl (by decide))⟩

/-- What is read back: November 2019 to February 2020. -/
example : ((storeAll sampleCfg (.period .month) sampleStores (fun _ => none)).bind fun f =>
    retrieveReg sampleCfg 2592000 (julianOf ⟨2019, 11, 30⟩) 86400 (julianOf ⟨2020, 2, 29⟩) 86400 f) =
    some [[5], [6], [9], [-901]] := by decide +kernel

/-- Not C39 for weekly data: four values stored on the Saturdays from 4 January 2020 on; retrieving
from 11 January on returns the value of 4 January, and so on. -/
theorem C39_weekly_violation :
    let stored := storeReg sampleCfg 604800 (julianOf ⟨2020, 1, 4⟩) 86400 0 [[1], [2], [3], [4]] [] 0 (fun _ => none)
    (stored.bind fun f => retrieveReg sampleCfg 604800 (julianOf ⟨2020, 1, 4⟩) 86400 (julianOf ⟨2020, 1, 25⟩) 86400 f) =
      some [[1], [2], [3], [4]] ∧
    (stored.bind fun f => retrieveReg sampleCfg 604800 (julianOf ⟨2020, 1, 11⟩) 86400 (julianOf ⟨2020, 1, 25⟩) 86400 f) =
      some [[1], [2], [3]] := by decide +kernel

/-- Not C39: monthly values over three decades, then the same three decades stored again as missing:
the values of the decade in the middle are still there. -/
theorem C39_blank_block_violation :
    let one : List (List Int) := List.replicate 360 [5]
    let blank : List (List Int) := List.replicate 360 [-901]
    ((storeAll sampleCfg (.period .month) [⟨12 * 1990, 0, one, [], 0⟩, ⟨12 * 1990, 0, blank, [], 0⟩] (fun _ => none)).bind fun f =>
      retrieveReg sampleCfg 2592000 (julianOf ⟨1999, 11, 30⟩) 86400 (julianOf ⟨2000, 2, 29⟩) 86400 f) =
      some [[-901], [-901], [5], [5]] := by decide +kernel

end Hec
