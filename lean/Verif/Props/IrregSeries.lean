import Verif.Proofs.IrregFlags
/-! C46, C47: whole irregular series, stored and retrieved over any number of blocks. -/
namespace Hec
open _root_.Spec (Date Block IrregStore seriesOf Increasing)
set_option maxRecDepth 20000

/-- Run the stores, in order, starting with the file `f`. -/
def irregStoreAll {α : Type} (blockSize : Int) : List (IrregStore α) → IrregFile α → Option (IrregFile α)
  | [], f => some f
  | s :: hist, f => (ztsStoreIrreg f blockSize s.gran s.base s.vals).bind (irregStoreAll blockSize hist)

/-- The stores considered: times in units of `g` seconds, increasing, none of them the undefined time,
all after the start of the year 100; in decade and century blocks all on a minute. -/
structure IrregStoreOk {α : Type} (b : Block) (g : Int) (s : IrregStore α) : Prop where
  gran : s.gran = g
  increasing : Increasing s.vals
  defined : ∀ e ∈ s.vals, s.base ≠ UNDEFINED_TIME ∧ ¬ (s.base = 0 ∧ e.time = 0)
  inRange : ∀ e ∈ s.vals, julianOf ⟨100, 1, 1⟩ * 86400 < s.at e
  minutes : b = .decade ∨ b = .century → ∀ e ∈ s.vals, 60 ∣ s.at e

/-- The instant of a retrieved value. -/
def Retrieved.at {α : Type} (r : Retrieved α) (e : Entry α) : Int := r.base * 86400 + e.time * r.gran

theorem irregStoreAll_ok {α : Type} {b : Block} {a g n0 : Int} {jbOf : Int → Int} (G : BlockGrid b.code jbOf n0)
    (h100 : jbOf n0 = julianOf ⟨100, 1, 1⟩) (hd : ∀ n, n0 ≤ n → b.code < 4 → jbOf (n + 1) - jbOf n + 1 < 370)
    (K : Kind b.code a g) :
    ∀ (hist : List (IrregStore α)) (f : IrregFile α) (S : Int → Option α), (∀ s ∈ hist, IrregStoreOk b g s) →
      FileOK a g b.code jbOf n0 S f →
      ∃ f', irregStoreAll b.code hist f = some f' ∧ FileOK a g b.code jbOf n0 (hist.foldl (fun x s => s.apply x) S) f' := by
  intro hist
  induction hist with
  | nil => intro f S _ hf; exact ⟨f, rfl, hf⟩
  | cons s hist ih =>
    intro f S hs hf
    have ho := hs s (by simp)
    have hal : ∀ e ∈ s.vals, a ∣ s.base * 86400 + e.time * g := by
      intro e he
      have ha := K.a
      by_cases c : b.code < 4
      · rw [if_pos c] at ha; rw [ha]; exact Int.one_dvd _
      · rw [if_neg c] at ha; rw [ha]
        have hb : b = .decade ∨ b = .century := by cases b <;> simp [Block.code] at c ⊢
        have := ho.minutes hb e he
        unfold IrregStore.at at this
        rw [ho.gran] at this; exact this
    have hr : ∀ e ∈ s.vals, jbOf n0 * 86400 < s.base * 86400 + e.time * g := by
      intro e he
      have := ho.inRange e he
      unfold IrregStore.at at this
      rw [ho.gran] at this
      rw [h100]; exact this
    obtain ⟨f1, h1, h2⟩ := store_ok G K hd S f s.vals ho.increasing (fun e he => ⟨hr e he, hal e he⟩)
      (fun e he => ho.defined e he) hf
    have e : over g s.base s.vals S = s.apply S := by
      unfold over; rw [← ho.gran]
    rw [e] at h2
    obtain ⟨f2, h3, h4⟩ := ih f1 (s.apply S) (fun x hx => hs x (by simp [hx])) h2
    refine ⟨f2, ?_, h4⟩
    show (ztsStoreIrreg f b.code s.gran s.base s.vals).bind (irregStoreAll b.code hist) = some f2
    rw [ho.gran, h1]
    exact h3

/-- C46. Irregular series in blocks of any of the five kinds: after any sequence of stores (in the
default, merging mode; any numbers of values, over any numbers of blocks, with any base dates), the
retrieval of any time window returns, in order of time, exactly the values that the sequence of
stores leaves at the instants of the window (`Spec.seriesOf`), each with its instant; whatever base date
and granularity the caller asks for.
Missing: stores of different granularities, seconds in decade and century blocks, a window of century data
that does not start on a minute, the year before 100; `C46_*_violation` shows why. -/
theorem C46_series_partial {α : Type} (b : Block) (g : Int) (hg : g = 1 ∨ g = 60 ∨ g = 3600 ∨ g = 86400)
    (hist : List (IrregStore α)) (hs : ∀ s ∈ hist, IrregStoreOk b g s)
    (w : TimeWindow) (base gran : Int)
    (hw : julianOf ⟨100, 1, 1⟩ ≤ w.startJulian ∧ w.startJulian ≤ w.endJulian)
    (hsec : 1 ≤ w.startTimeSeconds ∧ w.startTimeSeconds ≤ 86400 ∧ 1 ≤ w.endTimeSeconds ∧ w.endTimeSeconds ≤ 86400)
    (hmin : b = .century → 60 ∣ w.startTimeSeconds) :
    ∃ f r, irregStoreAll b.code hist (fun _ => none) = some f ∧
      ztsRetrieveIrreg f b.code w base gran 0 = some r ∧
      Increasing r.entries ∧
      ∀ x v, (∃ e ∈ r.entries, r.at e = x ∧ e.val = v) ↔
        (seriesOf hist x = some v ∧ w.startJulian * 86400 + w.startTimeSeconds ≤ x ∧
          x ≤ w.endJulian * 86400 + w.endTimeSeconds) := by
  obtain ⟨jbOf, n0, G, h100, hd⟩ := block_grid b
  have K : Kind b.code (if b.code < 4 then 1 else 60) g := by
    refine ⟨?_, ?_, hg, rfl⟩ <;> cases b <;> decide
  have h0 : FileOK (if b.code < 4 then 1 else 60) g b.code jbOf n0 (fun _ => (none : Option α)) (fun _ => none) := by
    intro n hn x _ _; rfl
  obtain ⟨f, h1, h2⟩ := irregStoreAll_ok G h100 hd K hist _ _ hs h0
  have hy : julianOf ⟨100, 1, 1⟩ > UNDEFINED_TIME := by decide
  have hal : unitOf b.code ∣ w.startTimeSeconds := by
    unfold unitOf
    by_cases c : b.code < 5
    · rw [if_pos c]; exact Int.one_dvd _
    · rw [if_neg c]; exact hmin (by cases b <;> simp [Block.code] at c ⊢)
  obtain ⟨r, r1, r2, r3⟩ := retrieve_plain G K h2 w base gran hsec.1 hsec.2.1 hsec.2.2.1 hsec.2.2.2
    (by rw [h100]; exact hw.1) hw.2 ⟨by omega, by omega⟩ ⟨by omega, by omega⟩ hal
  exact ⟨f, r, h1, r1, r2, r3⟩

/-- The hypotheses can be met: two stores in minutes, with different base dates, the second of which
crosses the end of a decade and replaces the value at 22:00 of 31 December 1999 (day 36524). -/
def exampleHist : List (IrregStore Nat) :=
  [⟨60, 36524, [⟨60, 1⟩, ⟨1320, 2⟩]⟩, ⟨60, 0, [⟨36524 * 1440 + 1320, 3⟩, ⟨36524 * 1440 + 1440, 4⟩, ⟨36525 * 1440 + 5, 5⟩]⟩]

theorem C46_example_hyps : ∀ s ∈ exampleHist, IrregStoreOk .decade 60 s := by
  intro s hs
  simp only [exampleHist, List.mem_cons, List.not_mem_nil, or_false] at hs
  rcases hs with rfl | rfl
  all_goals
    refine ⟨rfl, ?_, ?_, ?_, ?_⟩
    · unfold Increasing; decide
    · decide
    · decide
    · intro _; decide

theorem C46_example :
    (irregStoreAll 4 exampleHist (fun _ => none)).bind
      (fun f => (ztsRetrieveIrreg f 4 ⟨36524, 3600, 36525, 600⟩ 0 0 0).map (fun r => r.entries.map (fun e => (r.at e, e.val)))) =
      some [(36524 * 86400 + 3600, 1), (36524 * 86400 + 22 * 3600, 3), (36525 * 86400, 4), (36525 * 86400 + 300, 5)] := by
  decide +kernel

/-- The violation in decade blocks with seconds: after 1500 values, one a second, in a decade block,
and one more store of a single value an hour later, all but the first of the 1500 values are gone. -/
def denseHist : List (IrregStore Nat) :=
  [⟨1, 36600, (List.range 1500).map (fun i : Nat => ⟨(i : Int) + 1, i⟩)⟩, ⟨1, 36600, [⟨3600, 7⟩]⟩]

theorem C46_dense_decade_violation :
    (irregStoreAll 4 denseHist (fun _ => none)).bind
      (fun f => (ztsRetrieveIrreg f 4 ⟨36600, 1, 36600, 86400⟩ 0 0 0).map (fun r => r.entries.map (fun e => (r.at e, e.val)))) =
      some [(36600 * 86400 + 1, 0), (36600 * 86400 + 3600, 7)] := by
  decide +kernel

/-- Stores of different granularities: the retrieval uses the granularity of the first record, here
minutes; the value stored in the next block at 30 seconds past 00:10 is returned at 00:10. -/
theorem C46_granularity_violation :
    (irregStoreAll 3 [(⟨60, 36524, [⟨60, 1⟩]⟩ : IrregStore Nat), ⟨1, 36525, [⟨630, 2⟩]⟩] (fun _ => none)).bind
      (fun f => (ztsRetrieveIrreg f 3 ⟨36524, 1, 36525, 86400⟩ 0 0 0).map (fun r => r.entries.map (fun e => (r.at e, e.val)))) =
      some [(36524 * 86400 + 3600, 1), (36525 * 86400 + 600, 2)] := by
  decide +kernel

/-- Century data, a window that starts at 30 seconds past 01:00: the value of 01:00 is returned. -/
theorem C46_century_window_violation :
    (irregStoreAll 5 [(⟨60, 36524, [⟨60, 1⟩, ⟨90, 2⟩]⟩ : IrregStore Nat)] (fun _ => none)).bind
      (fun f => (ztsRetrieveIrreg f 5 ⟨36524, 3630, 36524, 86400⟩ 0 0 0).map (fun r => r.entries.map (fun e => (r.at e, e.val)))) =
      some [(36524 * 86400 + 3600, 1), (36524 * 86400 + 5400, 2)] := by
  decide +kernel

/-! ### C47: the previous and the next value -/

/-- The instants of the block that holds the date `d`. -/
def inBlockOf (b : Block) (d : Date) (x : Int) : Prop :=
  julianOf (b.start d) * 86400 < x ∧ x ≤ julianOf (b.next d) * 86400

/-- The last value of the series before the instant `ws`. -/
def IsPrevious {α : Type} (S : Int → Option α) (ws x : Int) : Prop := x < ws ∧ ∀ y, S y ≠ none → y < ws → y ≤ x

/-- The first value of the series after the instant `we`. -/
def IsNext {α : Type} (S : Int → Option α) (we x : Int) : Prop := we < x ∧ ∀ y, S y ≠ none → we < y → x ≤ y

theorem next_valid {b : Block} {d : Date} (hv : d.Valid) (hy : 100 ≤ d.year) : (b.next d).Valid ∧ 100 ≤ (b.next d).year := by
  have h28 : ∀ y m : Int, 28 ≤ Spec.monthLen y m := monthLen_ge
  obtain ⟨y, m, k⟩ := d
  unfold Date.Valid at hv ⊢
  simp only at hv hy
  cases b
  · unfold Block.next Date.next
    simp only
    by_cases c : k < Spec.monthLen y m
    · rw [if_pos c]; simp only; omega
    · rw [if_neg c]
      by_cases c' : m < 12
      · rw [if_pos c']; have := h28 y (m + 1); simp only; omega
      · rw [if_neg c']; have := h28 (y + 1) 1; simp only; omega
  · unfold Block.next
    simp only
    by_cases c' : m < 12
    · rw [if_pos c']; have := h28 y (m + 1); simp only; omega
    · rw [if_neg c']; have := h28 (y + 1) 1; simp only; omega
  · unfold Block.next; simp only; have := h28 (y + 1) 1; omega
  · unfold Block.next; simp only; have := h28 (y / 10 * 10 + 10) 1; omega
  · unfold Block.next; simp only; have := h28 (y / 100 * 100 + 100) 1; omega

theorem series_range {α : Type} {b : Block} {g : Int} :
    ∀ (hist : List (IrregStore α)), (∀ s ∈ hist, IrregStoreOk b g s) → ∀ S : Int → Option α,
      (∀ x, S x ≠ none → julianOf ⟨100, 1, 1⟩ * 86400 < x) →
      ∀ x, hist.foldl (fun x s => s.apply x) S x ≠ none → julianOf ⟨100, 1, 1⟩ * 86400 < x := by
  intro hist
  induction hist with
  | nil => intro _ S h; exact h
  | cons s hist ih =>
    intro hs S h
    refine ih (fun t ht => hs t (by simp [ht])) (s.apply S) ?_
    intro x hx
    unfold IrregStore.apply at hx
    cases hf : s.vals.find? (fun e => decide (s.at e = x)) with
    | none => rw [hf] at hx; exact h x hx
    | some e =>
      have h1 := List.mem_of_find?_eq_some hf
      have h2 := List.find?_some hf
      simp only [decide_eq_true_eq] at h2
      rw [← h2]
      exact (hs s (by simp)).inRange e h1

/-- C47. Retrieval with the flag for the previous value (1), the next value (2) or both (3), after any
sequence of stores: the values of the window and, in addition,
with flag 1 or 3 the previous value `x`, when it lies in the block of the start of the window and that
block has a value in the window, or when it lies in the block before and the block of the start has a
value;
with flag 2 or 3 the next value likewise.  Nothing else is returned.  `d1`, `d2` are the days of the
ends of the window, `p` is the last day of the block before that of `d1`.
Partial: when the conditions fail, the previous or next value exists and is not returned, see
`C47_*_violation`. -/
theorem C47_previous_next_partial {α : Type} (b : Block) (g : Int) (hg : g = 1 ∨ g = 60 ∨ g = 3600 ∨ g = 86400)
    (hist : List (IrregStore α)) (hs : ∀ s ∈ hist, IrregStoreOk b g s)
    (d1 d2 p : Date) (t1 t2 base gran flag : Int) (hflag : 0 ≤ flag ∧ flag ≤ 3)
    (hd1 : d1.Valid ∧ 100 ≤ d1.year) (hd2 : d2.Valid ∧ 100 ≤ d2.year)
    (hp : p.Valid ∧ 100 ≤ p.year ∧ p.next = b.start d1)
    (hsec : 1 ≤ t1 ∧ t1 ≤ 86400 ∧ 1 ≤ t2 ∧ t2 ≤ 86400)
    (hle : julianOf d1 * 86400 + t1 ≤ julianOf d2 * 86400 + t2)
    (hmin : b = .century → 60 ∣ t1) :
    ∃ f r, irregStoreAll b.code hist (fun _ => none) = some f ∧
      ztsRetrieveIrreg f b.code ⟨julianOf d1, t1, julianOf d2, t2⟩ base gran flag = some r ∧
      Increasing r.entries ∧
      let S := seriesOf hist
      let ws := julianOf d1 * 86400 + t1
      let we := julianOf d2 * 86400 + t2
      ∀ x v, (∃ e ∈ r.entries, r.at e = x ∧ e.val = v) ↔
        (S x = some v ∧
          ((ws ≤ x ∧ x ≤ we) ∨
           ((flag = 1 ∨ flag = 3) ∧ IsPrevious S ws x ∧
             ((inBlockOf b d1 x ∧ ∃ y, inBlockOf b d1 y ∧ S y ≠ none ∧ ws ≤ y ∧ y ≤ we) ∨
              (inBlockOf b p x ∧ ∃ y, inBlockOf b d1 y ∧ S y ≠ none))) ∨
           ((flag = 2 ∨ flag = 3) ∧ IsNext S we x ∧
             ((inBlockOf b d2 x ∧ ∃ y, inBlockOf b d2 y ∧ S y ≠ none ∧ ws ≤ y ∧ y ≤ we) ∨
              (inBlockOf b (b.next d2) x ∧ ∃ y, inBlockOf b d2 y ∧ S y ≠ none))))) := by
  obtain ⟨jbOf, n0, G, h100, hd⟩ := block_grid b
  have K : Kind b.code (if b.code < 4 then 1 else 60) g := by
    refine ⟨?_, ?_, hg, rfl⟩ <;> cases b <;> decide
  have h0 : FileOK (if b.code < 4 then 1 else 60) g b.code jbOf n0 (fun _ => (none : Option α)) (fun _ => none) := by
    intro n hn x _ _; rfl
  obtain ⟨f, h1, h2⟩ := irregStoreAll_ok G h100 hd K hist _ _ hs h0
  have hy : julianOf ⟨100, 1, 1⟩ > UNDEFINED_TIME + 1 := by decide
  have hal : unitOf b.code ∣ t1 := by
    unfold unitOf
    by_cases c : b.code < 5
    · rw [if_pos c]; exact Int.one_dvd _
    · rw [if_neg c]; exact hmin (by cases b <;> simp [Block.code] at c ⊢)
  -- numbers of blocks
  have hblock : ∀ d : Date, d.Valid → 100 ≤ d.year → ∃ n, n0 ≤ n ∧ jbOf n = julianOf (b.start d) ∧ jbOf (n + 1) = julianOf (b.next d) ∧
      jbOf n ≤ julianOf d ∧ julianOf d < jbOf (n + 1) := by
    intro d hv hyd
    have hge : jbOf n0 ≤ julianOf d := by
      rw [h100]
      rcases Int.lt_or_le (julianOf d) (julianOf ⟨100, 1, 1⟩) with c | c
      · exfalso
        have hb := (C01_julian_order d ⟨100, 1, 1⟩ hv (jan1_valid _) (by omega) (by decide)).1 c
        have h1 := hv.1
        have h2 := hv.2.2.1
        unfold Date.before at hb
        simp only at hb
        omega
      · exact c
    obtain ⟨n, hn, a, c⟩ := G.onto hge
    have e := G.block n _ hn a c
    rw [C12_irreg_block_start b d hv (by omega)] at e
    refine ⟨n, hn, e.symm, ?_, a, c⟩
    rw [← G.next n hn, ← e, C12_step_forward b d hv hyd]
  obtain ⟨n1, hn1, x1, y1, a1, b1⟩ := hblock d1 hd1.1 hd1.2
  obtain ⟨n2, hn2, x2, y2, a2, b2⟩ := hblock d2 hd2.1 hd2.2
  obtain ⟨m, hm, x3, y3, a3, b3⟩ := hblock p hp.1 hp.2.1
  have hq := next_valid (b := b) hd2.1 hd2.2
  obtain ⟨q, hq', x4, y4, a4, b4⟩ := hblock (b.next d2) hq.1 hq.2
  have e1 : m = n1 - 1 := by
    have e := C01_julian_consecutive.2 p hp.1 (by omega)
    rw [hp.2.2, ← x1] at e
    have k1 : n1 ≤ m + 1 := (G.le_iff hn1 (by omega)).1 (by omega)
    have k2 : m < n1 := by
      rcases Int.lt_or_le m n1 with c | c
      · exact c
      · have := G.mono_le (m := n1) (n := m) hn1 c; omega
    omega
  subst e1
  have e2 : q = n2 + 1 := by
    have k1 : n2 + 1 ≤ q := by
      rcases Int.lt_or_le q (n2 + 1) with c | c
      · have := G.mono_le (m := q + 1) (n := n2 + 1) (by omega) (by omega); omega
      · exact c
    have k2 : q ≤ n2 + 1 := (G.le_iff hq' (by omega)).1 (by omega)
    omega
  subst e2
  have e3 : n1 - 1 + 1 = n1 := by omega
  rw [e3] at y3
  obtain ⟨r, r1, r2, r3⟩ := retrieve_flags G K (by rw [h100]; exact hy) h2 ⟨julianOf d1, t1, julianOf d2, t2⟩ base gran flag hflag
    hsec.1 hsec.2.1 hsec.2.2.1 hsec.2.2.2 hle hn1 a1 b1 hn2 a2 b2 (fun _ => hm) hal
  refine ⟨f, r, h1, r1, r2, ?_⟩
  intro S ws we x v
  have hr := series_range hist hs (fun _ => none) (fun x h => absurd rfl h)
  rw [← h100] at hr
  show (∃ e ∈ r.entries, r.base * 86400 + e.time * r.gran = x ∧ e.val = v) ↔ _
  rw [r3]
  have hx4 : jbOf (n2 + 1) = julianOf (b.start (b.next d2)) := x4
  have i1 : InB (jbOf n1) (jbOf (n1 + 1)) = inBlockOf b d1 := by funext z; unfold InB inBlockOf; rw [x1, y1]
  have i2 : InB (jbOf n2) (jbOf (n2 + 1)) = inBlockOf b d2 := by funext z; unfold InB inBlockOf; rw [x2, y2]
  have i3 : InB (jbOf (n1 - 1)) (jbOf n1) = inBlockOf b p := by funext z; unfold InB inBlockOf; rw [x3, y3]
  have i4 : InB (jbOf (n2 + 1)) (jbOf (n2 + 1 + 1)) = inBlockOf b (b.next d2) := by
    funext z; unfold InB inBlockOf; rw [hx4, y4]
  have pI : ∀ x, (x < ws ∧ (∀ y, jbOf n0 * 86400 < y → S y ≠ none → y < ws → y ≤ x)) ↔ IsPrevious S ws x := fun x =>
    ⟨fun h => ⟨h.1, fun y hy hw => h.2 y (hr y hy) hy hw⟩, fun h => ⟨h.1, fun y _ hy hw => h.2 y hy hw⟩⟩
  have nI : ∀ x, (we < x ∧ (∀ y, jbOf n0 * 86400 < y → S y ≠ none → we < y → x ≤ y)) ↔ IsNext S we x := fun x =>
    ⟨fun h => ⟨h.1, fun y hy hw => h.2 y (hr y hy) hy hw⟩, fun h => ⟨h.1, fun y _ hy hw => h.2 y hy hw⟩⟩
  have hP : PrevRet S jbOf n0 n1 ws we x ↔ IsPrevious S ws x ∧
      ((inBlockOf b d1 x ∧ ∃ y, inBlockOf b d1 y ∧ S y ≠ none ∧ ws ≤ y ∧ y ≤ we) ∨
        (inBlockOf b p x ∧ ∃ y, inBlockOf b d1 y ∧ S y ≠ none)) := by
    unfold PrevRet HasIn Has
    rw [i1, i3, ← pI, and_assoc]
  have hN : NextRet S jbOf n0 n2 ws we x ↔ IsNext S we x ∧
      ((inBlockOf b d2 x ∧ ∃ y, inBlockOf b d2 y ∧ S y ≠ none ∧ ws ≤ y ∧ y ≤ we) ∨
        (inBlockOf b (b.next d2) x ∧ ∃ y, inBlockOf b d2 y ∧ S y ≠ none)) := by
    unfold NextRet HasIn Has
    rw [i2, i4, ← nI, and_assoc]
  rw [← hP, ← hN]
  exact Iff.rfl

/-- The hypotheses can be met, and the values are found: the history of `C46_example`, the window from
22:00 of 31 December 1999 to 24:00, both flags: the value of 01:00 and that of 00:05 are added. -/
theorem C47_example :
    (⟨1989, 12, 31⟩ : Date).next = Block.decade.start ⟨1999, 12, 31⟩ ∧ julianOf ⟨1999, 12, 31⟩ = 36524 ∧
    (irregStoreAll 4 exampleHist (fun _ => none)).bind
      (fun f => (ztsRetrieveIrreg f 4 ⟨36524, 79200, 36524, 86400⟩ 0 0 3).map (fun r => r.entries.map (fun e => (r.at e, e.val)))) =
      some [(36524 * 86400 + 3600, 1), (36524 * 86400 + 22 * 3600, 3), (36525 * 86400, 4), (36525 * 86400 + 300, 5)] := by
  decide +kernel

/-- A window between two values of one block, with both flags: the value before and the value after
exist and are not returned. -/
theorem C47_empty_window_violation :
    (irregStoreAll 4 exampleHist (fun _ => none)).bind
      (fun f => (ztsRetrieveIrreg f 4 ⟨36524, 7200, 36524, 10800⟩ 0 0 3).map (fun r => r.entries.map (fun e => (r.at e, e.val)))) =
      some [] := by
  decide +kernel

/-- The window lies in a block without values: the previous value, in the block before, is not
returned. -/
theorem C47_empty_block_violation :
    (irregStoreAll 4 exampleHist (fun _ => none)).bind
      (fun f => (ztsRetrieveIrreg f 4 ⟨julianOf ⟨2015, 1, 1⟩, 1, julianOf ⟨2015, 1, 2⟩, 86400⟩ 0 0 1).map (fun r => r.entries.map (fun e => (r.at e, e.val)))) =
      some [] := by
  decide +kernel

end Hec
