import Verif.Proofs.RegTight
/-! Regular series over many blocks. -/
namespace Hec
open _root_.Spec (SameValue replaces regStored)

/-- What the store and retrieve loops need to know about an interval: the standard times are numbered
(`timeAt`), block `n` starts on day `jbOf n` and holds the times after number `edge n` up to
`edge (n + 1)`. -/
structure Grid (i code : Int) (timeAt : Int → Int × Int) (jbOf edge : Int → Int) (n0 : Int) : Prop where
  notWeek : i ≠ SECS_IN_1_WEEK
  np : ∀ a b, edge n0 ≤ a → edge n0 ≤ b →
    numberPeriods i (timeAt a).1 (timeAt a).2 (timeAt b).1 (timeAt b).2 = b - a
  inc : ∀ a n, edge n0 < a → 0 ≤ n → incrementTime i n (timeAt a).1 (timeAt a).2 = timeAt (a + n)
  std : ∀ a, edge n0 < a → (ztsOffsetAdjustToStandard i (timeAt a).1 (timeAt a).2).2 = timeAt a
  edgeTime : ∀ n, n0 ≤ n → timeAt (edge n) = (jbOf n - 1, 86400)
  edgeLt : ∀ n, n0 ≤ n → edge n < edge (n + 1)
  jbLt : ∀ n, n0 ≤ n → jbOf n < jbOf (n + 1)
  next : ∀ n, n0 ≤ n → ztsIncrementBlock (jbOf n) code = jbOf (n + 1)
  block : ∀ n a, n0 ≤ n → edge n < a → a ≤ edge (n + 1) →
    ztsRegGetBlockStart (timeAt a).1 i = (jbOf n, code) ∧ jbOf n ≤ (timeAt a).1 ∧ (timeAt a).1 < jbOf (n + 1)

variable {i code : Int} {timeAt : Int → Int × Int} {jbOf edge : Int → Int} {n0 : Int}

theorem Grid.jb_mono (G : Grid i code timeAt jbOf edge n0) {m n : Int} (hm : n0 ≤ m) (h : m < n) :
    jbOf m < jbOf n := by
  obtain ⟨k, rfl⟩ : ∃ k : Nat, n = m + 1 + k := ⟨(n - m - 1).toNat, by omega⟩
  clear h
  induction k with
  | zero => simpa using G.jbLt m hm
  | succ k ih =>
    have := G.jbLt (m + 1 + k) (by omega)
    have e : m + 1 + ((k + 1 : Nat) : Int) = m + 1 + k + 1 := by omega
    rw [e]; omega

theorem Grid.edge_mono (G : Grid i code timeAt jbOf edge n0) {m n : Int} (hm : n0 ≤ m) (h : m < n) :
    edge m < edge n := by
  obtain ⟨k, rfl⟩ : ∃ k : Nat, n = m + 1 + k := ⟨(n - m - 1).toNat, by omega⟩
  clear h
  induction k with
  | zero => simpa using G.edgeLt m hm
  | succ k ih =>
    have := G.edgeLt (m + 1 + k) (by omega)
    have e : m + 1 + ((k + 1 : Nat) : Int) = m + 1 + k + 1 := by omega
    rw [e]; omega

theorem Grid.edge_le (G : Grid i code timeAt jbOf edge n0) {m n : Int} (hm : n0 ≤ m) (h : m ≤ n) :
    edge m ≤ edge n := by
  rcases Int.lt_or_eq_of_le h with h1 | h1
  · have := G.edge_mono hm h1; omega
  · rw [h1]; omega

theorem Grid.jb_le (G : Grid i code timeAt jbOf edge n0) {m n : Int} (hm : n0 ≤ m) (h : m ≤ n) :
    jbOf m ≤ jbOf n := by
  rcases Int.lt_or_eq_of_le h with h1 | h1
  · have := G.jb_mono hm h1; omega
  · rw [h1]; omega

theorem Grid.find (G : Grid i code timeAt jbOf edge n0) {a : Int} (ha : edge n0 < a) :
    ∃ n, n0 ≤ n ∧ edge n < a ∧ a ≤ edge (n + 1) := by
  obtain ⟨k, rfl⟩ : ∃ k : Nat, a = edge n0 + 1 + k := ⟨(a - edge n0 - 1).toNat, by omega⟩
  clear ha
  induction k with
  | zero => exact ⟨n0, by omega, by omega, by have := G.edgeLt n0 (by omega); omega⟩
  | succ k ih =>
    obtain ⟨n, h1, h2, h3⟩ := ih
    by_cases h : edge n0 + 1 + ((k + 1 : Nat) : Int) ≤ edge (n + 1)
    · exact ⟨n, h1, by omega, h⟩
    · exact ⟨n + 1, by omega, by omega, by have := G.edgeLt (n + 1) (by omega); omega⟩

/-- Days before a block come before its times. -/
theorem Grid.day_before (G : Grid i code timeAt jbOf edge n0) {n a : Int} (hn : n0 ≤ n) (ha : edge n0 < a)
    (h : (timeAt a).1 < jbOf n) : a ≤ edge n := by
  apply Decidable.byContradiction
  intro hc
  obtain ⟨m, h1, h2, h3⟩ := G.find ha
  have hb := (G.block m a h1 h2 h3).2
  have hmn : n ≤ m := by
    apply Decidable.byContradiction
    intro hlt
    have := G.edge_le (m := m + 1) (n := n) (by omega) (by omega)
    omega
  have := G.jb_le hn hmn
  omega

theorem Grid.day_after (G : Grid i code timeAt jbOf edge n0) {n a : Int} (hn : n0 ≤ n) (ha : edge n0 < a)
    (h : jbOf n ≤ (timeAt a).1) : edge n < a := by
  apply Decidable.byContradiction
  intro hc
  obtain ⟨m, h1, h2, h3⟩ := G.find ha
  have hb := (G.block m a h1 h2 h3).2
  have hmn : m < n := by
    apply Decidable.byContradiction
    intro hlt
    have := G.edge_le (m := n) (n := m) (by omega) (by omega)
    omega
  have := G.jb_le (m := m + 1) (n := n) (by omega) (by omega)
  omega

/-- Number of values in block `n`. -/
def nibOf (edge : Int → Int) (n : Int) : Nat := (edge (n + 1) - edge n).toNat

/-- The series after storing `vals` from index `a`. -/
def seriesPut {V : Type} (isMissing : V → Bool) (flag : Int) (a : Int) (vals : List V) (s : Int → V)
    (k : Int) : V :=
  match (if a ≤ k then vals[(k - a).toNat]? else none) with
  | none => s k
  | some v => if replaces isMissing flag (s k) v then v else s k

/-- The record of block `n` holds the series `s`. -/
def BlockHolds {W : Type} [DecidableEq W] [Inhabited W] (cfg : RegCfg W) (q : Nat) (edge : Int → Int) (n : Int)
    (rec : Option (RegRec W)) (s : Int → List W) : Prop :=
  RegOK cfg (nibOf edge n) q rec ∧
    ∀ p : Nat, p < nibOf edge n → SameValue cfg.isMissing (readValue cfg rec p) (s (edge n + 1 + p))

theorem sameValue_missing {V : Type} {m : V → Bool} {a b : V} (h : SameValue m a b) : m a = m b := by
  rcases h with h | h
  · rw [h]
  · rw [h.1, h.2]

theorem sameValue_trans {V : Type} {m : V → Bool} {a b c : V} (h : SameValue m a b) (h2 : SameValue m b c) :
    SameValue m a c := by
  rcases h with h | h
  · rw [h]; exact h2
  · right
    exact ⟨h.1, by rw [← sameValue_missing h2]; exact h.2⟩

theorem replaces_congr {V : Type} {m : V → Bool} {flag : Int} {a b v : V} (h : SameValue m a b) :
    replaces m flag a v = replaces m flag b v := by
  unfold replaces; rw [sameValue_missing h]

/-- The situation of `Forgotten` cannot arise for block `n` of this store. -/
def KeepsBlock {W : Type} (cfg : RegCfg W) (timeAt : Int → Int × Int) (jbOf edge : Int → Int)
    (a : Int) (vals : List (List W)) (flag : Int) (n : Int) : Prop :=
  cfg.keepEmpty = true ∨ flag ≠ 0 ∨ jbOf n ≤ (timeAt a).1 ∨ (timeAt (a + vals.length - 1)).1 ≤ jbOf (n + 1) ∨
    ∃ k : Nat, edge n < a + k ∧ a + k ≤ edge (n + 1) ∧ k < vals.length ∧
      cfg.isMissing ((vals[k]?).getD []) = false

theorem store_block {W : Type} [DecidableEq W] [Inhabited W] {cfg : RegCfg W} (hc : CfgOK cfg) {q : Nat}
    (G : Grid i code timeAt jbOf edge n0) {n a : Int} {c : Nat} {qsz : Nat} {vals quals : List (List W)} {flag : Int}
    {rec : Option (RegRec W)} {s : Int → List W} (hn : n0 ≤ n) (ha : edge n0 < a)
    (hv : ∀ e ∈ vals, e.length = cfg.vsz) (hqs : qsz = 0 ∨ qsz = q) (hql : ∀ e ∈ quals, e.length = qsz)
    (hqn : 0 < qsz → quals.length = vals.length) (hfl : 0 ≤ flag ∧ flag ≤ 4)
    (hcur : (c = 0 ∧ edge n < a) ∨ a + c = edge n + 1) (hc1 : edge n < a + c) (hc2 : a + c ≤ edge (n + 1))
    (hcl : c < vals.length) (hk : KeepsBlock cfg timeAt jbOf edge a vals flag n)
    (hrec : BlockHolds cfg q edge n rec s) :
    let number : Int := if (vals.length : Int) - c < edge (n + 1) - (a + c) + 1 then (vals.length : Int) - c else edge (n + 1) - (a + c) + 1
    let rb := !((((timeAt a).1 < jbOf n && (timeAt (a + vals.length - 1)).1 > jbOf (n + 1))) && (flag = 0 || flag = 2))
    BlockHolds cfg q edge n ((regStoreBlock cfg rec qsz (nibOf edge n) (a + c - edge n - 1).toNat
      ((vals.drop c).take number.toNat) ((quals.drop c).take number.toNat) rb flag).apply rec)
      (seriesPut cfg.isMissing flag a vals s) ∧
    (qsz = 0 → cfg.keepEmpty = false → flag ≠ 2 → Tight cfg rec →
      Tight cfg ((regStoreBlock cfg rec qsz (nibOf edge n) (a + c - edge n - 1).toNat
        ((vals.drop c).take number.toNat) ((quals.drop c).take number.toNat) rb flag).apply rec)) := by
  intro number rb
  have hnd : number = if (vals.length : Int) - c < edge (n + 1) - (a + c) + 1 then (vals.length : Int) - c else edge (n + 1) - (a + c) + 1 := rfl
  clear_value number
  have hnum : 1 ≤ number ∧ number ≤ (vals.length : Int) - c ∧ number ≤ edge (n + 1) - (a + c) + 1 ∧
      (number = (vals.length : Int) - c ∨ number = edge (n + 1) - (a + c) + 1) := by
    by_cases h : (vals.length : Int) - c < edge (n + 1) - (a + c) + 1
    · rw [if_pos h] at hnd; omega
    · rw [if_neg h] at hnd; omega
  generalize hN : number.toNat = N
  have hNi : number = N := by omega
  have hnib : ((nibOf edge n : Nat) : Int) = edge (n + 1) - edge n := by unfold nibOf; omega
  generalize hpos : (a + c - edge n - 1).toNat = pos
  have hposi : (pos : Int) = a + c - edge n - 1 := by omega
  have hXl : ((vals.drop c).take N).length = N := by simp; omega
  have hXg : ∀ j : Nat, j < N → ((vals.drop c).take N)[j]? = vals[c + j]? := by
    intro j hj; rw [List.getElem?_take_of_lt hj, List.getElem?_drop]
  have hQg : ∀ j : Nat, j < N → ((quals.drop c).take N)[j]? = quals[c + j]? := by
    intro j hj; rw [List.getElem?_take_of_lt hj, List.getElem?_drop]
  have hfull : rb = false → (flag = 0 ∨ flag = 2) ∧ pos = 0 ∧ N = nibOf edge n := by
    intro h
    simp only [rb, Bool.not_eq_false', Bool.and_eq_true, Bool.or_eq_true, decide_eq_true_eq] at h
    obtain ⟨⟨h1, h2⟩, h3⟩ := h
    have e1 := G.day_before hn ha h1
    have e2 := G.day_after (n := n + 1) (a := a + vals.length - 1) (by omega) (by omega) (by omega)
    exact ⟨h3, by omega, by omega⟩
  have hsa : StoreArgs cfg (nibOf edge n) q qsz pos ((vals.drop c).take N) ((quals.drop c).take N) rb flag := by
    refine ⟨?_, ?_, hqs, ?_, ?_, by rw [hXl]; omega, hfl, ?_⟩
    · intro h; rw [h] at hXl; simp at hXl; omega
    · intro e he; exact hv e (List.mem_of_mem_drop (List.mem_of_mem_take he))
    · intro e he; exact hql e (List.mem_of_mem_drop (List.mem_of_mem_take he))
    · intro h; rw [hXl]; simp [hqn h]; omega
    · intro h; rw [hXl]; exact hfull h
  have hno : ¬ Forgotten cfg rec qsz ((vals.drop c).take N) ((quals.drop c).take N) rb flag := by
    rintro ⟨f1, f2, f3, f4, f5, f6⟩
    obtain ⟨g1, g2, g3⟩ := hfull f1
    rcases hk with h | h | h | h | ⟨k, k1, k2, k3, k4⟩
    · rw [f5] at h; cases h
    · omega
    · simp only [rb, Bool.not_eq_false', Bool.and_eq_true, Bool.or_eq_true, decide_eq_true_eq] at f1; omega
    · simp only [rb, Bool.not_eq_false', Bool.and_eq_true, Bool.or_eq_true, decide_eq_true_eq] at f1; omega
    · have : c ≤ k ∧ k - c < N := by omega
      have hm := f3 (((vals[k]?).getD [])) (by
        rw [List.getElem?_eq_getElem k3]
        apply List.mem_of_getElem? (i := k - c)
        rw [hXg _ this.2, show c + (k - c) = k by omega, List.getElem?_eq_getElem k3]
        rfl)
      rw [k4] at hm; cases hm
  obtain ⟨hok, hs⟩ := hrec
  obtain ⟨f, g, hvw⟩ := view_exists hc hok
  obtain ⟨hok', f', g', hvw', h1, h2⟩ := regStoreBlock_spec hc hok hvw hsa hno
  refine ⟨⟨hok', ?_⟩, ?_⟩
  rotate_left
  · intro e1 e2 e3 e4
    subst e1
    exact regStoreBlock_tight hc hok hsa e2 e3 e4
  intro p hp
  rw [view_readValue hvw']
  refine sameValue_trans (h1 p hp) ?_
  have hsp := hs p hp
  rw [view_readValue hvw] at hsp
  unfold regStored seriesPut
  by_cases hin : pos ≤ p ∧ p < pos + N
  · rw [if_pos hin.1, hXg _ (by omega), if_pos (by omega)]
    rw [show (edge n + 1 + (p : Int) - a).toNat = c + (p - pos) by omega]
    rw [List.getElem?_eq_getElem (by omega)]
    simp only
    rw [replaces_congr hsp]
    split
    · exact Or.inl rfl
    · exact hsp
  · have e1 : (if pos ≤ p then ((vals.drop c).take N)[p - pos]? else none) = none := by
      split
      · rw [List.getElem?_eq_none]; rw [hXl]; omega
      · rfl
    have e2 : (if a ≤ edge n + 1 + (p : Int) then vals[(edge n + 1 + (p : Int) - a).toNat]? else none) = none := by
      split
      · rw [List.getElem?_eq_none]; omega
      · rfl
    rw [e1, e2]
    exact hsp

/-- The window of times `a` to `b`. -/
def gridWindow (i code : Int) (timeAt : Int → Int × Int) (jbOf : Int → Int) (a b na nb : Int) : RegWindow :=
  ⟨i, (timeAt a).1, (timeAt a).2, (timeAt b).1, (timeAt b).2, jbOf na, jbOf nb, code⟩

theorem Grid.numberInBlock (G : Grid i code timeAt jbOf edge n0) {a b na nb n : Int} (hn : n0 ≤ n) :
    Hec.numberInBlock (gridWindow i code timeAt jbOf a b na nb) (jbOf n) = edge (n + 1) - edge n := by
  unfold Hec.numberInBlock gridWindow
  simp only
  rw [G.next n hn]
  have h1 := G.edgeTime n hn
  have h2 := G.edgeTime (n + 1) (by omega)
  have h := G.np (edge n) (edge (n + 1)) (G.edge_le (by omega) hn) (G.edge_le (by omega) (by omega))
  rw [h1, h2] at h
  exact h

theorem Grid.blockStart (G : Grid i code timeAt jbOf edge n0) {a b na nb n c : Int} (hn : n0 ≤ n)
    (ha : edge n0 < a) :
    Hec.blockStartPosition (gridWindow i code timeAt jbOf a b na nb) (jbOf n) c = a - edge n - 1 + c := by
  unfold Hec.blockStartPosition gridWindow
  simp only
  have h1 := G.edgeTime n hn
  have h := G.np (edge n) a (G.edge_le (by omega) hn) (by omega)
  rw [h1] at h
  have hw := G.notWeek
  have e : SECS_IN_1_DAY = 86400 := rfl
  simp only at h
  rw [e, h, if_neg (by omega)]

theorem storeLoop_spec {W : Type} [DecidableEq W] [Inhabited W] {cfg : RegCfg W} (hc : CfgOK cfg) {q : Nat}
    (G : Grid i code timeAt jbOf edge n0) {a : Int} {qsz : Nat} {vals quals : List (List W)} {flag : Int}
    {s : Int → List W} {na nb : Int} (ha : edge n0 < a)
    (hv : ∀ e ∈ vals, e.length = cfg.vsz) (hqs : qsz = 0 ∨ qsz = q) (hql : ∀ e ∈ quals, e.length = qsz)
    (hqn : 0 < qsz → quals.length = vals.length) (hfl : 0 ≤ flag ∧ flag ≤ 4)
    (hnb0 : n0 ≤ nb) (hb1 : edge nb < a + vals.length - 1) (hb2 : a + vals.length - 1 ≤ edge (nb + 1))
    (hk : ∀ n, n0 ≤ n → KeepsBlock cfg timeAt jbOf edge a vals flag n) :
    ∀ (t : Nat) (n : Int) (c : Nat) (fuel : Nat) (f : RegFile W), n0 ≤ n → n + t = nb + 1 → t ≤ fuel →
      (t = 0 ∨ (((c = 0 ∧ edge n < a) ∨ a + c = edge n + 1) ∧ edge n < a + c ∧ a + c ≤ edge (n + 1) ∧ c < vals.length)) →
      (∀ m, n ≤ m → m ≤ nb → BlockHolds cfg q edge m (f (jbOf m)) s) →
      ∃ f', storeLoop cfg (gridWindow i code timeAt jbOf a (a + vals.length - 1) na nb) qsz vals quals flag fuel (jbOf n) c f = some f' ∧
        (∀ m, n ≤ m → m ≤ nb → BlockHolds cfg q edge m (f' (jbOf m)) (seriesPut cfg.isMissing flag a vals s)) ∧
        (∀ j, (∀ m, n ≤ m → m ≤ nb → j ≠ jbOf m) → f' j = f j) ∧
        (qsz = 0 → cfg.keepEmpty = false → flag ≠ 2 → (∀ m, n ≤ m → m ≤ nb → Tight cfg (f (jbOf m))) →
          ∀ m, n ≤ m → m ≤ nb → Tight cfg (f' (jbOf m))) := by
  intro t
  induction t with
  | zero =>
    intro n c fuel f hn ht hfuel _ hf
    have hgt : ¬ jbOf n ≤ jbOf nb := by
      have := G.jb_mono hnb0 (show nb < n by omega); omega
    refine ⟨f, ?_, ?_, fun _ _ => rfl, fun _ _ _ h => h⟩
    · cases fuel with
      | zero => unfold storeLoop; exact if_neg hgt
      | succ fuel => unfold storeLoop; exact if_neg hgt
    · intro m h1 h2; omega
  | succ t ih =>
    intro n c fuel f hn ht hfuel hcur hf
    obtain ⟨fuel, rfl⟩ : ∃ k, fuel = k + 1 := ⟨fuel - 1, by omega⟩
    rcases hcur with h | ⟨hcur, hc1, hc2, hcl⟩
    · omega
    have hle : jbOf n ≤ jbOf nb := G.jb_le hn (by omega)
    unfold storeLoop
    have hw : (gridWindow i code timeAt jbOf a (a + vals.length - 1) na nb).endBlock = jbOf nb := rfl
    rw [hw, if_pos hle, G.numberInBlock hn, G.blockStart hn ha]
    have hw2 : (gridWindow i code timeAt jbOf a (a + vals.length - 1) na nb).blockSize = code := rfl
    have hw3 : (gridWindow i code timeAt jbOf a (a + vals.length - 1) na nb).startJulian = (timeAt a).1 := rfl
    have hw4 : (gridWindow i code timeAt jbOf a (a + vals.length - 1) na nb).endJulian = (timeAt (a + vals.length - 1)).1 := rfl
    simp only [hw2, hw3, hw4]
    rw [G.next n hn, if_neg (by omega)]
    have e1 : a - edge n - 1 + (c : Int) = a + c - edge n - 1 := by omega
    have e2 : edge (n + 1) - edge n - (a - edge n - 1 + (c : Int)) = edge (n + 1) - (a + c) + 1 := by omega
    rw [e2, e1]
    have hblk := store_block hc G (rec := f (jbOf n)) (s := s) (q := q) hn ha hv hqs hql hqn hfl hcur hc1 hc2 hcl (hk n hn)
      (hf n (by omega) (by omega))
    simp only at hblk
    obtain ⟨hblk, htight⟩ := hblk
    generalize hnum : (if (vals.length : Int) - c < edge (n + 1) - (a + c) + 1 then (vals.length : Int) - c else edge (n + 1) - (a + c) + 1) = number at *
    have hnumb : 1 ≤ number ∧ number ≤ (vals.length : Int) - c ∧ number ≤ edge (n + 1) - (a + c) + 1 ∧
        (number = (vals.length : Int) - c ∨ number = edge (n + 1) - (a + c) + 1) := by
      revert hnum; split <;> omega
    clear hnum
    have hnib : (edge (n + 1) - edge n).toNat = nibOf edge n := rfl
    rw [hnib]
    have hct : ((c : Int)).toNat = c := by omega
    rw [hct]
    generalize hact : (regStoreBlock cfg (f (jbOf n)) qsz (nibOf edge n) (a + c - edge n - 1).toNat ((vals.drop c).take number.toNat) ((quals.drop c).take number.toNat) (!((decide ((timeAt a).1 < jbOf n) && decide ((timeAt (a + vals.length - 1)).1 > jbOf (n + 1))) && (decide (flag = 0) || decide (flag = 2)))) flag) = act at *
    have hcc : (c : Int) + number = ((c + number.toNat : Nat) : Int) := by omega
    rw [hcc]
    have hother : ∀ m, n0 ≤ m → m ≠ n → jbOf m ≠ jbOf n := by
      intro m hm hne
      rcases Int.lt_or_gt_of_ne hne with h | h
      · have := G.jb_mono hm h; omega
      · have := G.jb_mono hn h; omega
    obtain ⟨f', h1, h2, h3, h4⟩ := ih (n + 1) (c + number.toNat) fuel (fun j => if j = jbOf n then act.apply (f (jbOf n)) else f j)
      (by omega) (by omega) (by omega) (by
        rcases Nat.eq_zero_or_pos t with h0 | h0
        · exact Or.inl h0
        · right
          have hlt : edge (n + 1) < a + vals.length - 1 := by
            have := G.edge_le (m := n + 1) (n := nb) (by omega) (by omega)
            omega
          have := G.edgeLt (n + 1) (by omega)
          omega) (by
        intro m hm1 hm2
        rw [if_neg (hother m (by omega) (by omega))]
        exact hf m (by omega) hm2)
    refine ⟨f', h1, ?_, ?_, ?_⟩
    rotate_right
    · intro t1 t2 t3 t4 m hm1 hm2
      by_cases hmn : m = n
      · subst hmn
        rw [h3 (jbOf m) (by
          intro m' hm' hm'' heq
          exact hother m' (by omega) (by omega) heq.symm), if_pos rfl]
        exact htight t1 t2 t3 (t4 m (by omega) hm2)
      · refine h4 t1 t2 t3 ?_ m (by omega) hm2
        intro m' hm' hm''
        rw [if_neg (hother m' (by omega) (by omega))]
        exact t4 m' (by omega) hm''
    · intro m hm1 hm2
      by_cases hmn : m = n
      · subst hmn
        rw [h3 (jbOf m) (by
          intro m' hm' hm'' heq
          exact hother m' (by omega) (by omega) heq.symm), if_pos rfl]
        exact hblk
      · exact h2 m (by omega) hm2
    · intro j hj
      rw [h3 j (fun m hm1 hm2 => hj m (by omega) hm2), if_neg (hj n (by omega) (by omega))]

theorem retrieveLoop_spec {W : Type} [DecidableEq W] [Inhabited W] {cfg : RegCfg W} (hc : CfgOK cfg) {q : Nat}
    (G : Grid i code timeAt jbOf edge n0) {a b : Int} {s : Int → List W} {na nb : Int} (ha : edge n0 < a) (f : RegFile W)
    (hnb0 : n0 ≤ nb) (hb1 : edge nb < b) (hb2 : b ≤ edge (nb + 1)) :
    ∀ (t : Nat) (n : Int) (c : Int) (fuel : Nat) (acc : List (List W)), n0 ≤ n → n + t = nb + 1 → t ≤ fuel → 0 ≤ c →
      ((t = 0 ∧ a + c = b + 1) ∨ (((c = 0 ∧ edge n < a) ∨ a + c = edge n + 1) ∧ edge n < a + c ∧ a + c ≤ edge (n + 1) ∧ a + c ≤ b)) →
      (∀ m, n ≤ m → m ≤ nb → BlockHolds cfg q edge m (f (jbOf m)) s) →
      ∃ r, retrieveLoop cfg (gridWindow i code timeAt jbOf a b na nb) (b - a + 1) f fuel (jbOf n) c acc = some (acc ++ r) ∧
        (r.length : Int) = b - a + 1 - c ∧
        (∀ k : Nat, k < r.length → SameValue cfg.isMissing ((r[k]?).getD []) (s (a + c + k))) := by
  intro t
  induction t with
  | zero =>
    intro n c fuel acc hn ht hfuel hc0 hcur hf
    have hgt : ¬ jbOf n ≤ jbOf nb := by
      have := G.jb_mono hnb0 (show nb < n by omega); omega
    refine ⟨[], ?_, ?_, ?_⟩
    · rw [List.append_nil]
      cases fuel with
      | zero => unfold retrieveLoop; exact if_neg hgt
      | succ fuel => unfold retrieveLoop; exact if_neg hgt
    · simp
      rcases hcur with h | h
      · omega
      · have : n = nb + 1 := by omega
        rw [this] at h
        omega
    · intro k hk; simp at hk
  | succ t ih =>
    intro n c fuel acc hn ht hfuel hc0 hcur hf
    obtain ⟨fuel, rfl⟩ : ∃ k, fuel = k + 1 := ⟨fuel - 1, by omega⟩
    rcases hcur with h | ⟨hcur, hc1, hc2, hcl⟩
    · omega
    have hle : jbOf n ≤ jbOf nb := G.jb_le hn (by omega)
    unfold retrieveLoop
    have hw : (gridWindow i code timeAt jbOf a b na nb).endBlock = jbOf nb := rfl
    rw [hw, if_pos hle, G.numberInBlock hn, G.blockStart hn ha]
    have hw2 : (gridWindow i code timeAt jbOf a b na nb).blockSize = code := rfl
    simp only [hw2]
    rw [G.next n hn, if_neg (by omega)]
    generalize hbsp : a - edge n - 1 + c = bsp
    have e2 : edge (n + 1) - edge n - bsp = edge (n + 1) - (a + c) + 1 := by omega
    rw [e2]
    generalize hnum : (if b - a + 1 - c < edge (n + 1) - (a + c) + 1 then b - a + 1 - c else edge (n + 1) - (a + c) + 1) = number
    have hnumb : 1 ≤ number ∧ number ≤ b - a + 1 - c ∧ number ≤ edge (n + 1) - (a + c) + 1 ∧
        (number = b - a + 1 - c ∨ number = edge (n + 1) - (a + c) + 1) := by
      revert hnum; split <;> omega
    clear hnum
    have hblk := hf n (by omega) (by omega)
    obtain ⟨F, Gq, hvw⟩ := view_exists hc hblk.1
    have hread : (regReadBlock cfg (f (jbOf n)) 0 number bsp).1 = (List.range number.toNat).map (fun k : Nat => F (bsp + k)) :=
      hvw.vals 0 number bsp (by omega)
    obtain ⟨r, h1, h2, h3⟩ := ih (n + 1) (c + number) fuel (acc ++ (regReadBlock cfg (f (jbOf n)) 0 number bsp).1)
      (by omega) (by omega) (by omega) (by omega) (by
        rcases Nat.eq_zero_or_pos t with h0 | h0
        · left
          have : n = nb := by omega
          rw [this] at hnumb hc2
          omega
        · right
          have hlt : edge (n + 1) < b := by
            have := G.edge_le (m := n + 1) (n := nb) (by omega) (by omega)
            omega
          have := G.edgeLt (n + 1) (by omega)
          omega) (fun m hm1 hm2 => hf m (by omega) hm2)
    have hlen1 : ((regReadBlock cfg (f (jbOf n)) 0 number bsp).1).length = number.toNat := by rw [hread]; simp
    refine ⟨(regReadBlock cfg (f (jbOf n)) 0 number bsp).1 ++ r, ?_, ?_, ?_⟩
    · rw [h1, List.append_assoc]
    · rw [List.length_append, hlen1]; omega
    · intro k hk
      rw [List.length_append, hlen1] at hk
      by_cases hkn : k < number.toNat
      · rw [List.getElem?_append_left (by omega), hread]
        simp only [List.getElem?_map, List.getElem?_range hkn, Option.map_some, Option.getD_some]
        have hp : (a - edge n - 1 + c + k).toNat < nibOf edge n := by unfold nibOf; omega
        have := hblk.2 _ hp
        rw [view_readValue hvw] at this
        rw [show bsp + (k : Int) = (((a - edge n - 1 + c + k).toNat : Nat) : Int) by omega]
        rw [show a + c + (k : Int) = edge n + 1 + (((a - edge n - 1 + c + k).toNat : Nat) : Int) by omega]
        exact this
      · rw [List.getElem?_append_right (by omega), hlen1]
        have := h3 (k - number.toNat) (by omega)
        rw [show a + (c + number) + ((k - number.toNat : Nat) : Int) = a + c + k by omega] at this
        exact this

/-- The file holds the series `s`. -/
def FileHolds {W : Type} [DecidableEq W] [Inhabited W] (cfg : RegCfg W) (q : Nat) (jbOf edge : Int → Int) (n0 : Int)
    (f : RegFile W) (s : Int → List W) : Prop :=
  ∀ n, n0 ≤ n → BlockHolds cfg q edge n (f (jbOf n)) s

theorem holds_empty {W : Type} [DecidableEq W] [Inhabited W] {cfg : RegCfg W} (hc : CfgOK cfg) (q : Nat)
    (jbOf edge : Int → Int) (n0 : Int) :
    FileHolds cfg q jbOf edge n0 (fun _ => none) (fun _ => cfg.missing) := by
  intro n _
  refine ⟨trivial, ?_⟩
  intro p _
  rw [view_readValue (view_none hc (nibOf edge n) q)]
  exact Or.inl rfl

theorem holds_store {W : Type} [DecidableEq W] [Inhabited W] {cfg : RegCfg W} (hc : CfgOK cfg) {q : Nat}
    (G : Grid i code timeAt jbOf edge n0) {a : Int} {qsz : Nat} {vals quals : List (List W)} {flag : Int}
    {s : Int → List W} (ha : edge n0 < a) (hne : vals ≠ [])
    (hv : ∀ e ∈ vals, e.length = cfg.vsz) (hqs : qsz = 0 ∨ qsz = q) (hql : ∀ e ∈ quals, e.length = qsz)
    (hqn : 0 < qsz → quals.length = vals.length) (hfl : 0 ≤ flag ∧ flag ≤ 4)
    (hk : ∀ n, n0 ≤ n → KeepsBlock cfg timeAt jbOf edge a vals flag n)
    {f : RegFile W} (hf : FileHolds cfg q jbOf edge n0 f s) :
    ∃ f', storeReg cfg i (timeAt a).1 (timeAt a).2 qsz vals quals flag f = some f' ∧
      FileHolds cfg q jbOf edge n0 f' (seriesPut cfg.isMissing flag a vals s) ∧
      (qsz = 0 → cfg.keepEmpty = false → flag ≠ 2 → (∀ n, n0 ≤ n → Tight cfg (f (jbOf n))) → ∀ n, n0 ≤ n → Tight cfg (f' (jbOf n))) := by
  have hlen : 1 ≤ vals.length := by
    match vals, hne with
    | _ :: _, _ => simp
  obtain ⟨na, a1, a2, a3⟩ := G.find ha
  obtain ⟨nb, b1, b2, b3⟩ := G.find (a := a + vals.length - 1) (by omega)
  have hab : na ≤ nb := by
    apply Decidable.byContradiction
    intro hlt
    have := G.edge_le (m := nb + 1) (n := na) (by omega) (by omega)
    omega
  unfold storeReg
  rw [if_neg (by omega), G.inc a _ ha (by omega)]
  have e : a + ((vals.length : Int) - 1) = a + vals.length - 1 := by omega
  rw [e]
  have hw : regWindow i (timeAt a).1 (timeAt a).2 (timeAt (a + vals.length - 1)).1 (timeAt (a + vals.length - 1)).2 =
      gridWindow i code timeAt jbOf a (a + vals.length - 1) na nb := by
    unfold regWindow gridWindow
    rw [G.std a ha, G.std (a + vals.length - 1) (by omega)]
    simp only
    rw [(G.block na a a1 a2 a3).1, (G.block nb _ b1 b2 b3).1]
  simp only [hw]
  have hs1 : (gridWindow i code timeAt jbOf a (a + vals.length - 1) na nb).startBlock = jbOf na := rfl
  have hs2 : (gridWindow i code timeAt jbOf a (a + vals.length - 1) na nb).endBlock = jbOf nb := rfl
  rw [hs1, hs2]
  have hfuel : (nb + 1 - na).toNat ≤ (jbOf nb - jbOf na).toNat + 1 := by
    have : ∀ k : Nat, jbOf na + k ≤ jbOf (na + k) := by
      intro k
      induction k with
      | zero => simp
      | succ k ih =>
        have := G.jbLt (na + k) (by omega)
        rw [show na + ((k + 1 : Nat) : Int) = na + k + 1 by omega]
        omega
    have := this (nb - na).toNat
    rw [show na + (((nb - na).toNat : Nat) : Int) = nb by omega] at this
    omega
  obtain ⟨f', h1, h2, h3, h4⟩ := storeLoop_spec hc G (q := q) (s := s) (na := na) (nb := nb) ha hv hqs hql hqn hfl b1 b2 b3 hk
    (nb + 1 - na).toNat na 0 _ f a1 (by omega) hfuel (by right; exact ⟨Or.inl ⟨rfl, a2⟩, by simpa using a2, by simpa using a3, by omega⟩)
    (fun m hm _ => hf m (by omega))
  have hout : ∀ n, n0 ≤ n → ¬ (na ≤ n ∧ n ≤ nb) → f' (jbOf n) = f (jbOf n) := by
    intro n hn hin
    exact h3 (jbOf n) (by
      intro m hm1 hm2 heq
      rcases Int.lt_or_gt_of_ne (show m ≠ n by omega) with h | h
      · have := G.jb_mono (m := m) (n := n) (by omega) h; omega
      · have := G.jb_mono hn h; omega)
  refine ⟨f', h1, ?_, ?_⟩
  rotate_left
  · intro t1 t2 t3 t4 n hn
    by_cases hin : na ≤ n ∧ n ≤ nb
    · exact h4 t1 t2 t3 (fun m hm _ => t4 m (by omega)) n hin.1 hin.2
    · rw [hout n hn hin]; exact t4 n hn
  intro n hn
  by_cases hin : na ≤ n ∧ n ≤ nb
  · exact h2 n hin.1 hin.2
  · rw [h3 (jbOf n) (by
      intro m hm1 hm2 heq
      rcases Int.lt_or_gt_of_ne (show m ≠ n by omega) with h | h
      · have := G.jb_mono (m := m) (n := n) (by omega) h; omega
      · have := G.jb_mono hn h; omega)]
    obtain ⟨k1, k2⟩ := hf n hn
    refine ⟨k1, ?_⟩
    intro p hp
    have hout : seriesPut cfg.isMissing flag a vals s (edge n + 1 + p) = s (edge n + 1 + p) := by
      unfold seriesPut
      have e2 : (if a ≤ edge n + 1 + (p : Int) then vals[(edge n + 1 + (p : Int) - a).toNat]? else none) = none := by
        split
        · rw [List.getElem?_eq_none]
          unfold nibOf at hp
          rcases Int.lt_or_le n na with h | h
          · have := G.edge_le (m := n + 1) (n := na) (by omega) (by omega)
            omega
          · have := G.edge_le (m := nb + 1) (n := n) (by omega) (by omega)
            omega
        · rfl
      rw [e2]
    rw [hout]
    exact k2 p hp

theorem holds_retrieve {W : Type} [DecidableEq W] [Inhabited W] {cfg : RegCfg W} (hc : CfgOK cfg) {q : Nat}
    (G : Grid i code timeAt jbOf edge n0) {a b : Int} {s : Int → List W} (ha : edge n0 < a) (hab : a ≤ b)
    {f : RegFile W} (hf : FileHolds cfg q jbOf edge n0 f s) :
    ∃ r, retrieveReg cfg i (timeAt a).1 (timeAt a).2 (timeAt b).1 (timeAt b).2 f = some r ∧
      (r.length : Int) = b - a + 1 ∧
      (∀ k : Nat, k < r.length → SameValue cfg.isMissing ((r[k]?).getD []) (s (a + k))) := by
  obtain ⟨na, a1, a2, a3⟩ := G.find ha
  obtain ⟨nb, b1, b2, b3⟩ := G.find (a := b) (by omega)
  have hnab : na ≤ nb := by
    apply Decidable.byContradiction
    intro hlt
    have := G.edge_le (m := nb + 1) (n := na) (by omega) (by omega)
    omega
  unfold retrieveReg
  have hw : regWindow i (timeAt a).1 (timeAt a).2 (timeAt b).1 (timeAt b).2 =
      gridWindow i code timeAt jbOf a b na nb := by
    unfold regWindow gridWindow
    rw [G.std a ha, G.std b (by omega)]
    simp only
    rw [(G.block na a a1 a2 a3).1, (G.block nb _ b1 b2 b3).1]
  simp only [hw]
  have hnum : numberPeriods i (gridWindow i code timeAt jbOf a b na nb).startJulian (gridWindow i code timeAt jbOf a b na nb).startSeconds
      (gridWindow i code timeAt jbOf a b na nb).endJulian (gridWindow i code timeAt jbOf a b na nb).endSeconds = b - a :=
    G.np a b (by omega) (by omega)
  rw [hnum, if_neg (by omega)]
  have hs1 : (gridWindow i code timeAt jbOf a b na nb).startBlock = jbOf na := rfl
  have hs2 : (gridWindow i code timeAt jbOf a b na nb).endBlock = jbOf nb := rfl
  rw [hs1, hs2]
  have hfuel : (nb + 1 - na).toNat ≤ (jbOf nb - jbOf na).toNat + 1 := by
    have : ∀ k : Nat, jbOf na + k ≤ jbOf (na + k) := by
      intro k
      induction k with
      | zero => simp
      | succ k ih =>
        have := G.jbLt (na + k) (by omega)
        rw [show na + ((k + 1 : Nat) : Int) = na + k + 1 by omega]
        omega
    have := this (nb - na).toNat
    rw [show na + (((nb - na).toNat : Nat) : Int) = nb by omega] at this
    omega
  obtain ⟨r, h1, h2, h3⟩ := retrieveLoop_spec hc G (q := q) (s := s) (na := na) (nb := nb) ha f b1 b2 b3
    (nb + 1 - na).toNat na 0 _ [] a1 (by omega) hfuel (by omega)
    (by right; exact ⟨Or.inl ⟨rfl, a2⟩, by omega, by omega, by omega⟩)
    (fun m hm _ => hf m (by omega))
  refine ⟨r, by rw [h1]; rfl, by omega, ?_⟩
  intro k hk
  have := h3 k hk
  rw [show a + 0 + (k : Int) = a + k by omega] at this
  exact this

end Hec
