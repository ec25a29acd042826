import Verif.Proofs.IrregStore
/-!
Retrieving irregular data: what the loop over the blocks returns, as instants and values.
-/
namespace Hec
open Spec

variable {α : Type}

/-- The part of a block returned. -/
def blockOut (bs jb : Int) (w : TimeWindow) (prev nx : Bool) : Option (IrregRec α) → List (Entry α)
  | none => []
  | some r =>
    let lo := winLo (unitOf bs) jb w
    let hi := winHi (unitOf bs) jb w
    let B := r.entries.filter (fun e => decide (lo ≤ e.time ∧ e.time ≤ hi))
    if B = [] then []
    else (if prev then (r.entries.filter (fun e => decide (e.time < lo))).getLast?.toList else []) ++ B ++
      (if nx then (r.entries.filter (fun e => decide (lo ≤ e.time ∧ hi < e.time))).head?.toList else [])

/-- The same as instants and values. -/
def blockPairs (bs jb : Int) (w : TimeWindow) (prev nx : Bool) (o : Option (IrregRec α)) : List (Int × α) :=
  (blockOut bs jb w prev nx o).map (fun e => (jb * 86400 + e.time * unitOf bs, e.val))

/-- All blocks from `n` on, `k` of them. -/
def allPairs (f : IrregFile α) (bs : Int) (jbOf : Int → Int) (nE flag : Int) (w : TimeWindow) : Nat → Int → Bool → List (Int × α)
  | 0, _, _ => []
  | k + 1, n, prev =>
    blockPairs bs (jbOf n) w prev (decide (n = nE) && (decide (flag = 2) || decide (flag = 3))) (f (jbOf n)) ++
      allPairs f bs jbOf nE flag w k (n + 1) false

/-- Number of values in the blocks. -/
def sizes (f : IrregFile α) (jbOf : Int → Int) : Nat → Int → Int
  | 0, _ => 0
  | k + 1, n => (match f (jbOf n) with | none => 0 | some r => (r.entries.length : Int)) + sizes f jbOf k (n + 1)

theorem sizes_nonneg (f : IrregFile α) (jbOf : Int → Int) : ∀ k n, 0 ≤ sizes f jbOf k n := by
  intro k
  induction k with
  | zero => intro n; exact Int.le_refl _
  | succ k ih =>
    intro n
    have := ih (n + 1)
    unfold sizes
    cases f (jbOf n) with
    | none => simp only; omega
    | some r => simp only; omega

theorem sizes_run {bs n0 nE : Int} {jbOf : Int → Int} (G : BlockGrid bs jbOf n0) (f : IrregFile α) (hE : n0 ≤ nE) :
    ∀ (k fuel : Nat) (n : Int), n0 ≤ n → nE + 1 - n = k → k ≤ fuel →
    irregSizes f bs (jbOf nE) fuel (jbOf n) = some (sizes f jbOf k n) := by
  intro k
  induction k with
  | zero =>
    intro fuel n hn hk hf
    have := G.mono (m := nE) (n := n) hE (by omega)
    cases fuel with
    | zero => unfold irregSizes sizes; rw [if_neg (by omega)]
    | succ fuel => unfold irregSizes sizes; rw [if_neg (by omega)]
  | succ k ih =>
    intro fuel n hn hk hf
    obtain ⟨fuel, rfl⟩ : ∃ m, fuel = m + 1 := ⟨fuel - 1, by omega⟩
    have := G.mono_le (m := n) (n := nE) hn (by omega)
    unfold irregSizes sizes
    rw [if_pos this, G.next n hn, ih fuel (n + 1) (by omega) (by omega) (by omega)]
    rfl

theorem filter_parts (lo hi : Int) (l : List (Entry α)) (h : Increasing l) :
    l.length = (l.filter (fun e => decide (e.time < lo))).length +
      ((l.filter (fun e => decide (lo ≤ e.time ∧ e.time ≤ hi))).length +
      (l.filter (fun e => decide (lo ≤ e.time ∧ hi < e.time))).length) := by
  have := congrArg List.length (split_window lo hi l h)
  simpa using this

theorem toList_len {β : Type} (o : Option β) : o.toList.length ≤ 1 := by cases o <;> simp

theorem blockOut_len (bs jb : Int) (w : TimeWindow) (prev nx : Bool) (r : IrregRec α) (hi : Increasing r.entries) :
    (blockOut bs jb w prev nx (some r)).length ≤ r.entries.length := by
  unfold blockOut
  simp only
  have h := filter_parts (winLo (unitOf bs) jb w) (winHi (unitOf bs) jb w) r.entries hi
  have hA : ∀ l : List (Entry α), l.getLast?.toList.length ≤ l.length := by
    intro l; cases l with
    | nil => simp
    | cons x l =>
      have := toList_len (x :: l).getLast?
      simp only [List.length_cons]
      omega
  have hC : ∀ l : List (Entry α), l.head?.toList.length ≤ l.length := by
    intro l; cases l <;> simp
  have h1 := hA (r.entries.filter (fun e => decide (e.time < winLo (unitOf bs) jb w)))
  have h2 := hC (r.entries.filter (fun e => decide (winLo (unitOf bs) jb w ≤ e.time ∧ winHi (unitOf bs) jb w < e.time)))
  by_cases c : r.entries.filter (fun e => decide (winLo (unitOf bs) jb w ≤ e.time ∧ e.time ≤ winHi (unitOf bs) jb w)) = []
  · rw [if_pos c]; simp
  · rw [if_neg c]
    cases prev <;> cases nx <;> simp only [List.length_append, if_true, Bool.false_eq_true, if_false, List.length_nil] <;> omega

theorem blockOut_mem {bs jb : Int} {w : TimeWindow} {prev nx : Bool} {r : IrregRec α} {e : Entry α}
    (h : e ∈ blockOut bs jb w prev nx (some r)) : e ∈ r.entries := by
  unfold blockOut at h
  simp only at h
  by_cases c : r.entries.filter (fun e => decide (winLo (unitOf bs) jb w ≤ e.time ∧ e.time ≤ winHi (unitOf bs) jb w)) = []
  · rw [if_pos c] at h; simp at h
  · rw [if_neg c] at h
    rcases List.mem_append.1 h with h | h
    · rcases List.mem_append.1 h with h | h
      · cases prev
        · simp at h
        · simp only [if_true] at h
          exact (List.mem_filter.1 (List.mem_of_getLast? (Option.mem_toList.1 h))).1
      · exact (List.mem_filter.1 h).1
    · cases nx
      · simp at h
      · simp only [if_true] at h
        exact (List.mem_filter.1 (List.mem_of_head? (Option.mem_toList.1 h))).1

theorem conv_back {bs a g base jb t : Int} (K : Kind bs a g) (hp : 0 < t) (hd : g ∣ t * unitOf bs) :
    base * 86400 + ((if bs = 5 then cdiv (t * SECS_IN_1_MINUTE) g else cdiv t g) + (jb - base) * unitsPerDay g) * g =
      jb * 86400 + t * unitOf bs := by
  have hP := perDay_mul K.g
  have hg := K.gpos
  have h1 : (if bs = 5 then cdiv (t * SECS_IN_1_MINUTE) g else cdiv t g) * g = t * unitOf bs := by
    by_cases c : bs = 5
    · rw [if_pos c]
      have hu : unitOf bs = 60 := by rw [c]; rfl
      rw [hu] at hd ⊢
      rw [cdiv_nonneg_eq (by unfold SECS_IN_1_MINUTE; omega)]
      exact Int.ediv_mul_cancel hd
    · rw [if_neg c]
      have := K.bs5
      have hu : unitOf bs = 1 := by unfold unitOf; rw [if_pos (by omega)]
      rw [hu, Int.mul_one] at hd ⊢
      rw [cdiv_nonneg_eq (by omega)]
      exact Int.ediv_mul_cancel hd
  rw [Int.add_mul, h1, Int.mul_assoc, hP, Int.sub_mul]
  omega

theorem retrieveLoop_ok {bs a g n0 nE flag : Int} {jbOf : Int → Int} (G : BlockGrid bs jbOf n0) (K : Kind bs a g)
    {S : Int → Option α} {f : IrregFile α} (ho : FileOK a g bs jbOf n0 S f) (hE : n0 ≤ nE) (w : TimeWindow) :
    ∀ (k fuel : Nat) (n max : Int) (found : Bool) (base gran : Int) (prev : Bool), n0 ≤ n → nE + 1 - n = k → k ≤ fuel →
    sizes f jbOf k n ≤ max → (found = true → gran = g) →
    ∃ r, irregRetrieveLoop f bs (jbOf nE) flag w fuel (jbOf n) max found base gran prev = some r ∧
      r.entries.map (fun e => (r.base * 86400 + e.time * r.gran, e.val)) = allPairs f bs jbOf nE flag w k n prev ∧
      (r.gran = g ∨ r.entries = []) ∧ (found = true → r.base = base ∧ r.gran = gran) := by
  intro k
  induction k with
  | zero =>
    intro fuel n max found base gran prev hn hk hf _ hfd
    have := G.mono (m := nE) (n := n) hE (by omega)
    refine ⟨⟨base, gran, []⟩, ?_, rfl, Or.inr rfl, fun _ => ⟨rfl, rfl⟩⟩
    cases fuel with
    | zero => unfold irregRetrieveLoop; rw [if_neg (by omega)]
    | succ fuel => unfold irregRetrieveLoop; rw [if_neg (by omega)]
  | succ k ih =>
    intro fuel n max found base gran prev hn hk hf hmax hfd
    obtain ⟨fuel, rfl⟩ : ∃ m, fuel = m + 1 := ⟨fuel - 1, by omega⟩
    have hle := G.mono_le (m := n) (n := nE) hn (by omega)
    have hB := ho n hn
    unfold irregRetrieveLoop allPairs
    rw [if_pos hle, G.next n hn]
    have hsub : decide (jbOf n = jbOf nE) = decide (n = nE) := by
      by_cases c : n = nE
      · simp [c]
      · have : jbOf n ≠ jbOf nE := fun h => c (G.inj hn hE h)
        simp [c, this]
    rw [hsub]
    unfold sizes at hmax
    cases hfn : f (jbOf n) with
    | none =>
      rw [hfn] at hmax
      simp only at hmax ⊢
      obtain ⟨r, h1, h2, h3, h4⟩ := ih fuel (n + 1) max found base gran false (by omega) (by omega) (by omega) (by omega) hfd
      exact ⟨r, h1, by rw [h2]; rfl, h3, h4⟩
    | some rec =>
      rw [hfn] at hmax hB
      obtain ⟨hok, hne, hgr, hlog⟩ := hB
      have hs := sizes_nonneg f jbOf k (n + 1)
      simp only at hmax ⊢
      generalize hnx : (decide (n = nE) && (decide (flag = 2) || decide (flag = 3))) = nx
      have hread : irregReadBlock rec bs (jbOf n) w max prev nx = blockOut bs (jbOf n) w prev nx (some rec) :=
        readBlock_spec rec bs (jbOf n) w max prev nx hok.inc (by omega)
      rw [hread]
      have hlen := blockOut_len bs (jbOf n) w prev nx rec hok.inc
      have hg1 := K.gpos
      have hgran : (if found = true then gran else if rec.gran > 0 then rec.gran else gran) = g := by
        cases found with
        | true => simp only [if_true]; exact hfd rfl
        | false =>
          simp only [Bool.false_eq_true, if_false]
          rw [hgr, if_pos (by omega)]
      rw [hgran]
      generalize hbase : (if found = true then base else if base < 0 then jbOf n else if g = 1 ∧ base = 0 then jbOf n else base) = base'
      obtain ⟨r, h1, h2, h3, h4⟩ := ih fuel (n + 1) (max - (blockOut bs (jbOf n) w prev nx (some rec)).length) true base' g false
        (by omega) (by omega) (by omega) (by omega) (fun _ => rfl)
      obtain ⟨h4a, h4b⟩ := h4 rfl
      rw [h1]
      refine ⟨_, rfl, ?_, Or.inl h4b, ?_⟩
      · simp only [List.map_append, List.map_map]
        rw [h2]
        congr 1
        unfold blockPairs
        apply List.map_congr_left
        intro e he
        have hm := blockOut_mem he
        simp only [Function.comp]
        rw [h4a, h4b, if_neg (show ¬ g = 0 by omega), conv_back K (hok.pos e hm).1 (hok.al e hm).2]
      · intro hf2
        simp only
        rw [h4a, h4b, ← hbase, if_pos hf2]
        exact ⟨rfl, (hfd hf2).symm⟩

/-! ### Without the flags -/

theorem blockOut_plain (bs jb : Int) (w : TimeWindow) (r : IrregRec α) :
    blockOut bs jb w false false (some r) =
      r.entries.filter (fun e => decide (winLo (unitOf bs) jb w ≤ e.time ∧ e.time ≤ winHi (unitOf bs) jb w)) := by
  unfold blockOut
  simp only
  by_cases c : r.entries.filter (fun e => decide (winLo (unitOf bs) jb w ≤ e.time ∧ e.time ≤ winHi (unitOf bs) jb w)) = []
  · rw [if_pos c, c]
  · rw [if_neg c]; simp

/-- The window in stored times and in instants. -/
theorem window_inst {bs jb t : Int} {w : TimeWindow} (h1 : 0 ≤ w.startTimeSeconds) (h2 : 0 ≤ w.endTimeSeconds)
    (hal : unitOf bs ∣ w.startTimeSeconds) :
    (winLo (unitOf bs) jb w ≤ t ↔ w.startJulian * 86400 + w.startTimeSeconds ≤ jb * 86400 + t * unitOf bs) ∧
    (t ≤ winHi (unitOf bs) jb w ↔ jb * 86400 + t * unitOf bs ≤ w.endJulian * 86400 + w.endTimeSeconds) := by
  unfold winLo winHi SECS_IN_1_DAY
  rcases unit_cases bs with ⟨hu, _⟩ | ⟨hu, _⟩
  · rw [hu] at hal ⊢
    simp only [if_neg (show ¬ (1 : Int) < 1 by omega)]
    rw [cdiv_nonneg_eq (by omega), cdiv_nonneg_eq h1, cdiv_nonneg_eq h2]
    omega
  · rw [hu] at hal ⊢
    simp only [if_neg (show ¬ (60 : Int) < 1 by omega)]
    rw [cdiv_nonneg_eq (by omega), cdiv_nonneg_eq h1, cdiv_nonneg_eq h2]
    omega

theorem plain_block {bs a g jb next : Int} {S : Int → Option α} {o : Option (IrregRec α)} {w : TimeWindow}
    (ho : BlockOK a g (unitOf bs) jb next S o)
    (h1 : 0 ≤ w.startTimeSeconds) (h2 : 0 ≤ w.endTimeSeconds) (hal : unitOf bs ∣ w.startTimeSeconds) :
    (blockPairs bs jb w false false o).Pairwise (fun p q => p.1 < q.1) ∧
    (∀ x v, (x, v) ∈ blockPairs bs jb w false false o ↔ (S x = some v ∧ jb * 86400 < x ∧ x ≤ next * 86400 ∧
      w.startJulian * 86400 + w.startTimeSeconds ≤ x ∧ x ≤ w.endJulian * 86400 + w.endTimeSeconds)) := by
  have hu : 1 ≤ unitOf bs := by rcases unit_cases bs with h | h <;> omega
  cases o with
  | none =>
    refine ⟨List.Pairwise.nil, ?_⟩
    intro x v
    constructor
    · intro h; simp [blockPairs, blockOut] at h
    · rintro ⟨hs, h3, h4, _⟩
      rw [ho x h3 h4] at hs; simp at hs
  | some r =>
    obtain ⟨hok, _⟩ := ho
    unfold blockPairs
    rw [blockOut_plain]
    constructor
    · rw [List.pairwise_map]
      refine List.Pairwise.imp ?_ (List.Pairwise.filter _ hok.inc)
      intro p q hpq
      have := Int.mul_lt_mul_of_pos_right hpq (show 0 < unitOf bs by omega)
      simp only; omega
    · intro x v
      constructor
      · intro h
        obtain ⟨e, he, heq⟩ := List.mem_map.1 h
        obtain ⟨hm, hw⟩ := List.mem_filter.1 he
        simp only [decide_eq_true_eq] at hw
        have hwi := window_inst (jb := jb) (t := e.time) h1 h2 hal
        have ex : jb * 86400 + e.time * unitOf bs = x := congrArg Prod.fst heq
        have ev : e.val = v := congrArg Prod.snd heq
        have hp := hok.pos e hm
        have hp1 : 1 * unitOf bs ≤ e.time * unitOf bs := Int.mul_le_mul_of_nonneg_right (by omega) (by omega)
        rw [Int.sub_mul] at hp
        have a1 : jb * 86400 < x := by omega
        have a2 : x ≤ next * 86400 := by omega
        refine ⟨(hok.val x v a1 a2).2 ⟨e, hm, ev, ex⟩, a1, a2, ?_, ?_⟩
        · rw [← ex]; exact hwi.1.1 hw.1
        · rw [← ex]; exact hwi.2.1 hw.2
      · rintro ⟨hs, a1, a2, w1, w2⟩
        obtain ⟨e, hm, ev, ex⟩ := (hok.val x v a1 a2).1 hs
        have hwi := window_inst (jb := jb) (t := e.time) h1 h2 hal
        refine List.mem_map.2 ⟨e, List.mem_filter.2 ⟨hm, ?_⟩, by rw [ex, ev]⟩
        simp only [decide_eq_true_eq]
        exact ⟨hwi.1.2 (by omega), hwi.2.2 (by omega)⟩

theorem plain_all {bs a g n0 nE flag : Int} {jbOf : Int → Int} (G : BlockGrid bs jbOf n0)
    {S : Int → Option α} {f : IrregFile α} (ho : FileOK a g bs jbOf n0 S f) (w : TimeWindow) (hflag : flag ≠ 2 ∧ flag ≠ 3)
    (h1 : 0 ≤ w.startTimeSeconds) (h2 : 0 ≤ w.endTimeSeconds) (hal : unitOf bs ∣ w.startTimeSeconds) :
    ∀ (k : Nat) (n : Int), n0 ≤ n →
    (allPairs f bs jbOf nE flag w k n false).Pairwise (fun p q => p.1 < q.1) ∧
    (∀ x v, (x, v) ∈ allPairs f bs jbOf nE flag w k n false ↔ (S x = some v ∧ jbOf n * 86400 < x ∧ x ≤ jbOf (n + k) * 86400 ∧
      w.startJulian * 86400 + w.startTimeSeconds ≤ x ∧ x ≤ w.endJulian * 86400 + w.endTimeSeconds)) := by
  intro k
  induction k with
  | zero =>
    intro n hn
    refine ⟨List.Pairwise.nil, ?_⟩
    intro x v
    constructor
    · intro h; simp [allPairs] at h
    · rintro ⟨_, h3, h4, _⟩
      simp only [Int.natCast_zero, Int.add_zero] at h4
      omega
  | succ k ih =>
    intro n hn
    obtain ⟨i1, i2⟩ := ih (n + 1) (by omega)
    have hnx : (decide (n = nE) && (decide (flag = 2) || decide (flag = 3))) = false := by
      simp [hflag.1, hflag.2]
    unfold allPairs
    rw [hnx]
    obtain ⟨b1, b2⟩ := plain_block (ho n hn) h1 h2 hal (w := w)
    have hlt := G.lt n hn
    have e : n + ((k + 1 : Nat) : Int) = n + 1 + k := by omega
    have hge := G.mono_le (m := n + 1) (n := n + 1 + k) (by omega) (by omega)
    rw [e]
    constructor
    · refine List.pairwise_append.2 ⟨b1, i1, ?_⟩
      intro p hp q hq
      have := (b2 p.1 p.2).1 hp
      have := (i2 q.1 q.2).1 hq
      omega
    · intro x v
      rw [List.mem_append, b2, i2]
      constructor
      · rintro (⟨s, a1, a2, a3⟩ | ⟨s, a1, a2, a3⟩)
        · exact ⟨s, a1, by omega, a3⟩
        · exact ⟨s, by omega, a2, a3⟩
      · rintro ⟨s, a1, a2, a3⟩
        rcases Int.lt_or_le (jbOf (n + 1) * 86400) x with c | c
        · exact Or.inr ⟨s, c, a2, a3⟩
        · exact Or.inl ⟨s, a1, c, a3⟩

/-- Retrieval of a window without the flags, as pairs. -/
theorem retrieve_plain {bs a g n0 : Int} {jbOf : Int → Int} (G : BlockGrid bs jbOf n0) (K : Kind bs a g)
    {S : Int → Option α} {f : IrregFile α} (ho : FileOK a g bs jbOf n0 S f)
    (w : TimeWindow) (base gran : Int)
    (s1 : 1 ≤ w.startTimeSeconds) (s2 : w.startTimeSeconds ≤ 86400) (e1 : 1 ≤ w.endTimeSeconds) (e2 : w.endTimeSeconds ≤ 86400)
    (hj : jbOf n0 ≤ w.startJulian) (hse : w.startJulian ≤ w.endJulian)
    (ht : IsTime w.startJulian w.startTimeSeconds) (ht' : IsTime w.endJulian w.endTimeSeconds)
    (hal : unitOf bs ∣ w.startTimeSeconds) :
    ∃ r, ztsRetrieveIrreg f bs w base gran 0 = some r ∧ Increasing r.entries ∧
      ∀ x v, (∃ e ∈ r.entries, r.base * 86400 + e.time * r.gran = x ∧ e.val = v) ↔
        (S x = some v ∧ w.startJulian * 86400 + w.startTimeSeconds ≤ x ∧ x ≤ w.endJulian * 86400 + w.endTimeSeconds) := by
  obtain ⟨n1, hn1, a1, b1⟩ := G.onto hj
  obtain ⟨n2, hn2, a2, b2⟩ := G.onto (j := w.endJulian) (by omega)
  have hn12 : n1 ≤ n2 := by
    rcases Int.lt_or_le n2 n1 with c | c
    · have := G.mono_le (m := n2 + 1) (n := n1) (by omega) (by omega)
      omega
    · exact c
  have hdist := G.dist hn1 hn12
  have c1 : cleanTime w.startJulian w.startTimeSeconds 1 = (w.startJulian, w.startTimeSeconds) := by
    unfold cleanTime
    rw [if_neg ht.1, if_neg ht.2, if_neg (by omega), if_pos ⟨rfl, by omega, by unfold SECS_IN_1_DAY; omega⟩]
  have c2 : cleanTime w.endJulian w.endTimeSeconds 1 = (w.endJulian, w.endTimeSeconds) := by
    unfold cleanTime
    rw [if_neg ht'.1, if_neg ht'.2, if_neg (by omega), if_pos ⟨rfl, by omega, by unfold SECS_IN_1_DAY; omega⟩]
  unfold ztsRetrieveIrreg
  simp only
  rw [c1, c2]
  have d1 : (if base = 0 then (w.startJulian, w.startTimeSeconds) else (w.startJulian, w.startTimeSeconds)) = (w.startJulian, w.startTimeSeconds) := by
    by_cases c : base = 0 <;> simp [c]
  have d2 : (if base = 0 then (w.endJulian, w.endTimeSeconds) else (w.endJulian, w.endTimeSeconds)) = (w.endJulian, w.endTimeSeconds) := by
    by_cases c : base = 0 <;> simp [c]
  rw [d1, d2]
  simp only
  rw [G.block n1 _ hn1 a1 b1, G.block n2 _ hn2 a2 b2]
  have q1 : ∀ s : RetrieveSetup, s.flag = 0 → setupSubsequent f bs s = s := by
    intro s hs; unfold setupSubsequent; rw [if_neg (by omega)]
  have q2 : ∀ s : RetrieveSetup, s.flag = 0 → setupPrevious f bs s = s := by
    intro s hs; unfold setupPrevious; rw [if_neg (by omega)]
  rw [q1 _ rfl, q2 _ rfl]
  simp only
  obtain ⟨k, hk⟩ : ∃ k : Nat, n2 + 1 - n1 = k := ⟨(n2 + 1 - n1).toNat, by omega⟩
  rw [sizes_run G f hn2 k _ n1 hn1 hk (by omega)]
  simp only [Option.bind]
  obtain ⟨r, r1, r2, r3, _⟩ := retrieveLoop_ok G K ho hn2 w k ((jbOf n2 - jbOf n1).toNat + 1) n1 (sizes f jbOf k n1) false
    (retrieveBase base (retrieveGran gran w.startJulian w.endJulian) w.startJulian w.endJulian (jbOf n1))
    (retrieveGran gran w.startJulian w.endJulian) false hn1 hk (by omega) (Int.le_refl _) (by simp) (flag := 0)
  obtain ⟨p1, p2⟩ := plain_all G ho w (flag := 0) (nE := n2) (by omega) (by omega) (by omega) hal k n1 hn1
  refine ⟨r, r1, ?_, ?_⟩
  · rcases r3 with h | h
    · rw [← r2, List.pairwise_map] at p1
      refine List.Pairwise.imp ?_ p1
      intro x y hxy
      simp only at hxy
      rw [h] at hxy
      have hg := K.gpos
      exact Int.lt_of_mul_lt_mul_right (show x.time * g < y.time * g by omega) (by omega)
    · rw [h]; exact List.Pairwise.nil
  · intro x v
    have : (∃ e ∈ r.entries, r.base * 86400 + e.time * r.gran = x ∧ e.val = v) ↔ (x, v) ∈ allPairs f bs jbOf n2 0 w k n1 false := by
      rw [← r2, List.mem_map]
      constructor
      · rintro ⟨e, he, h3, h4⟩; exact ⟨e, he, by rw [h3, h4]⟩
      · rintro ⟨e, he, h3⟩; exact ⟨e, he, congrArg Prod.fst h3, congrArg Prod.snd h3⟩
    rw [this, p2]
    have e : n1 + (k : Int) = n2 + 1 := by omega
    rw [e]
    constructor
    · rintro ⟨h3, _, _, h4⟩; exact ⟨h3, h4⟩
    · rintro ⟨h3, h4, h5⟩; exact ⟨h3, by omega, by omega, h4, h5⟩

end Hec
