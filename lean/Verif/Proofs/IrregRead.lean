import Verif.Spec.IrregSeries
/-!
The loop that copies the values of a block in a time window.
-/
namespace Hec
open Spec

/-- First and last stored time in the window. -/
def winLo (unit jb : Int) (w : TimeWindow) : Int :=
  (w.startJulian - jb) * cdiv SECS_IN_1_DAY (if unit < 1 then 60 else unit) + cdiv w.startTimeSeconds (if unit < 1 then 60 else unit)
def winHi (unit jb : Int) (w : TimeWindow) : Int :=
  (w.endJulian - jb) * cdiv SECS_IN_1_DAY (if unit < 1 then 60 else unit) + cdiv w.endTimeSeconds (if unit < 1 then 60 else unit)

theorem inRange_eq (t status unit jb : Int) (w : TimeWindow) :
    isTimeInRange t status unit jb w =
      if status < 0 ∧ t < winLo unit jb w then (false, status)
      else if t > winHi unit jb w then (false, 1) else (true, 0) := rfl

variable {α : Type} {unit jb : Int} {w : TimeWindow}

/-- One round at a value. -/
theorem readLoop_step (l : List (Entry α)) (n i : Nat) (status : Int) (p nx any : Bool) (e : Entry α)
    (he : l[i]? = some e) :
    readLoop l unit jb w (n + 1) i status p nx any =
      (let r := isTimeInRange e.time status unit jb w
       let back := p && r.1
       let i' := if back && decide (i > 0) then i - 1 else i
       let succ := nx && !r.1 && any
       if r.1 || succ then
         match l[i']? with
         | none => []
         | some x => x :: readLoop l unit jb w n (i' + 1) r.2 (p && !back) (nx && !succ) true
       else if r.2 > 0 then []
       else readLoop l unit jb w n (i' + 1) r.2 (p && !back) (nx && !succ) any) := by
  rw [readLoop, he]; rfl

theorem readLoop_end (l : List (Entry α)) (n i : Nat) (status : Int) (p nx any : Bool) (h : l.length ≤ i) :
    readLoop l unit jb w n i status p nx any = [] := by
  cases n with
  | zero => rfl
  | succ n => rw [readLoop, List.getElem?_eq_none h]

theorem getElem?_at {β : Type} (a b : List β) (x : β) : (a ++ x :: b)[a.length]? = some x := by
  rw [List.getElem?_append_right (Nat.le_refl _), Nat.sub_self]; rfl

/-- After the last value in the window: the subsequent value at most. -/
theorem readLoop_tail (p c : List (Entry α)) (n : Nat) (hn : c.length ≤ n) (nx : Bool)
    (hc : ∀ e ∈ c, winHi unit jb w < e.time) :
    readLoop (p ++ c) unit jb w n p.length 0 false nx true = if nx then c.head?.toList else [] := by
  cases c with
  | nil => rw [readLoop_end _ _ _ _ _ _ _ (by simp)]; cases nx <;> rfl
  | cons x c =>
    obtain ⟨n, rfl⟩ : ∃ m, n = m + 1 := ⟨n - 1, by simp at hn; omega⟩
    rw [readLoop_step _ _ _ _ _ _ _ x (getElem?_at _ _ _)]
    have h1 : isTimeInRange x.time 0 unit jb w = (false, 1) := by
      rw [inRange_eq, if_neg (by omega), if_pos (hc x (by simp))]
    rw [h1]
    cases nx with
    | false => simp
    | true =>
      simp only [Bool.false_and, Bool.false_eq_true, if_false, Bool.true_and, Bool.not_false, Bool.or_true, if_true]
      rw [getElem?_at]
      simp only [List.head?_cons, Option.toList]
      congr 1
      cases c with
      | nil => exact readLoop_end _ _ _ _ _ _ _ (by simp)
      | cons y c =>
        cases n with
        | zero => simp at hn
        | succ n =>
          have e : (p ++ x :: y :: c) = (p ++ [x]) ++ y :: c := by simp
          have e2 : p.length + 1 = (p ++ [x]).length := by simp
          rw [e, e2, readLoop_step _ _ _ _ _ _ _ y (getElem?_at _ _ _)]
          have h2 : isTimeInRange y.time 1 unit jb w = (false, 1) := by
            rw [inRange_eq, if_neg (by omega), if_pos (hc y (by simp))]
          rw [h2]; simp

/-- Inside the window. -/
theorem readLoop_in (b : List (Entry α)) : ∀ (p c : List (Entry α)) (n : Nat), b.length + c.length ≤ n →
    ∀ (nx any : Bool), any = true ∨ b ≠ [] → (∀ e ∈ b, e.time ≤ winHi unit jb w) →
    (∀ e ∈ c, winHi unit jb w < e.time) →
    readLoop (p ++ (b ++ c)) unit jb w n p.length 0 false nx any = b ++ (if nx then c.head?.toList else []) := by
  induction b with
  | nil =>
    intro p c n hn nx any ha _ hc
    have : any = true := by rcases ha with h | h; exact h; exact absurd rfl h
    subst this
    simpa using readLoop_tail p c n (by simpa using hn) nx hc
  | cons x b ih =>
    intro p c n hn nx any _ hb hc
    obtain ⟨n, rfl⟩ : ∃ m, n = m + 1 := ⟨n - 1, by simp at hn; omega⟩
    rw [List.cons_append, readLoop_step _ _ _ _ _ _ _ x (getElem?_at _ _ _)]
    have hx := hb x (by simp)
    have h1 : isTimeInRange x.time 0 unit jb w = (true, 0) := by
      rw [inRange_eq, if_neg (by omega), if_neg (by omega)]
    rw [h1]
    simp only [Bool.false_and, Bool.false_eq_true, if_false, Bool.not_true, Bool.and_false, Bool.or_false, if_true,
      Bool.not_false, Bool.and_true]
    rw [getElem?_at]
    simp only
    have e : (p ++ x :: (b ++ c)) = (p ++ [x]) ++ (b ++ c) := by simp
    have e2 : p.length + 1 = (p ++ [x]).length := by simp
    rw [e, e2, ih (p ++ [x]) c n (by simp at hn; omega) nx true (Or.inl rfl) (fun e he => hb e (by simp [he])) hc]
    rfl

/-- The first value in the window. -/
theorem readLoop_first (a b c : List (Entry α)) (n : Nat) (prev nx : Bool)
    (hn : b.length + c.length + (if prev then 1 else 0) ≤ n) (hb0 : b ≠ [])
    (hb : ∀ e ∈ b, winLo unit jb w ≤ e.time ∧ e.time ≤ winHi unit jb w) (hc : ∀ e ∈ c, winHi unit jb w < e.time) :
    readLoop (a ++ (b ++ c)) unit jb w n a.length (-1) prev nx false =
      (if prev then a.getLast?.toList else []) ++ b ++ (if nx then c.head?.toList else []) := by
  cases b with
  | nil => exact absurd rfl hb0
  | cons x b =>
    obtain ⟨n, rfl⟩ : ∃ m, n = m + 1 := ⟨n - 1, by simp at hn; omega⟩
    have hx := hb x (by simp)
    have h1 : isTimeInRange x.time (-1) unit jb w = (true, 0) := by
      rw [inRange_eq, if_neg (by omega), if_neg (by omega)]
    rw [List.cons_append, readLoop_step _ _ _ _ _ _ _ x (getElem?_at _ _ _), h1]
    cases prev with
    | false =>
      simp only [Bool.false_and, Bool.false_eq_true, if_false, Bool.not_true, Bool.and_false, Bool.or_false, if_true,
        Bool.not_false, Bool.and_true]
      rw [getElem?_at]
      simp only
      have e : (a ++ x :: (b ++ c)) = (a ++ [x]) ++ (b ++ c) := by simp
      have e2 : a.length + 1 = (a ++ [x]).length := by simp
      rw [e, e2, readLoop_in b (a ++ [x]) c n (by simp at hn; omega) nx true (Or.inl rfl)
        (fun e he => (hb e (by simp [he])).2) hc]
      rfl
    | true =>
      simp only [Bool.true_and, Bool.not_true, Bool.and_false, Bool.false_and, Bool.or_false, if_true,
        Bool.not_false, Bool.and_true, decide_eq_true_eq]
      rcases List.eq_nil_or_concat a with ha | ⟨a', y, ha⟩
      · subst ha
        simp only [List.length_nil, List.nil_append, gt_iff_lt, Nat.lt_irrefl, if_false, List.getElem?_cons_zero,
          List.getLast?_nil, Option.toList]
        have := readLoop_in b [x] c n (by simp at hn; omega) nx true (Or.inl rfl)
          (fun e he => (hb e (by simp [he])).2) hc (unit := unit) (jb := jb) (w := w)
        simp only [List.length_singleton, List.cons_append, List.nil_append] at this
        rw [List.cons_append, this]; rfl
      · rw [List.concat_eq_append] at ha
        subst ha
        have e0 : (a' ++ [y]).length > 0 := by simp
        rw [if_pos e0]
        have e1 : (a' ++ [y]).length - 1 = a'.length := by simp
        rw [e1]
        have e2 : a' ++ [y] ++ x :: (b ++ c) = a' ++ y :: (x :: (b ++ c)) := by simp
        rw [e2, getElem?_at]
        simp only
        have e3 : a' ++ y :: (x :: (b ++ c)) = (a' ++ [y]) ++ ((x :: b) ++ c) := by simp
        have e4 : a'.length + 1 = (a' ++ [y]).length := by simp
        rw [e3, e4, readLoop_in (x :: b) (a' ++ [y]) c n (by simp at hn ⊢; omega) nx true (Or.inl rfl)
          (fun e he => (hb e he).2) hc]
        simp

/-- No value in the window: nothing is returned, whatever the flags. -/
theorem readLoop_none (a : List (Entry α)) : ∀ (p c : List (Entry α)) (n : Nat) (prev nx : Bool),
    (∀ e ∈ a, e.time < winLo unit jb w) → (∀ e ∈ c, winLo unit jb w ≤ e.time ∧ winHi unit jb w < e.time) →
    readLoop (p ++ (a ++ c)) unit jb w n p.length (-1) prev nx false = [] := by
  induction a with
  | nil =>
    intro p c n prev nx _ hc
    cases n with
    | zero => rfl
    | succ n =>
      cases c with
      | nil => exact readLoop_end _ _ _ _ _ _ _ (by simp)
      | cons x c =>
        rw [List.nil_append, readLoop_step _ _ _ _ _ _ _ x (getElem?_at _ _ _)]
        have := hc x (by simp)
        have h1 : isTimeInRange x.time (-1) unit jb w = (false, 1) := by
          rw [inRange_eq, if_neg (by omega), if_pos (by omega)]
        rw [h1]; simp
  | cons x a ih =>
    intro p c n prev nx ha hc
    cases n with
    | zero => rfl
    | succ n =>
      rw [List.cons_append, readLoop_step _ _ _ _ _ _ _ x (getElem?_at _ _ _)]
      have := ha x (by simp)
      have h1 : isTimeInRange x.time (-1) unit jb w = (false, -1) := by
        rw [inRange_eq, if_pos ⟨by omega, this⟩]
      rw [h1]
      simp only [Bool.and_false, Bool.false_and, Bool.false_eq_true, if_false, Bool.or_false, Bool.not_false, Bool.and_true]
      rw [if_neg (by omega)]
      have e : (p ++ x :: (a ++ c)) = (p ++ [x]) ++ (a ++ c) := by simp
      have e2 : p.length + 1 = (p ++ [x]).length := by simp
      rw [e, e2]
      exact ih (p ++ [x]) c n prev nx (fun e he => ha e (by simp [he])) hc

/-- Skipping the values before the window. -/
theorem readLoop_skip (a : List (Entry α)) : ∀ (p c : List (Entry α)) (n : Nat) (prev nx : Bool),
    (∀ e ∈ a, e.time < winLo unit jb w) →
    readLoop (p ++ (a ++ c)) unit jb w (a.length + n) p.length (-1) prev nx false =
    readLoop (p ++ (a ++ c)) unit jb w n (p.length + a.length) (-1) prev nx false := by
  induction a with
  | nil => intro p c n prev nx _; simp
  | cons x a ih =>
    intro p c n prev nx ha
    have e0 : (x :: a).length + n = (a.length + n) + 1 := by simp; omega
    rw [e0, List.cons_append, readLoop_step _ _ _ _ _ _ _ x (getElem?_at _ _ _)]
    have := ha x (by simp)
    have h1 : isTimeInRange x.time (-1) unit jb w = (false, -1) := by
      rw [inRange_eq, if_pos ⟨by omega, this⟩]
    rw [h1]
    simp only [Bool.and_false, Bool.false_and, Bool.false_eq_true, if_false, Bool.or_false, Bool.not_false, Bool.and_true]
    rw [if_neg (by omega)]
    have e : (p ++ x :: (a ++ c)) = (p ++ [x]) ++ (a ++ c) := by simp
    have e2 : p.length + 1 = (p ++ [x]).length := by simp
    rw [e, e2, ih (p ++ [x]) c n prev nx (fun e he => ha e (by simp [he]))]
    simp only [List.length_append, List.length_cons, List.length_nil]
    congr 1
    omega

/-- The values of a block before, in and after the window. -/
theorem split_window (lo hi : Int) : ∀ (l : List (Entry α)), Increasing l →
    l = l.filter (fun e => decide (e.time < lo)) ++ (l.filter (fun e => decide (lo ≤ e.time ∧ e.time ≤ hi)) ++
      l.filter (fun e => decide (lo ≤ e.time ∧ hi < e.time))) := by
  intro l
  induction l with
  | nil => intro _; rfl
  | cons x l ih =>
    intro h
    have h' := List.pairwise_cons.1 h
    have ih := ih h'.2
    by_cases c1 : x.time < lo
    · rw [List.filter_cons_of_pos (by simpa using c1), List.filter_cons_of_neg (by simp; omega),
        List.filter_cons_of_neg (by simp; omega), List.cons_append, ← ih]
    · have e1 : (x :: l).filter (fun e => decide (e.time < lo)) = [] := by
        rw [List.filter_eq_nil_iff]
        intro e he
        rcases List.mem_cons.1 he with h1 | h1
        · subst h1; simp; omega
        · have := h'.1 e h1; simp; omega
      have e1' : l.filter (fun e => decide (e.time < lo)) = [] := by
        rw [List.filter_eq_nil_iff]
        intro e he
        have := h'.1 e he; simp; omega
      rw [e1'] at ih
      rw [e1]
      by_cases c2 : x.time ≤ hi
      · rw [List.filter_cons_of_pos (by simp; omega), List.filter_cons_of_neg (by simp; omega)]
        simp only [List.nil_append, List.cons_append] at ih ⊢
        rw [← ih]
      · have e2 : l.filter (fun e => decide (lo ≤ e.time ∧ e.time ≤ hi)) = [] := by
          rw [List.filter_eq_nil_iff]
          intro e he
          have := h'.1 e he; simp; omega
        rw [List.filter_cons_of_neg (by simp; omega), List.filter_cons_of_pos (by simp; omega), e2]
        rw [e2] at ih
        simp only [List.nil_append] at ih ⊢
        rw [← ih]

/-- What a block read returns: with a value in the window, those in the window, preceded by the last
earlier one and followed by the first later one if asked for; without one, nothing. -/
theorem readBlock_spec (r : IrregRec α) (bs jb : Int) (w : TimeWindow) (max : Int) (prev nx : Bool)
    (hi : Increasing r.entries) (hm : (r.entries.length : Int) ≤ max) :
    let lo := winLo (unitOf bs) jb w
    let hi := winHi (unitOf bs) jb w
    let A := r.entries.filter (fun e => decide (e.time < lo))
    let B := r.entries.filter (fun e => decide (lo ≤ e.time ∧ e.time ≤ hi))
    let C := r.entries.filter (fun e => decide (lo ≤ e.time ∧ hi < e.time))
    irregReadBlock r bs jb w max prev nx =
      if B = [] then [] else (if prev then A.getLast?.toList else []) ++ B ++ (if nx then C.head?.toList else []) := by
  intro lo hi' A B C
  have hs : r.entries = A ++ (B ++ C) := split_window lo hi' r.entries hi
  have hA : ∀ e ∈ A, e.time < lo := by intro e he; simpa using (List.mem_filter.1 he).2
  have hB : ∀ e ∈ B, lo ≤ e.time ∧ e.time ≤ hi' := by intro e he; simpa using (List.mem_filter.1 he).2
  have hC : ∀ e ∈ C, lo ≤ e.time ∧ hi' < e.time := by intro e he; simpa using (List.mem_filter.1 he).2
  have hlen : r.entries.length = A.length + (B.length + C.length) := by
    have := congrArg List.length hs; simpa using this
  have e1 : irregReadBlock r bs jb w max prev nx =
      readLoop r.entries (unitOf bs) jb w (r.entries.length + (if prev then 1 else 0)) 0 (-1) prev nx false := by
    unfold irregReadBlock
    simp only
    rw [if_neg (show ¬ (r.entries.length : Int) > max by omega), Int.toNat_natCast, List.take_length]
    cases prev
    · rfl
    · simp only [if_true]; congr 1
  rw [e1]
  clear e1
  rw [hlen]
  generalize r.entries = l at hs
  subst hs
  by_cases c : B = []
  · rw [if_pos c, c]
    exact readLoop_none A [] C _ prev nx hA hC
  · rw [if_neg c]
    have k := readLoop_skip A [] (B ++ C) ((B.length + C.length) + (if prev then 1 else 0)) prev nx hA (unit := unitOf bs) (jb := jb) (w := w)
    simp only [List.nil_append, List.length_nil, Nat.zero_add] at k
    rw [Nat.add_assoc, k]
    exact readLoop_first A B C _ prev nx (by cases prev <;> simp) c hB (fun e he => (hC e he).2)

/-- Without the flags: the values in the window. -/
theorem readBlock_plain (r : IrregRec α) (bs jb : Int) (w : TimeWindow) (max : Int)
    (hi : Increasing r.entries) (hm : (r.entries.length : Int) ≤ max) :
    irregReadBlock r bs jb w max false false =
      r.entries.filter (fun e => decide (winLo (unitOf bs) jb w ≤ e.time ∧ e.time ≤ winHi (unitOf bs) jb w)) := by
  have h := readBlock_spec r bs jb w max false false hi hm
  simp only at h
  rw [h]
  by_cases c : r.entries.filter (fun e => decide (winLo (unitOf bs) jb w ≤ e.time ∧ e.time ≤ winHi (unitOf bs) jb w)) = []
  · rw [if_pos c, c]
  · rw [if_neg c]; simp

end Hec
