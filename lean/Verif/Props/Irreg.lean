import Verif.Props.Times
import Verif.Proofs.Irreg
/-!
C36, C37: merging and replacing irregular data within a block (ztsIrregMergeBlocks).
-/
namespace Hec
open Spec

/-- C36. Merging (storage flag 0): the result holds every new value with its own note, every stored
value with its own note unless a new value has the same time, nothing else, in strictly increasing
time order (so each exactly once). -/
theorem C36_merge {α : Type} (new stored : List (Entry α)) (ln ls : Lines)
    (hn : Increasing new) (hs : Increasing stored) (fn : NotesFit new ln) (fs : NotesFit stored ls) :
    (∀ x, x ∈ mergeBlocks new ln stored ls ↔
      x ∈ withNotes new ln ∨ (x ∈ withNotes stored ls ∧ NoTime new x.1.time)) ∧
    Increasing ((mergeBlocks new ln stored ls).map Prod.fst) :=
  merge_spec _ new ln stored ls (Nat.le_refl _) hn hs fn fs

/-- Storing the same data again changes nothing. -/
theorem C36_idempotent {α : Type} (new stored : List (Entry α)) (hn : Increasing new) (hs : Increasing stored) :
    let once := (mergeBlocks new none stored none).map Prod.fst
    ∀ e, e ∈ (mergeBlocks new none once none).map Prod.fst ↔ e ∈ once := by
  intro once e
  obtain ⟨m1, i1⟩ := C36_merge new stored none none hn hs trivial trivial
  obtain ⟨m2, -⟩ := C36_merge new once none none hn i1 trivial trivial
  have k1 : ∀ e, e ∈ once ↔ e ∈ new ∨ (e ∈ stored ∧ NoTime new e.time) := by
    intro e
    constructor
    · intro h
      obtain ⟨x, hx, rfl⟩ := List.mem_map.1 h
      rcases (m1 x).1 hx with h | ⟨h, h'⟩
      · left
        obtain ⟨y, hy, rfl⟩ := List.mem_map.1 h
        exact hy
      · right
        obtain ⟨y, hy, rfl⟩ := List.mem_map.1 h
        exact ⟨hy, h'⟩
    · rintro (h | ⟨h, h'⟩)
      · exact List.mem_map.2 ⟨(e, ""), (m1 _).2 (Or.inl (List.mem_map.2 ⟨e, h, rfl⟩)), rfl⟩
      · exact List.mem_map.2 ⟨(e, ""), (m1 _).2 (Or.inr ⟨List.mem_map.2 ⟨e, h, rfl⟩, h'⟩), rfl⟩
  constructor
  · intro h
    obtain ⟨x, hx, rfl⟩ := List.mem_map.1 h
    rcases (m2 x).1 hx with h | ⟨h, h'⟩
    · obtain ⟨y, hy, rfl⟩ := List.mem_map.1 h
      exact (k1 y).2 (Or.inl hy)
    · obtain ⟨y, hy, rfl⟩ := List.mem_map.1 h
      exact hy
  · intro h
    refine List.mem_map.2 ⟨(e, ""), (m2 _).2 ?_, rfl⟩
    rcases (k1 e).1 h with h' | ⟨h', h''⟩
    · exact Or.inl (List.mem_map.2 ⟨e, h', rfl⟩)
    · exact Or.inr ⟨List.mem_map.2 ⟨e, h, rfl⟩, h''⟩

/-- A case meeting the hypotheses: the new value at time 3 replaces the stored one, notes follow. -/
example :
    let new : List (Entry Int) := [⟨3, 30⟩, ⟨7, 70⟩]
    let stored : List (Entry Int) := [⟨1, 1⟩, ⟨3, 3⟩, ⟨9, 9⟩]
    Increasing new ∧ Increasing stored ∧ NotesFit new (some ["n3", "n7"]) ∧ NotesFit stored (none : Lines) ∧
    mergeBlocks new (some ["n3", "n7"]) stored none =
      [(⟨1, 1⟩, ""), (⟨3, 30⟩, "n3"), (⟨7, 70⟩, "n7"), (⟨9, 9⟩, "")] := by
  refine ⟨?_, ?_, ?_, trivial, by decide⟩
  · simp [Increasing]
  · simp [Increasing]
  · simp [NotesFit]

/-! ### C37 -/

/-- The stored values before time `t`, and after it. -/
def earlier {α : Type} (t : Int) (l : List (Entry α)) : List (Entry α) := l.filter (fun e => decide (e.time < t))
def later {α : Type} (t : Int) (l : List (Entry α)) : List (Entry α) := l.filter (fun e => decide (t < e.time))

theorem takeWhile_lt_filter {α : Type} (t : Int) : ∀ (l : List (Entry α)), Increasing l →
    l.takeWhile (fun e => decide (e.time < t)) = earlier t l ∧
    l.dropWhile (fun e => decide (e.time < t)) = l.filter (fun e => decide (t ≤ e.time)) := by
  intro l
  induction l with
  | nil => intro _; exact ⟨rfl, rfl⟩
  | cons a l ih =>
    intro h
    have h' := List.pairwise_cons.1 h
    obtain ⟨i1, i2⟩ := ih h'.2
    by_cases c : a.time < t
    · have c2 : ¬ t ≤ a.time := by omega
      constructor
      · simp only [earlier]; simp only [List.takeWhile_cons, List.filter_cons, c, decide_true, if_true]
        rw [i1]; rfl
      · simp only [List.dropWhile_cons, List.filter_cons, c, decide_true, if_true, c2, decide_false]
        rw [i2]; simp
    · have c2 : t ≤ a.time := by omega
      have n1 : l.filter (fun e => decide (e.time < t)) = [] := by
        rw [List.filter_eq_nil_iff]
        intro e he
        have := h'.1 e he
        simp; omega
      have n2 : l.filter (fun e => decide (t ≤ e.time)) = l := by
        rw [List.filter_eq_self]
        intro e he
        have := h'.1 e he
        simp; omega
      constructor
      · simp [earlier, c, n1]
      · simp [c, c2, n2]

/-- What the replacement does, exactly: `W` is the start of the window in block units (the time of
the first new value unless the window was given).  The stored values after the last new one are cut
to `stored - 2 × (stored before the window)`. -/
theorem C37_exact {α : Type} (before : Int → Bool) (fromStart toEnd : Bool) (first : Entry α)
    (more : List (Entry α)) (ln : Lines) (stored : List (Entry α)) (ls : Lines)
    (hs : Increasing stored) (fn : NotesFit (first :: more) ln)
    (hw : ∀ e ∈ stored, before e.time = decide (e.time < first.time)) (last : Int)
    (hl : last = ((first :: more).getLast?.getD first).time) (hfl : first.time ≤ last) :
    let lead := if fromStart then [] else earlier first.time stored
    (replaceBlocks before fromStart toEnd (first :: more) ln stored ls).map Prod.fst =
      lead ++ (first :: more) ++
        (if toEnd then [] else (later last stored).take (stored.length - 2 * lead.length)) := by
  intro lead
  have e := replace_exact before fromStart toEnd first more ln stored ls fn
  simp only [← hl] at e
  rw [e]
  cases fromStart
  · have t1 : ∀ l : List (Entry α), (∀ e ∈ l, before e.time = decide (e.time < first.time)) →
        l.takeWhile (fun e => before e.time && decide (e.time < first.time) && !false) =
          l.takeWhile (fun e => decide (e.time < first.time)) ∧
        l.dropWhile (fun e => before e.time && decide (e.time < first.time) && !false) =
          l.dropWhile (fun e => decide (e.time < first.time)) := by
      intro l
      induction l with
      | nil => intro _; exact ⟨rfl, rfl⟩
      | cons a l ih =>
        intro h
        obtain ⟨i1, i2⟩ := ih (fun e he => h e (by simp [he]))
        have ha := h a (by simp)
        by_cases c : a.time < first.time
        · simp only [List.takeWhile_cons, List.dropWhile_cons, ha, c, decide_true, Bool.and_self,
            Bool.not_false, if_true]
          exact ⟨congrArg _ i1, i2⟩
        · simp [c]
    obtain ⟨a1, a2⟩ := t1 stored hw
    obtain ⟨b1, b2⟩ := takeWhile_lt_filter first.time stored hs
    rw [a1, a2, b1, b2]
    have f : (stored.filter (fun e => decide (first.time ≤ e.time))).filter (fun e => decide (last < e.time)) =
        later last stored := by
      unfold later
      rw [List.filter_filter]
      apply List.filter_congr
      intro x _
      by_cases c : last < x.time
      · have : first.time ≤ x.time := by omega
        simp [c, this]
      · simp [c]
    rw [f]
    rfl
  · have t0 : ∀ l : List (Entry α),
        l.takeWhile (fun e => before e.time && decide (e.time < first.time) && !true) = [] ∧
        l.dropWhile (fun e => before e.time && decide (e.time < first.time) && !true) = l := by
      intro l
      cases l with
      | nil => exact ⟨rfl, rfl⟩
      | cons a l => simp
    obtain ⟨a1, a2⟩ := t0 stored
    rw [a1, a2]
    rfl

/-- C37, the part that holds: when the block has at least as many stored values inside the
replaced range as before it (or the range reaches the start or the end of the block), exactly the
stored values outside the range are kept and all new ones are added. -/
theorem C37_replace_partial {α : Type} (before : Int → Bool) (fromStart toEnd : Bool) (first : Entry α)
    (more : List (Entry α)) (ln : Lines) (stored : List (Entry α)) (ls : Lines)
    (hs : Increasing stored) (fn : NotesFit (first :: more) ln)
    (hw : ∀ e ∈ stored, before e.time = decide (e.time < first.time)) (last : Int)
    (hl : last = ((first :: more).getLast?.getD first).time) (hfl : first.time ≤ last)
    (hb : fromStart = true ∨ toEnd = true ∨
      (earlier first.time stored).length + (earlier first.time stored).length +
        (later last stored).length ≤ stored.length) (e : Entry α) :
    e ∈ (replaceBlocks before fromStart toEnd (first :: more) ln stored ls).map Prod.fst ↔
      e ∈ first :: more ∨
      (e ∈ stored ∧ ((fromStart = false ∧ e.time < first.time) ∨ (toEnd = false ∧ last < e.time))) := by
  rw [C37_exact before fromStart toEnd first more ln stored ls hs fn hw last hl hfl]
  have hll : (later last stored).length ≤ stored.length := List.length_filter_le _ _
  cases fromStart <;> cases toEnd
  · have ht : (later last stored).take (stored.length - 2 * (earlier first.time stored).length) = later last stored := by
      apply List.take_of_length_le
      simp at hb
      omega
    simp only [Bool.false_eq_true, if_false, ht]
    simp only [earlier, later, List.mem_append, List.mem_filter, decide_eq_true_eq, true_and]
    constructor
    · rintro ((⟨h1, h2⟩ | h) | ⟨h1, h2⟩)
      · exact Or.inr ⟨h1, Or.inl h2⟩
      · exact Or.inl h
      · exact Or.inr ⟨h1, Or.inr h2⟩
    · rintro (h | ⟨h1, h2 | h2⟩)
      · exact Or.inl (Or.inr h)
      · exact Or.inl (Or.inl ⟨h1, h2⟩)
      · exact Or.inr ⟨h1, h2⟩
  · simp only [Bool.false_eq_true, if_false, if_true, List.append_nil]
    simp only [earlier, List.mem_append, List.mem_filter, decide_eq_true_eq]
    constructor
    · rintro (⟨h1, h2⟩ | h)
      · exact Or.inr ⟨h1, Or.inl ⟨trivial, h2⟩⟩
      · exact Or.inl h
    · rintro (h | ⟨h1, h2 | h2⟩)
      · exact Or.inr h
      · exact Or.inl ⟨h1, h2.2⟩
      · simp at h2
  · have ht : (later last stored).take (stored.length - 2 * ([] : List (Entry α)).length) = later last stored := by
      apply List.take_of_length_le
      simpa using hll
    simp only [Bool.false_eq_true, if_false, if_true, ht]
    simp only [later, List.mem_append, List.mem_filter, decide_eq_true_eq, List.nil_append]
    constructor
    · rintro (h | ⟨h1, h2⟩)
      · exact Or.inl h
      · exact Or.inr ⟨h1, Or.inr ⟨trivial, h2⟩⟩
    · rintro (h | ⟨h1, h2 | h2⟩)
      · exact Or.inl h
      · simp at h2
      · exact Or.inr ⟨h1, h2.2⟩
  · simp

/-- The start of the window as the code compares it: if the window starts at the first new value,
the test used in the loop is `time < first new time`.  `g` is 1 (seconds) or, for century blocks, 60. -/
theorem C37_window (jblock g sj ss first t : Int) (hg : 1 ≤ g) (hd : g ∣ 86400)
    (h1 : IsTime (jblock + 0) t) (h2 : IsTime (sj + 0) ss)
    (hw : instantG jblock first g = instant sj ss) :
    beforeWindow jblock g sj ss t = decide (t < first) := by
  unfold beforeWindow
  rw [C06_compareTimes jblock t 0 g sj ss 0 1 hg hd (by omega) ⟨86400, rfl⟩ h1 h2]
  unfold cmp3
  have a1 : instantG (sj + 0) ss 1 = instantG jblock first g := by
    rw [hw]; unfold instantG instant; omega
  rw [a1]
  have a2 : (instantG (jblock + 0) t g < instantG jblock first g) ↔ t < first := by
    unfold instantG
    constructor
    · intro h
      have h' : t * g < first * g := by omega
      exact Int.lt_of_mul_lt_mul_right h' (by omega)
    · intro h
      have := Int.mul_lt_mul_of_pos_right h (show 0 < g by omega)
      omega
  by_cases c : t < first
  · rw [if_pos (a2.2 c)]; simp [c]
  · rw [if_neg (fun h => c (a2.1 h))]
    split <;> simp [c]

/-- A case meeting the hypotheses of C37_replace_partial (one value before, one inside, one after). -/
example :
    let stored : List (Entry Int) := [⟨60, 1⟩, ⟨120, 2⟩, ⟨300, 3⟩]
    Increasing stored ∧
    (earlier 120 stored).length + (earlier 120 stored).length + (later 180 stored).length ≤ stored.length ∧
    (∀ e ∈ stored, beforeWindow 40000 1 40000 120 e.time = decide (e.time < 120)) ∧
    (replaceBlocks (beforeWindow 40000 1 40000 120) false false [⟨120, 20⟩, ⟨180, 21⟩] none stored none).map Prod.fst
      = [⟨60, 1⟩, ⟨120, 20⟩, ⟨180, 21⟩, ⟨300, 3⟩] := by
  refine ⟨by simp [Increasing], by decide, by decide, by decide⟩

theorem le_getLast {α : Type} : ∀ (l : List (Entry α)), Increasing l → ∀ (h : l ≠ []), ∀ x ∈ l,
    x.time ≤ (l.getLast h).time := by
  intro l
  induction l with
  | nil => intro _ h; exact absurd rfl h
  | cons a l ih =>
    intro hi h x hx
    have hi' := List.pairwise_cons.1 hi
    cases l with
    | nil => simp at hx; subst hx; simp
    | cons b l =>
      rw [List.getLast_cons (by simp)]
      rcases List.mem_cons.1 hx with rfl | hx
      · have := hi'.1 b (by simp)
        have := ih hi'.2 (by simp) b (by simp)
        omega
      · exact ih hi'.2 (by simp) x hx

/-- C37, failing part, in general: when more stored values lie before the replaced range than inside
it and some lie after it, at least one value after the range is lost. -/
theorem C37_loses_violation {α : Type} (before : Int → Bool) (first : Entry α)
    (more : List (Entry α)) (ln : Lines) (stored : List (Entry α)) (ls : Lines)
    (hn : Increasing (first :: more)) (hs : Increasing stored) (fn : NotesFit (first :: more) ln)
    (hw : ∀ e ∈ stored, before e.time = decide (e.time < first.time)) (last : Int)
    (hl : last = ((first :: more).getLast?.getD first).time) (hfl : first.time ≤ last)
    (hb : stored.length < (earlier first.time stored).length + (earlier first.time stored).length +
        (later last stored).length) (ha : later last stored ≠ []) :
    ∃ e ∈ stored, last < e.time ∧
      e ∉ (replaceBlocks before false false (first :: more) ln stored ls).map Prod.fst := by
  rw [C37_exact before false false first more ln stored ls hs fn hw last hl hfl]
  simp only [Bool.false_eq_true, if_false]
  generalize hr : stored.length - 2 * (earlier first.time stored).length = room
  have hroom : room < (later last stored).length := by
    have : 0 < (later last stored).length := List.length_pos_iff.2 ha
    omega
  have hmem : (later last stored)[room] ∈ later last stored := List.getElem_mem hroom
  have hm := List.mem_filter.1 hmem
  simp only [decide_eq_true_eq] at hm
  refine ⟨(later last stored)[room], hm.1, hm.2, ?_⟩
  have inc : Increasing (later last stored) := List.Pairwise.filter _ hs
  have hlast : ∀ x ∈ first :: more, x.time ≤ last := by
    intro x hx
    rw [hl]
    have hne : (first :: more) ≠ [] := by simp
    rw [List.getLast?_eq_some_getLast hne, Option.getD_some]
    exact le_getLast (first :: more) hn hne x hx
  intro hin
  rcases List.mem_append.1 hin with h | h
  · rcases List.mem_append.1 h with h | h
    · have := (List.mem_filter.1 h).2
      simp only [decide_eq_true_eq] at this
      omega
    · have := hlast _ h
      omega
  · obtain ⟨i, hi, he⟩ := List.mem_iff_getElem.1 h
    rw [List.length_take] at hi
    rw [List.getElem_take] at he
    have := List.pairwise_iff_getElem.1 inc i room (by omega) hroom (by omega)
    rw [he] at this
    omega

/-- A concrete loss: two stored values before the new one, two after; both values after it are lost
and the store reports success. -/
example :
    (replaceBlocks (beforeWindow 40000 1 40000 180) false false [(⟨180, 9⟩ : Entry Int)] none
      [⟨60, 1⟩, ⟨120, 2⟩, ⟨300, 3⟩, ⟨360, 4⟩] none).map Prod.fst = [⟨60, 1⟩, ⟨120, 2⟩, ⟨180, 9⟩] := by
  decide

/-- C37, failing part: the notes of the values kept after the range are those of earlier values
(the read position of the notes is set back to the start). -/
theorem C37_notes_violation :
    replaceBlocks (beforeWindow 40000 1 40000 120) false false [(⟨120, 9⟩ : Entry Int)] (some ["new"])
      [⟨60, 1⟩, ⟨120, 2⟩, ⟨300, 3⟩] (some ["a", "b", "c"]) =
    [(⟨60, 1⟩, "a"), (⟨120, 9⟩, "new"), (⟨300, 3⟩, "b")] := by
  decide

end Hec
