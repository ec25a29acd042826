import Verif.Spec.Irreg
/-!
Lemmas on merging irregular data.
-/
namespace Hec
open Spec

theorem nextLine_fit {α : Type} {s : Entry α} {ss : List (Entry α)} {ls : Lines} (h : NotesFit (s :: ss) ls) :
    NotesFit ss (nextLine ls).2 ∧ withNotes (s :: ss) ls = (s, (nextLine ls).1) :: withNotes ss (nextLine ls).2 := by
  match ls with
  | none => exact ⟨trivial, rfl⟩
  | some [] => simp [NotesFit] at h
  | some (l :: ls) => exact ⟨by simp [NotesFit, nextLine] at h ⊢; exact h, rfl⟩

theorem withNotes_fst {α : Type} : ∀ (l : List (Entry α)) (ls : Lines), NotesFit l ls →
    (withNotes l ls).map Prod.fst = l := by
  intro l ls h
  match ls with
  | none => simp [withNotes, Function.comp_def]
  | some ls =>
    simp only [withNotes, NotesFit] at *
    rw [List.map_fst_zip (by omega)]

theorem merge_spec {α : Type} : ∀ (n : Nat) (ts : List (Entry α)) (ls : Lines) (rd : List (Entry α)) (lr : Lines),
    ts.length + rd.length ≤ n → Increasing ts → Increasing rd → NotesFit ts ls → NotesFit rd lr →
    (∀ x, x ∈ mergeLoop n ts ls rd lr ↔
      x ∈ withNotes ts ls ∨ (x ∈ withNotes rd lr ∧ NoTime ts x.1.time)) ∧
    Increasing ((mergeLoop n ts ls rd lr).map Prod.fst) := by
  intro n
  induction n with
  | zero =>
    intro ts ls rd lr hn _ _ hs hr
    have h1 : ts = [] := List.length_eq_zero_iff.1 (by omega)
    have h2 : rd = [] := List.length_eq_zero_iff.1 (by omega)
    subst h1; subst h2
    have e1 : withNotes ([] : List (Entry α)) ls = [] := by cases ls <;> simp [withNotes]
    have e2 : withNotes ([] : List (Entry α)) lr = [] := by cases lr <;> simp [withNotes]
    simp [mergeLoop, e1, e2, Increasing]
  | succ n ih =>
    intro ts ls rd lr hn its ird hs hr
    have mem_time : ∀ (l : List (Entry α)) (k : Lines), NotesFit l k → ∀ x ∈ withNotes l k, x.1 ∈ l := by
      intro l k hf x hx
      have := List.mem_map_of_mem (f := Prod.fst) hx
      rwa [withNotes_fst l k hf] at this
    match ts, rd with
    | [], [] =>
      have e1 : withNotes ([] : List (Entry α)) ls = [] := by cases ls <;> simp [withNotes]
      have e2 : withNotes ([] : List (Entry α)) lr = [] := by cases lr <;> simp [withNotes]
      simp [mergeLoop, e1, e2, Increasing]
    | s :: ss, [] =>
      have e2 : ∀ k, withNotes ([] : List (Entry α)) k = [] := fun k => by cases k <;> simp [withNotes]
      obtain ⟨f1, f2⟩ := nextLine_fit hs
      obtain ⟨m, i⟩ := ih ss (nextLine ls).2 [] lr (by simp at hn ⊢; omega) (List.Pairwise.of_cons its)
        List.Pairwise.nil f1 hr
      simp only [mergeLoop]
      constructor
      · intro x
        rw [List.mem_cons, m, f2, List.mem_cons, e2]
        simp
      · rw [List.map_cons]
        refine List.Pairwise.cons ?_ i
        intro y hy
        obtain ⟨x, hx, rfl⟩ := List.mem_map.1 hy
        rcases (m x).1 hx with h | ⟨h, -⟩
        · exact (List.pairwise_cons.1 its).1 _ (mem_time _ _ f1 x h)
        · rw [e2] at h; simp at h
    | [], r :: rs =>
      have e1 : ∀ k, withNotes ([] : List (Entry α)) k = [] := fun k => by cases k <;> simp [withNotes]
      obtain ⟨f1, f2⟩ := nextLine_fit hr
      obtain ⟨m, i⟩ := ih [] ls rs (nextLine lr).2 (by simp at hn ⊢; omega) List.Pairwise.nil
        (List.Pairwise.of_cons ird) hs f1
      simp only [mergeLoop]
      constructor
      · intro x
        rw [List.mem_cons, m, f2, List.mem_cons, e1]
        simp [NoTime]
      · rw [List.map_cons]
        refine List.Pairwise.cons ?_ i
        intro y hy
        obtain ⟨x, hx, rfl⟩ := List.mem_map.1 hy
        rcases (m x).1 hx with h | ⟨h, -⟩
        · rw [e1] at h; simp at h
        · exact (List.pairwise_cons.1 ird).1 _ (mem_time _ _ f1 x h)
    | s :: ss, r :: rs =>
      have its' := List.pairwise_cons.1 its
      have ird' := List.pairwise_cons.1 ird
      obtain ⟨fs1, fs2⟩ := nextLine_fit hs
      obtain ⟨fr1, fr2⟩ := nextLine_fit hr
      simp only [mergeLoop]
      by_cases h1 : s.time < r.time
      · rw [if_pos h1]
        obtain ⟨m, i⟩ := ih ss (nextLine ls).2 (r :: rs) lr (by simp at hn ⊢; omega) its'.2 ird fs1 hr
        constructor
        · intro x
          rw [List.mem_cons, m, fs2, List.mem_cons, or_assoc]
          refine or_congr_right (or_congr_right ?_)
          refine and_congr_right fun hx => ?_
          have hxr : x.1 ∈ r :: rs := mem_time _ _ hr x hx
          have hlt : s.time < x.1.time := by
            rcases List.mem_cons.1 hxr with h | h
            · rw [h]; exact h1
            · have := ird'.1 _ h; omega
          unfold NoTime
          constructor
          · intro h e he
            rcases List.mem_cons.1 he with rfl | he
            · omega
            · exact h e he
          · intro h e he
            exact h e (by simp [he])
        · rw [List.map_cons]
          refine List.Pairwise.cons ?_ i
          intro y hy
          obtain ⟨x, hx, rfl⟩ := List.mem_map.1 hy
          rcases (m x).1 hx with h | ⟨h, -⟩
          · exact its'.1 _ (mem_time _ _ fs1 x h)
          · rcases List.mem_cons.1 (mem_time _ _ hr x h) with h | h
            · show s.time < x.1.time; rw [h]; exact h1
            · have := ird'.1 _ h
              show s.time < x.1.time; omega
      · rw [if_neg h1]
        by_cases h2 : s.time > r.time
        · rw [if_pos h2]
          obtain ⟨m, i⟩ := ih (s :: ss) ls rs (nextLine lr).2 (by simp at hn ⊢; omega) its ird'.2 hs fr1
          constructor
          · intro x
            rw [List.mem_cons, m, fr2, List.mem_cons]
            constructor
            · rintro (rfl | h | ⟨h, hn⟩)
              · right
                refine ⟨Or.inl rfl, ?_⟩
                intro e he
                rcases List.mem_cons.1 he with rfl | he
                · show e.time ≠ r.time; omega
                · have := its'.1 _ he
                  show e.time ≠ r.time; omega
              · exact Or.inl h
              · exact Or.inr ⟨Or.inr h, hn⟩
            · rintro (h | ⟨rfl | h, hn⟩)
              · exact Or.inr (Or.inl h)
              · exact Or.inl rfl
              · exact Or.inr (Or.inr ⟨h, hn⟩)
          · rw [List.map_cons]
            refine List.Pairwise.cons ?_ i
            intro y hy
            obtain ⟨x, hx, rfl⟩ := List.mem_map.1 hy
            rcases (m x).1 hx with h | ⟨h, -⟩
            · rcases List.mem_cons.1 (mem_time _ _ hs x h) with h | h
              · show r.time < x.1.time; rw [h]; omega
              · have := its'.1 _ h
                show r.time < x.1.time; omega
            · exact ird'.1 _ (mem_time _ _ fr1 x h)
        · rw [if_neg h2]
          have heq : s.time = r.time := by omega
          obtain ⟨m, i⟩ := ih ss (nextLine ls).2 rs (nextLine lr).2 (by simp at hn ⊢; omega) its'.2 ird'.2 fs1 fr1
          constructor
          · intro x
            rw [List.mem_cons, m, fs2, List.mem_cons, or_assoc, fr2, List.mem_cons]
            refine or_congr_right (or_congr_right ?_)
            constructor
            · rintro ⟨h, hn⟩
              refine ⟨Or.inr h, ?_⟩
              intro e he
              rcases List.mem_cons.1 he with rfl | he
              · have := ird'.1 _ (mem_time _ _ fr1 x h); omega
              · exact hn e he
            · rintro ⟨rfl | h, hn⟩
              · exact absurd heq (hn s (by simp))
              · exact ⟨h, fun e he => hn e (by simp [he])⟩
          · rw [List.map_cons]
            refine List.Pairwise.cons ?_ i
            intro y hy
            obtain ⟨x, hx, rfl⟩ := List.mem_map.1 hy
            rcases (m x).1 hx with h | ⟨h, -⟩
            · exact its'.1 _ (mem_time _ _ fs1 x h)
            · have := ird'.1 _ (mem_time _ _ fr1 x h)
              show s.time < x.1.time; omega

/-! ### replacing -/

theorem leading_spec {α : Type} (before : Int → Bool) (f : Int) (fs : Bool) :
    ∀ (n : Nat) (rd : List (Entry α)) (lr : Lines), rd.length ≤ n →
      let p : Entry α → Bool := fun e => before e.time && decide (e.time < f) && !fs
      let x := leadingLoop before f fs n rd lr
      x.1.map Prod.fst = rd.takeWhile p ∧ x.2.1 = rd.dropWhile p ∧
      (NotesFit rd lr → ∀ y ∈ x.1, y ∈ withNotes rd lr) := by
  intro n
  induction n with
  | zero =>
    intro rd lr h
    have : rd = [] := List.length_eq_zero_iff.1 (by omega)
    subst this
    simp [leadingLoop]
  | succ n ih =>
    intro rd lr h
    match rd with
    | [] => simp [leadingLoop]
    | r :: rs =>
      simp only [List.length_cons] at h
      obtain ⟨h1, h2, h3⟩ := ih rs (nextLine lr).2 (by omega)
      simp only [leadingLoop]
      by_cases hc : before r.time ∧ r.time < f ∧ fs = false
      · have hp : (before r.time && decide (r.time < f) && !fs) = true := by
          obtain ⟨a, b, c⟩ := hc; simp [a, b, c]
        rw [if_pos hc, List.takeWhile_cons_of_pos (p := fun e : Entry α => before e.time && decide (e.time < f) && !fs) hp,
          List.dropWhile_cons_of_pos (p := fun e : Entry α => before e.time && decide (e.time < f) && !fs) hp]
        refine ⟨by simp only [List.map_cons]; rw [h1], h2, ?_⟩
        intro hf y hy
        obtain ⟨g1, g2⟩ := nextLine_fit hf
        rw [g2]
        rcases List.mem_cons.1 hy with rfl | hy
        · simp
        · exact List.mem_cons_of_mem _ (h3 g1 y hy)
      · have hp : ¬ (before r.time && decide (r.time < f) && !fs) = true := by
          intro hh
          apply hc
          simp only [Bool.and_eq_true, decide_eq_true_eq, Bool.not_eq_true'] at hh
          exact ⟨hh.1.1, hh.1.2, hh.2⟩
        rw [if_neg hc, List.takeWhile_cons_of_neg (p := fun e : Entry α => before e.time && decide (e.time < f) && !fs) hp,
          List.dropWhile_cons_of_neg (p := fun e : Entry α => before e.time && decide (e.time < f) && !fs) hp]
        simp

theorem new_spec {α : Type} : ∀ (n : Nat) (ts : List (Entry α)) (ls : Lines), ts.length ≤ n → NotesFit ts ls →
    newLoop n ts ls = withNotes ts ls := by
  intro n
  induction n with
  | zero =>
    intro ts ls h _
    have : ts = [] := List.length_eq_zero_iff.1 (by omega)
    subst this
    cases ls <;> simp [newLoop, withNotes]
  | succ n ih =>
    intro ts ls h hf
    match ts with
    | [] => cases ls <;> simp [newLoop, withNotes]
    | s :: ss =>
      obtain ⟨g1, g2⟩ := nextLine_fit hf
      simp only [List.length_cons] at h
      simp only [newLoop]
      rw [ih ss _ (by omega) g1, g2]

theorem trailing_spec {α : Type} (last : Int) : ∀ (n : Nat) (room : Int) (rd : List (Entry α)) (lr : Lines),
    rd.length ≤ n →
      (trailingLoop last n room rd lr).map Prod.fst =
        (rd.filter (fun e => decide (last < e.time))).take room.toNat := by
  intro n
  induction n with
  | zero =>
    intro room rd lr h
    have : rd = [] := List.length_eq_zero_iff.1 (by omega)
    subst this
    simp [trailingLoop]
  | succ n ih =>
    intro room rd lr h
    simp only [trailingLoop]
    by_cases hr : room ≤ 0
    · rw [if_pos hr]
      have : room.toNat = 0 := by omega
      simp [this]
    · rw [if_neg hr]
      match rd with
      | [] => simp
      | r :: rs =>
        simp only [List.length_cons] at h
        by_cases hl : last ≥ r.time
        · simp only [hl, if_true]
          rw [ih _ rs _ (by omega), List.filter_cons_of_neg (by simpa using hl)]
        · simp only [hl, if_false]
          have hp : decide (last < r.time) = true := by simp; omega
          have e : room.toNat = (room - 1).toNat + 1 := by omega
          rw [List.filter_cons_of_pos (by simpa using hp), e, List.take_succ_cons, List.map_cons, ih _ rs _ (by omega)]

/-- Exactly what replacing produces. -/
theorem replace_exact {α : Type} (before : Int → Bool) (fs te : Bool) (s0 : Entry α) (ss : List (Entry α))
    (ls : Lines) (rd : List (Entry α)) (lr : Lines) (hf : NotesFit (s0 :: ss) ls) :
    let p : Entry α → Bool := fun e => before e.time && decide (e.time < s0.time) && !fs
    let last := ((s0 :: ss).getLast?.getD s0).time
    (replaceBlocks before fs te (s0 :: ss) ls rd lr).map Prod.fst =
      rd.takeWhile p ++ (s0 :: ss) ++
        (if te then [] else ((rd.dropWhile p).filter (fun e => decide (last < e.time))).take
          (rd.length - 2 * (rd.takeWhile p).length)) := by
  intro p last
  unfold replaceBlocks
  simp only
  obtain ⟨h1, h2, -⟩ := leading_spec before s0.time fs ((s0 :: ss).length + rd.length) rd lr (by omega)
  generalize leadingLoop before s0.time fs ((s0 :: ss).length + rd.length) rd lr = lead at h1 h2 ⊢
  change lead.1.map Prod.fst = rd.takeWhile p at h1
  change lead.2.1 = rd.dropWhile p at h2
  have hl : lead.1.length = (rd.takeWhile p).length := by rw [← h1]; simp
  have hle : (rd.takeWhile p).length ≤ rd.length := (List.takeWhile_sublist p).length_le
  have hd : (rd.dropWhile p).length = rd.length - (rd.takeWhile p).length := by
    have := congrArg List.length (List.takeWhile_append_dropWhile (p := p) (l := rd))
    rw [List.length_append] at this
    omega
  rw [new_spec _ _ _ (by omega) hf]
  have hnl : (withNotes (s0 :: ss) ls).length = (s0 :: ss).length := by
    have := congrArg List.length (withNotes_fst _ _ hf)
    simpa using this
  rw [List.map_append, List.map_append, h1, withNotes_fst _ _ hf]
  congr 1
  cases te
  · simp only [Bool.false_eq_true, if_false]
    rw [trailing_spec _ _ _ _ _ (by rw [h2]; omega), h2]
    congr 1
    omega
  · simp

end Hec
