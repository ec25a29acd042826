import Verif.Model.Encoding
/-! Helper lemmas about the encodings. -/
namespace Hec

theorem and_bit (w p : Nat) : (w &&& (1 <<< p) != 0) = w.testBit p := by
  have key : (w &&& (1 <<< p)) = 0 ↔ w.testBit p = false := by
    constructor
    · intro h
      have h1 : (w &&& (1 <<< p)).testBit p = false := by rw [h]; exact Nat.zero_testBit p
      rw [Nat.testBit_and, Nat.one_shiftLeft, Nat.testBit_two_pow] at h1
      simpa using h1
    · intro h
      apply Nat.eq_of_testBit_eq
      intro i
      rw [Nat.testBit_and, Nat.one_shiftLeft, Nat.testBit_two_pow, Nat.zero_testBit]
      by_cases hi : p = i
      · subst hi; simp [h]
      · simp [hi]
  cases hb : w.testBit p with
  | false => simp [key.2 hb]
  | true =>
    have : (w &&& (1 <<< p)) ≠ 0 := fun h => by rw [key.1 h] at hb; exact Bool.noConfusion hb
    simp [this]

theorem repeatBit_eq (h : List Nat) (i : Nat) :
    repeatBit h i = ((h[i / 32]?).getD 0).testBit (i % 32) := by
  unfold repeatBit
  rw [and_bit]
  congr 1
  omega

theorem repeatBit_set (h : List Nat) (i j : Nat) (hi : i < h.length * 32) :
    repeatBit (setRepeatBit h i) j = (decide (i = j) || repeatBit h j) := by
  rw [repeatBit_eq, repeatBit_eq]
  unfold setRepeatBit
  rw [List.getElem?_modify]
  have e : i - i / 32 * 32 = i % 32 := by omega
  rw [e]
  by_cases hw : i / 32 = j / 32
  · have hlt : j / 32 < h.length := by omega
    rw [List.getElem?_eq_getElem hlt]
    simp only [hw, if_true, Option.map_eq_map, Option.map_some, Option.getD_some, Nat.testBit_or,
      Nat.one_shiftLeft, Nat.testBit_two_pow]
    rw [Bool.or_comm]
    congr 1
    apply decide_eq_decide.2
    omega
  · have hne : i ≠ j := fun h => hw (by rw [h])
    simp [hw, hne]

/-- The bits from `i` on tell, element by element, whether it equals its predecessor. -/
def Marks {E : Type} [DecidableEq E] (h : List Nat) : Nat → E → List E → Prop
  | _, _, [] => True
  | i, prev, x :: xs => repeatBit h i = decide (x = prev) ∧ Marks h (i + 1) x xs

/-- The elements that differ from their predecessor. -/
def changes {E : Type} [DecidableEq E] : E → List E → List E
  | _, [] => []
  | prev, x :: xs => if x = prev then changes x xs else x :: changes x xs

theorem setRepeatBit_length (h : List Nat) (i : Nat) : (setRepeatBit h i).length = h.length := by
  unfold setRepeatBit; simp

theorem Marks_congr {E : Type} [DecidableEq E] {h h' : List Nat} (xs : List E) :
    ∀ (i : Nat) (prev : E), (∀ j, i ≤ j → repeatBit h j = repeatBit h' j) →
      Marks h i prev xs → Marks h' i prev xs := by
  induction xs with
  | nil => intros; trivial
  | cons x xs ih =>
    intro i prev hb hm
    exact ⟨by rw [← hb i (Nat.le_refl _)]; exact hm.1,
      ih (i + 1) x (fun j hj => hb j (by omega)) hm.2⟩

theorem compressLoop_spec {E : Type} [DecidableEq E] (xs : List E) :
    ∀ (i : Nat) (prev : E) (h : List Nat) (out : List E),
      i + xs.length ≤ h.length * 32 → (∀ j, i ≤ j → repeatBit h j = false) →
      let r := compressLoop xs i prev h out
      r.2 = out ++ changes prev xs ∧ Marks r.1 i prev xs ∧ r.1.length = h.length ∧
        (∀ j, j < i → repeatBit r.1 j = repeatBit h j) := by
  induction xs with
  | nil =>
    intro i prev h out _ _
    simp [compressLoop, changes, Marks]
  | cons x xs ih =>
    intro i prev h out hlen hclear
    simp only [List.length_cons] at hlen
    unfold compressLoop
    by_cases hx : x = prev
    · rw [if_pos hx]
      have hs := repeatBit_set h i
      obtain ⟨a1, a2, a3, a4⟩ := ih (i + 1) x (setRepeatBit h i) out
        (by rw [setRepeatBit_length]; omega)
        (fun j hj => by rw [hs j (by omega), hclear j (by omega)]; simp; omega)
      refine ⟨by rw [a1]; simp [changes, hx], ⟨?_, a2⟩, by rw [a3, setRepeatBit_length], ?_⟩
      · rw [a4 i (by omega), hs i (by omega)]; simp [hx]
      · intro j hj
        rw [a4 j (by omega), hs j (by omega)]
        simp; omega
    · rw [if_neg hx]
      obtain ⟨a1, a2, a3, a4⟩ := ih (i + 1) x h (out ++ [x]) (by omega)
        (fun j hj => hclear j (by omega))
      refine ⟨by rw [a1]; simp [changes, hx], ⟨?_, a2⟩, a3, fun j hj => a4 j (by omega)⟩
      rw [a4 i (by omega), hclear i (Nat.le_refl _)]
      simp [hx]

theorem expandLoop_spec {E : Type} [DecidableEq E] [Inhabited E] (h : List Nat) (xs : List E) :
    ∀ (n i : Nat) (cur : E), Marks h i cur xs → n ≤ xs.length →
      expandLoop h n i (changes cur xs) cur = xs.take n := by
  induction xs with
  | nil =>
    intro n i cur _ hn
    simp only [List.length_nil, Nat.le_zero_eq] at hn
    subst hn
    rfl
  | cons x xs ih =>
    intro n i cur hm hn
    cases n with
    | zero => rfl
    | succ n =>
      simp only [List.length_cons] at hn
      unfold expandLoop
      rw [hm.1]
      by_cases hx : x = cur
      · subst hx
        simp only [decide_true, if_true, changes, List.take_succ_cons]
        rw [ih n (i + 1) x hm.2 (by omega)]
      · simp only [hx, decide_false, changes, if_false, List.take_succ_cons, List.head?_cons,
          Option.getD_some, List.tail_cons]
        rw [if_neg (by simp), ih n (i + 1) x hm.2 (by omega)]

theorem skipLoop_spec {E : Type} [DecidableEq E] [Inhabited E] (h : List Nat) (xs : List E) :
    ∀ (n i : Nat) (cur : E), Marks h i cur xs → n ≤ xs.length →
      skipLoop h n i (changes cur xs) cur =
        (changes (((cur :: xs)[n]?).getD default) (xs.drop n), ((cur :: xs)[n]?).getD default) ∧
      Marks h (i + n) (((cur :: xs)[n]?).getD default) (xs.drop n) := by
  induction xs with
  | nil =>
    intro n i cur _ hn
    simp only [List.length_nil, Nat.le_zero_eq] at hn
    subst hn
    exact ⟨rfl, trivial⟩
  | cons x xs ih =>
    intro n i cur hm hn
    cases n with
    | zero => exact ⟨rfl, hm⟩
    | succ n =>
      simp only [List.length_cons] at hn
      unfold skipLoop
      rw [hm.1]
      have hi := ih n (i + 1) x hm.2 (by omega)
      have e : i + 1 + n = i + (n + 1) := by omega
      rw [e] at hi
      by_cases hx : x = cur
      · subst hx
        simp only [decide_true, if_true, changes, List.drop_succ_cons, List.getElem?_cons_succ]
        exact hi
      · simp only [hx, decide_false, changes, if_false, List.drop_succ_cons,
          List.getElem?_cons_succ, List.head?_cons, Option.getD_some, List.tail_cons]
        rw [if_neg (by simp)]
        exact hi

theorem changes_length {E : Type} [DecidableEq E] (xs : List E) :
    ∀ prev : E, (changes prev xs).length ≤ xs.length := by
  induction xs with
  | nil => intro; exact Nat.le_refl _
  | cons x xs ih =>
    intro prev
    have := ih x
    unfold changes
    split <;> simp only [List.length_cons] <;> omega

theorem switchPairs_twice : ∀ (n : Nat) (l : List (BitVec 32)),
    switchPairs n (switchPairs n l) = l := by
  intro n
  induction n with
  | zero => intro l; simp [switchPairs]
  | succ n ih =>
    intro l
    match l with
    | [] => simp [switchPairs]
    | [a] => simp [switchPairs]
    | a :: b :: rest => simp [switchPairs, ih rest]

theorem switchPairs_length : ∀ (n : Nat) (l : List (BitVec 32)), (switchPairs n l).length = l.length := by
  intro n
  induction n with
  | zero => intro l; simp [switchPairs]
  | succ n ih =>
    intro l
    match l with
    | [] => simp [switchPairs]
    | [a] => simp [switchPairs]
    | a :: b :: rest => simp [switchPairs, ih rest]

theorem swapWord_twice (w : List UInt8) : swapWord (swapWord w) = w := by
  rcases w with _ | ⟨b0, _ | ⟨b1, _ | ⟨b2, _ | ⟨b3, _ | ⟨b4, _ | ⟨b5, _ | ⟨b6, _ | ⟨b7, _ | ⟨b8, w⟩⟩⟩⟩⟩⟩⟩⟩⟩ <;> rfl

end Hec
