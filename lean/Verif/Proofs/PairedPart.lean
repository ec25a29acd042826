import Verif.Proofs.Paired
import Verif.Proofs.EngineEdit
/-! Storing a part of paired data. -/
namespace Hec
set_option linter.unusedSimpArgs false
set_option linter.unusedVariables false
open _root_.Spec (Op Store Step Steps run runs Set Allowed AllAllowed Reachable join SixParts asType HasSize Leads areDoubles part Asked Replaced
  ReplacedData valuesGiven askAll)
open Hec.Spec (sameUpToCase)

def splice {α : Type} (l : List α) (i : Nat) (xs : List α) : List α := l.take i ++ xs ++ l.drop (i + xs.length)

theorem splice_length {α : Type} {l : List α} {i : Nat} {xs : List α} (h : i + xs.length ≤ l.length) : (splice l i xs).length = l.length := by
  simp [splice]; omega

theorem splice_get {α : Type} {l : List α} {i : Nat} {xs : List α} (h : i + xs.length ≤ l.length) (t : Nat) :
    (splice l i xs)[t]? = if i ≤ t ∧ t < i + xs.length then xs[t - i]? else l[t]? := by
  unfold splice
  by_cases h1 : t < i
  · rw [if_neg (by omega), List.append_assoc, List.getElem?_append_left (by simp; omega), List.getElem?_take_of_lt h1]
  · by_cases h2 : t < i + xs.length
    · rw [if_pos (by omega), List.append_assoc, List.getElem?_append_right (by simp; omega), List.getElem?_append_left (by simp; omega)]
      congr 1
      simp; omega
    · rw [if_neg (by omega), List.getElem?_append_right (by simp; omega), List.getElem?_drop]
      congr 1
      simp; omega

theorem getInts_get (d : Disk) (a n t : Nat) : (getInts d a n)[t]? = if t < n then some (if t % 2 = 0 then lowInt (d (a + t / 2)) else highInt (d (a + t / 2))) else none := by
  unfold getInts
  rw [List.getElem?_map]
  by_cases h : t < n
  · rw [if_pos h, List.getElem?_eq_getElem (by simpa using h)]
    simp
  · rw [if_neg h, List.getElem?_eq_none (by simpa using h)]
    rfl

theorem put_splice (s : Eng) (A N j : Nat) (xs : List UInt32) (h : 2 * j + xs.length ≤ N) :
    getInts (s.putInts (A + j) xs).disk A N = splice (getInts s.disk A N) (2 * j) xs := by
  apply List.ext_getElem?
  intro t
  rw [splice_get (by rw [getInts_length]; exact h), getInts_get, getInts_get]
  by_cases hin : 2 * j ≤ t ∧ t < 2 * j + xs.length
  · rw [if_pos hin, if_pos (by omega)]
    have := congrArg (fun l => l[t - 2 * j]?) (getInts_putInts s (A + j) xs)
    simp only [getInts_get] at this
    rw [if_pos (by omega)] at this
    rw [← this]
    congr 1
    rw [show (t - 2 * j) % 2 = t % 2 by omega, show A + j + (t - 2 * j) / 2 = A + t / 2 by omega]
  · rw [if_neg hin]
    by_cases ht : t < N
    · rw [if_pos ht, if_pos ht]
      congr 1
      unfold Eng.putInts
      by_cases hne : xs.length = 0
      · rw [if_pos hne]
      · rw [if_neg hne]
        by_cases hw : A + j ≤ A + t / 2 ∧ A + t / 2 < A + j + nLongs xs.length
        · -- the second half of the last word
          have ht' : t = 2 * j + xs.length ∧ t % 2 = 1 := by simp only [nLongs] at hw; omega
          have hno : ¬ t % 2 = 0 := by omega
          rw [if_neg hno, if_neg hno]
          simp only [put_disk]
          have e1 : A + t / 2 = A + j + (t / 2 - j) := by omega
          rw [e1, apply_in (w := ⟨A + j, nLongs xs.length, _⟩) (by simp only [nLongs] at *; omega)]
          simp only [highInt_pack]
          rw [List.getElem?_eq_none (by omega)]
          rfl
        · have : (s.put (A + j) (nLongs xs.length) fun i => packInts ((xs[2 * i]?).getD 0) ((xs[2 * i + 1]?).getD (highInt (s.disk (A + j + i))))).disk (A + t / 2) =
              s.disk (A + t / 2) := by rw [put_disk]; exact apply_out hw
          rw [this]
    · rw [if_neg ht, if_neg ht]

theorem pdPut_out (s : Eng) (A N : Nat) (w : Bool) (m : Nat) (xs : List UInt32) (h : (if w then 2 * m else m) + xs.length ≤ N) (x : Nat) (hx : ¬ (A ≤ x ∧ x < A + nLongs N)) :
    (pdPut s A w m xs).disk x = s.disk x := by
  unfold pdPut
  cases w with
  | true =>
    simp only [if_true] at h ⊢
    exact putInts_out _ _ _ _ (by simp only [nLongs] at *; omega)
  | false =>
    simp only [Bool.false_eq_true, if_false] at h ⊢
    split
    · refine putInts_out _ _ _ _ ?_
      simp only [nLongs, List.length_append, List.length_take, getInts_length] at *
      omega
    · exact putInts_out _ _ _ _ (by simp only [nLongs] at *; omega)

theorem pdPut_hdr (s : Eng) (A : Nat) (w : Bool) (m : Nat) (xs : List UInt32) : (pdPut s A w m xs).hdr = s.hdr := by
  unfold pdPut
  repeat' split
  all_goals simp

theorem splice_more {α : Type} {l : List α} {i : Nat} {x : α} {xs : List α} (h : i + 1 + xs.length ≤ l.length) (hx : l[i]? = some x) :
    splice l i (x :: xs) = splice l (i + 1) xs := by
  apply List.ext_getElem?
  intro t
  rw [splice_get (by simp; omega), splice_get h]
  by_cases h1 : i + 1 ≤ t ∧ t < i + 1 + xs.length
  · rw [if_pos (by simp; omega), if_pos h1, show t - i = (t - (i + 1)) + 1 by omega, List.getElem?_cons_succ]
  · rw [if_neg h1]
    split
    · next h2 =>
      have : t = i := by simp at h2; omega
      subst this
      rw [hx]; simp
    · rfl

theorem pdPut_splice (s : Eng) (A N : Nat) (w : Bool) (m : Nat) (xs : List UInt32) (h : (if w then 2 * m else m) + xs.length ≤ N) :
    getInts (pdPut s A w m xs).disk A N = splice (getInts s.disk A N) (if w then 2 * m else m) xs := by
  unfold pdPut
  cases w with
  | true => simp only [if_true] at h ⊢; exact put_splice _ _ _ _ _ h
  | false =>
    simp only [Bool.false_eq_true, if_false] at h ⊢
    split
    · next hodd =>
      have e1 : (getInts s.disk (A + m / 2) 2).take 1 = [lowInt (s.disk (A + m / 2))] := by simp [getInts, List.range_succ]
      rw [e1, put_splice _ _ _ _ _ (by simp; omega), List.singleton_append, splice_more (by rw [getInts_length]; omega)]
      · congr 1; omega
      · rw [getInts_get, if_pos (by omega), if_pos (by omega), show 2 * (m / 2) / 2 = m / 2 by omega]
    · rw [put_splice _ _ _ _ _ (by omega)]
      congr 1; omega

/-! ### All curves -/

/-- What the loop does to the values. -/
def spliceAll {α : Type} (n a rows b : Nat) (w : List α) (curves : Nat) (v : List α) : List α :=
  (List.range curves).foldl (fun v i => splice v (a + (b + i) * n) ((w.drop (i * rows)).take rows)) v

theorem spliceAll_succ {α : Type} (n a rows b : Nat) (w : List α) (curves : Nat) (v : List α) :
    spliceAll n a rows b w (curves + 1) v = splice (spliceAll n a rows b w curves v) (a + (b + curves) * n) ((w.drop (curves * rows)).take rows) := by
  simp [spliceAll, List.range_succ, List.foldl_append]

theorem seg_iff {n a rows cv c r : Nat} (hr : r < n) (ha : a + rows ≤ n) : (a + c * n ≤ cv * n + r ∧ cv * n + r < a + c * n + rows) ↔ (cv = c ∧ a ≤ r ∧ r < a + rows) := by
  rcases Nat.lt_trichotomy cv c with h | h | h
  · have : (cv + 1) * n ≤ c * n := Nat.mul_le_mul_right n h
    rw [Nat.add_mul, Nat.one_mul] at this
    omega
  · subst h; omega
  · have : (c + 1) * n ≤ cv * n := Nat.mul_le_mul_right n h
    rw [Nat.add_mul, Nat.one_mul] at this
    omega

theorem seg_fits {n a rows m c : Nat} (ha : a + rows ≤ n) (hc : c < m) : a + c * n + rows ≤ m * n := by
  have : (c + 1) * n ≤ m * n := Nat.mul_le_mul_right n hc
  rw [Nat.add_mul, Nat.one_mul] at this
  omega

theorem spliceAll_ok {α : Type} {n a rows b m : Nat} {w v : List α} (ha : a + rows ≤ n) (hv : v.length = m * n) :
    ∀ curves, b + curves ≤ m → curves * rows ≤ w.length → Replaced n a rows b curves w v (spliceAll n a rows b w curves v)
  | 0, _, _ => by
    refine ⟨rfl, fun cv r hr => ?_⟩
    rw [if_neg (by omega)]; rfl
  | c + 1, h1, h2 => by
    rw [Nat.add_mul, Nat.one_mul] at h2
    obtain ⟨k1, k2⟩ := spliceAll_ok (b := b) (w := w) ha hv c (by omega) (by omega)
    rw [spliceAll_succ]
    have hl : ((w.drop (c * rows)).take rows).length = rows := by simp; omega
    have hfit := seg_fits (c := b + c) ha (show b + c < m by omega)
    have hs : a + (b + c) * n + ((w.drop (c * rows)).take rows).length ≤ (spliceAll n a rows b w c v).length := by rw [hl, k1, hv]; exact hfit
    refine ⟨by rw [splice_length hs, k1], fun cv r hr => ?_⟩
    rw [splice_get hs, hl, k2 cv r hr]
    by_cases hseg : cv = b + c ∧ a ≤ r ∧ r < a + rows
    · rw [if_pos ((seg_iff hr ha).mpr hseg), if_pos ⟨by omega, by omega, hseg.2⟩]
      obtain ⟨rfl, g1, g2⟩ := hseg
      rw [List.getElem?_take_of_lt (by generalize (b + c) * n = Z; omega), List.getElem?_drop]
      congr 1
      rw [Nat.add_sub_cancel_left]
      generalize (b + c) * n = Z
      omega
    · rw [if_neg (fun h => hseg ((seg_iff hr ha).mp h))]
      by_cases hb : b ≤ cv ∧ cv < b + c ∧ a ≤ r ∧ r < a + rows
      · rw [if_pos hb, if_pos (by omega)]
      · rw [if_neg hb, if_neg (by omega)]

/-! ### Doubles -/

theorem intsDoubles_length : ∀ xs : List UInt32, (intsDoubles xs).length = xs.length / 2
  | [] => rfl
  | [_] => by simp [intsDoubles]
  | a :: b :: xs => by simp only [intsDoubles, List.length_cons, intsDoubles_length xs]; omega

theorem intsDoubles_splice : ∀ (i : Nat) (l : List UInt32) (xs : List UInt64), 2 * i + 2 * xs.length ≤ l.length →
    intsDoubles (splice l (2 * i) (xs.flatMap doubleInts)) = splice (intsDoubles l) i xs
  | 0, l, [], h => by simp [splice]
  | 0, a :: b :: l, x :: xs, h => by
    have := intsDoubles_splice 0 l xs (by simp at h ⊢; omega)
    simp only [splice, Nat.mul_zero, List.take_zero, List.nil_append, Nat.zero_add, doubles_length, List.length_cons] at this ⊢
    rw [List.flatMap_cons, show 2 * (xs.length + 1) = 2 * xs.length + 1 + 1 by omega, List.drop_succ_cons, List.drop_succ_cons]
    have e : ∀ r : List UInt32, intsDoubles (doubleInts x ++ r) = x :: intsDoubles r := by
      intro r
      have := intsDoubles_ints [x]
      simp [doubleInts, intsDoubles] at this ⊢
      exact this
    rw [List.append_assoc, e, this]
    simp [intsDoubles]
  | 0, [], x :: xs, h => by simp at h
  | 0, [_], x :: xs, h => by simp at h; omega
  | i + 1, a :: b :: l, xs, h => by
    have := intsDoubles_splice i l xs (by simp at h ⊢; omega)
    simp only [splice, show 2 * (i + 1) = 2 * i + 1 + 1 by omega, List.take_succ_cons, List.cons_append, intsDoubles] at this ⊢
    rw [show 2 * i + 1 + 1 + (xs.flatMap doubleInts).length = 2 * i + (xs.flatMap doubleInts).length + 1 + 1 by omega,
      show i + 1 + xs.length = i + xs.length + 1 by omega, List.drop_succ_cons, List.drop_succ_cons, List.drop_succ_cons, this]
  | i + 1, [], xs, h => by simp at h
  | i + 1, [_], xs, h => by simp at h; omega

theorem pdInts_length (k : Conv) (w : Bool) (d : PdData) (f n : Nat) (h : f + n ≤ valuesGiven d) : (pdInts k w (d.vals f n)).length = if w then 2 * n else n := by
  cases d <;> cases w <;> simp only [valuesGiven] at h <;> simp only [pdInts, PdData.vals, doubles_length, List.length_map, List.length_take, List.length_drop, if_true, if_false, Bool.false_eq_true] <;> omega

/-- The values, as floats or doubles. -/
def pdFloats (k : Conv) : PdData → List UInt32
  | .floats _ v => v
  | .doubles _ v => v.map k.toF

def pdDoubles (k : Conv) : PdData → List UInt64
  | .floats _ v => v.map k.toD
  | .doubles _ v => v

theorem pdInts_floats (k : Conv) (d : PdData) (f n : Nat) : pdInts k false (d.vals f n) = ((pdFloats k d).drop f).take n := by
  cases d <;> simp [pdInts, PdData.vals, pdFloats, List.map_take, List.map_drop]

theorem pdInts_doubles (k : Conv) (d : PdData) (f n : Nat) : pdInts k true (d.vals f n) = (((pdDoubles k d).drop f).take n).flatMap doubleInts := by
  cases d <;> simp [pdInts, PdData.vals, pdDoubles, List.map_take, List.map_drop]

/-- The loop on the disk. -/
theorem putCurves_ok (s : Eng) (k : Conv) (A N : Nat) (w : Bool) {n a rows b m : Nat} (d : PdData) (ha : a + rows ≤ n)
    (hN : (if w then 2 * (m * n) else m * n) ≤ N) : ∀ curves, b + curves ≤ m → curves * rows ≤ valuesGiven d →
      (pdPutCurves s k A w n a rows b curves d).hdr = s.hdr ∧
      (∀ x, ¬ (A ≤ x ∧ x < A + nLongs N) → (pdPutCurves s k A w n a rows b curves d).disk x = s.disk x) ∧
      (w = false → getInts (pdPutCurves s k A w n a rows b curves d).disk A N = spliceAll n a rows b (pdFloats k d) curves (getInts s.disk A N)) ∧
      (w = true → intsDoubles (getInts (pdPutCurves s k A w n a rows b curves d).disk A N) =
        spliceAll n a rows b (pdDoubles k d) curves (intsDoubles (getInts s.disk A N)))
  | 0, _, _ => ⟨rfl, fun _ _ => rfl, fun _ => rfl, fun _ => rfl⟩
  | c + 1, h1, h2 => by
    rw [Nat.add_mul, Nat.one_mul] at h2
    obtain ⟨k1, k2, k3, k4⟩ := putCurves_ok (b := b) s k A N w d ha hN c (by omega) (by omega)
    have hstep : pdPutCurves s k A w n a rows b (c + 1) d = pdPut (pdPutCurves s k A w n a rows b c d) A w (a + (b + c) * n) (pdInts k w (d.vals (c * rows) rows)) := by
      simp [pdPutCurves, List.range_succ, List.foldl_append]
    have hfit := seg_fits (c := b + c) ha (show b + c < m by omega)
    have hlen := pdInts_length k w d (c * rows) rows (by omega)
    have hb : (if w then 2 * (a + (b + c) * n) else a + (b + c) * n) + (pdInts k w (d.vals (c * rows) rows)).length ≤ N := by
      rw [hlen]
      cases w
      · simp only [Bool.false_eq_true, if_false] at hN ⊢; omega
      · simp only [if_true] at hN ⊢; omega
    rw [hstep]
    refine ⟨by rw [pdPut_hdr, k1], fun x hx => by rw [pdPut_out _ _ N _ _ _ hb x hx, k2 x hx], fun hw => ?_, fun hw => ?_⟩
    · rw [pdPut_splice _ _ _ _ _ _ hb, k3 hw, spliceAll_succ]
      subst hw
      rw [pdInts_floats]; rfl
    · rw [pdPut_splice _ _ _ _ _ _ hb, spliceAll_succ, ← k4 hw]
      subst hw
      rw [hlen] at hb
      simp only [if_true] at hb ⊢
      rw [pdInts_doubles, intsDoubles_splice _ _ _ ?_]
      rw [getInts_length]
      have : (((pdDoubles k d).drop (c * rows)).take rows).length ≤ rows := List.length_take_le _ _
      omega

end Hec
