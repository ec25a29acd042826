import Verif.Spec.Tin
import Verif.Proofs.Grid
/-! Lemmas for triangulated surfaces. -/
namespace Hec
open _root_.Spec (KeepsLabels tinStrings tinOdd IsTin)

theorem takeWhile_zero : ∀ (k : Nat) (l r : Bytes), 0 ∈ l.take k → ((l ++ r).takeWhile (fun b => b != 0)).length < k
  | 0, l, r, h => by simp at h
  | k + 1, [], r, h => by simp at h
  | k + 1, a :: l, r, h => by
    rw [List.cons_append, List.takeWhile_cons]
    split
    · next ha =>
      rw [List.take_succ_cons] at h
      rcases List.mem_cons.mp h with h | h
      · rw [← h] at ha; simp at ha
      · have := takeWhile_zero k l r h
        simp only [List.length_cons]; omega
    · simp

/-- A zero byte before the last four bytes: the header stays. -/
theorem labels_stay {labels : Bytes} (h : 0 ∈ labels.take (4 * ((labels.length - 1) / 4))) : lengthened (padInts labels) = padInts labels := by
  have h1 := takeWhile_zero _ labels (List.replicate (3 - (labels.length + 3) % 4) 0) h
  have hs : userHeaderToString (padInts labels) = (labels ++ List.replicate (3 - (labels.length + 3) % 4) 0).takeWhile fun b => b != 0 := by
    unfold userHeaderToString; rw [intsToBytes_padInts]
  unfold lengthened
  split
  · simp only
    rw [hs, padInts_length, if_neg (by omega)]
  · rfl

theorem labels_string {labels : Bytes} (h : ∀ b ∈ labels, b ≠ 0) :
    lengthened (padInts labels) = if (labels.length + 3) / 4 % 2 = 1 then padInts (labels ++ [32, 32, 32, 32]) else padInts labels := by
  unfold lengthened
  rw [padInts_length]
  split
  · simp only
    rw [string_pad _ h, if_pos (by omega)]
  · rfl

theorem labels_read {labels : Bytes} (h : KeepsLabels labels) :
    readLabels (lengthened (padInts labels)) labels.length = if labels ≠ [] then some labels else none := by
  have key : ∃ r : Bytes, ∃ n, lengthened (padInts labels) = padInts (labels ++ r) ∧ (padInts (labels ++ r)).length = n ∧ (labels.length + 3) / 4 ≤ n := by
    have stay : lengthened (padInts labels) = padInts labels →
        ∃ r : Bytes, ∃ n, lengthened (padInts labels) = padInts (labels ++ r) ∧ (padInts (labels ++ r)).length = n ∧ (labels.length + 3) / 4 ≤ n :=
      fun he => ⟨[], _, by rw [List.append_nil]; exact he, rfl, by rw [List.append_nil, padInts_length]; omega⟩
    rcases h with h | h | h
    · have := labels_string h
      split at this
      · exact ⟨[32, 32, 32, 32], _, this, rfl, by rw [padInts_length]; simp; omega⟩
      · exact stay this
    · exact stay (labels_stay h)
    · apply stay
      unfold lengthened
      rw [padInts_length, if_neg (by omega)]
  obtain ⟨r, n, h1, h2, h3⟩ := key
  unfold readLabels
  rw [h1, h2]
  cases hl : labels with
  | nil => simp
  | cons a t =>
    rw [← hl]
    have hp : 0 < labels.length := by rw [hl]; simp
    rw [if_pos ⟨by omega, by omega, by rw [Int.toNat_natCast]; omega⟩, if_pos (by rw [hl]; simp), Int.toNat_natCast, intsToBytes_padInts]
    simp

theorem labels_odd {labels : Bytes} (h : KeepsLabels labels) :
    (lengthened (padInts labels)).length % 2 = if (labels.length + 3) / 4 % 2 = 1 ∧ 0 ∈ labels.take (4 * ((labels.length - 1) / 4)) then 1 else 0 := by
  by_cases h2 : 0 ∈ labels.take (4 * ((labels.length - 1) / 4))
  · rw [labels_stay h2, padInts_length]
    simp only [h2, and_true]; split <;> omega
  · rw [if_neg (fun x => h2 x.2)]
    rcases h with h | h | h
    · rw [labels_string h]
      split
      · rw [padInts_length]; simp; omega
      · rw [padInts_length]; omega
    · exact absurd h h2
    · unfold lengthened
      rw [padInts_length, if_neg (by omega), padInts_length]; exact h

theorem tinText_length (t : TinIn) : (tinText t).length = ((tinStrings t).map fun s => (s.getD []).length + 1).sum := by
  unfold tinText tinStrings
  simp; omega

theorem tinText_read (t : TinIn) (h : ∀ s ∈ tinStrings t, ∀ u, s = some u → Spec.Ascii u ∧ Spec.NoBlankEnd u) :
    gridStrings 6 (intsToBytes (padInts (tinText t)) ++ List.replicate 8 0) = (tinStrings t).map fun s => s.getD [] := by
  rw [intsToBytes_padInts]
  have ht : tinText t = ((tinStrings t).map fun s => s.getD []).flatMap (fun s => s ++ [0]) := by
    unfold tinText tinStrings; rw [List.flatMap_map]
  rw [ht, List.append_assoc]
  exact gridStrings_eq ((tinStrings t).map fun s => s.getD []) _ (by
    intro u hu
    obtain ⟨s, hs, rfl⟩ := List.mem_map.mp hu
    cases s with
    | none => exact ⟨by simp [Spec.Ascii], by simp [Spec.NoBlankEnd]⟩
    | some u => exact h _ hs u rfl)

/-- What the store puts in the sections. -/
theorem tin_sections {t : TinIn} {x y value pointType connections table : List UInt32} {labels : Bytes}
    (h : IsTin t x y value pointType connections table labels) :
    tinLabels t = some (padInts labels) ∧
      tinValues t = some (x ++ y ++ value, pointType ++ List.replicate x.length 0 ++ connections, table) := by
  obtain ⟨p1, p2⟩ := h.points
  obtain ⟨e1, e2, e3, e4⟩ := h.same
  obtain ⟨⟨r1, a1⟩, ⟨r2, a2⟩, ⟨r3, a3⟩, ⟨r4, a4⟩, r5, a5⟩ := h.arrays
  obtain ⟨t1, t2, r6, a6⟩ := h.table
  obtain ⟨l1, l2, r7, a7⟩ := h.names
  constructor
  · unfold tinLabels
    rw [a7, l1]
    simp only [List.length_append]
    cases labels with
    | nil => rfl
    | cons b bs =>
      rw [if_neg (by simp only [List.length_cons]; omega), if_neg (by simp only [List.length_cons]; omega)]
      simp
  · unfold tinValues
    rw [p1, t1, a1, a2, a3, a4, a5, a6]
    simp only [Int.toNat_natCast, List.length_append]
    rw [if_neg (by omega), if_neg (by omega)]
    rw [List.take_left, ← e1, List.take_left, e1, ← e2, List.take_left, e2, ← e3, List.take_left, e3, ← e4, List.take_left, List.take_left]

theorem threeArrays_eq {a b c : List UInt32} {n : Nat} (ha : a.length = n) (hb : b.length = n) (hc : c.length = n) :
    threeArrays (a ++ b ++ c) n = some (if n ≠ 0 then (some a, some b, some c) else (none, none, none)) := by
  unfold threeArrays
  simp only [Int.toNat_natCast]
  by_cases h0 : n = 0
  · rw [if_neg (by rw [List.length_append, List.length_append]; omega), if_neg (show ¬ n ≠ 0 by omega)]
  · rw [if_pos (by simp; omega), if_neg (by simp; omega), if_pos h0]
    congr 1
    simp only [Prod.mk.injEq, Option.some.injEq]
    refine ⟨?_, ?_, ?_⟩
    · rw [List.append_assoc, ← ha, List.take_left]
    · rw [List.append_assoc, ← ha, List.drop_left, ha, ← hb, List.take_left]
    · rw [show 2 * n = (a ++ b).length by simp; omega, List.drop_left, List.take_of_length_le (by omega)]

theorem readTable_eq (table : List UInt32) : readTable table table.length = some (if table ≠ [] then some table else none) := by
  unfold readTable
  cases table with
  | nil => rfl
  | cons a t =>
    rw [if_pos (by simp), if_neg (by simp)]
    simp

end Hec
