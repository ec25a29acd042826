import Verif.Proofs.Encoding
/-!
Property theorems: C17 (packing), C18 (swapping), C19 (repeat compression), C20 (error codes),
C34 (status filter).
-/
namespace Hec

/-! ### C17 -/

/-- C17. On either byte order, two ints packed in a word come back; a word split in ints comes
back; and both byte orders agree on the word (so files move between them by byte swapping only). -/
theorem C17_packing (big : Bool) :
    (∀ a b : BitVec 32, i8toi4 big (i4toi8 big a b) = (a, b)) ∧
    (∀ w : BitVec 64, i4toi8 big (i8toi4 big w).1 (i8toi4 big w).2 = w) ∧
    (∀ a b : BitVec 32, (i4toi8 big a b).toNat = b.toNat * 2 ^ 32 + a.toNat) := by
  have lo : ∀ a b : BitVec 32, (b ++ a).extractLsb' 0 32 = a := fun a b => by
    rw [BitVec.extractLsb'_append_eq_of_add_le (by omega)]; simp
  have hi : ∀ a b : BitVec 32, (b ++ a).extractLsb' 32 32 = b := fun a b => by
    rw [BitVec.extractLsb'_append_eq_of_le (by omega)]; simp
  have back : ∀ w : BitVec 64, w.extractLsb' 32 32 ++ w.extractLsb' 0 32 = w := fun w => by
    rw [BitVec.extractLsb'_append_extractLsb'_eq_extractLsb' (by omega)]; simp
  have val : ∀ a b : BitVec 32, (b ++ a).toNat = b.toNat * 2 ^ 32 + a.toNat := fun a b => by
    rw [BitVec.toNat_append, Nat.shiftLeft_eq, Nat.mul_comm, ← Nat.two_pow_add_eq_or_of_lt a.isLt]
  cases big
  · refine ⟨fun a b => ?_, fun w => ?_, fun a b => ?_⟩
    · simp [i8toi4, i4toi8, wordOfInts, int0OfWord, int1OfWord, lo, hi]
    · simp [i8toi4, i4toi8, wordOfInts, int0OfWord, int1OfWord, back]
    · simp only [i4toi8, wordOfInts]; exact val a b
  · refine ⟨fun a b => ?_, fun w => ?_, fun a b => ?_⟩
    · simp [i8toi4, i4toi8, wordOfInts, int0OfWord, int1OfWord, lo, hi]
    · simp [i8toi4, i4toi8, wordOfInts, int0OfWord, int1OfWord, back]
    · simp only [i4toi8, wordOfInts, if_true]; exact val a b

example : i8toi4 true (i4toi8 true 7 (-1)) = (7, -1) := by decide

/-! ### C18 -/

/-- C18. Swapping twice is the identity, the number of words is kept, every 8 byte word within the
rounded up length is reversed, and every later word is left alone. -/
theorem C18_zswap (words : List (List UInt8)) (n : Nat) (hw : ∀ w ∈ words, w.length = 8) :
    zswap (zswap words n) n = words ∧ (zswap words n).length = words.length ∧
    (∀ i, i < words.length → (zswap words n)[i]? =
      if 2 * i < n then words[i]?.map List.reverse else words[i]?) := by
  have hrev : ∀ w ∈ words, swapWord w = w.reverse := by
    intro w hm
    have := hw w hm
    match w, this with
    | [a, b, c, d, e, f, g, h], _ => rfl
  unfold zswap
  by_cases h0 : n = 0
  · simp [h0]
  · simp only [h0, if_false]
    have hlen : ((words.take (longsOf n)).map swapWord).length = min (longsOf n) words.length := by
      simp
    refine ⟨?_, by simp; omega, ?_⟩
    · rw [List.take_append, List.drop_append, hlen]
      by_cases hc : longsOf n ≤ words.length
      · have e : longsOf n - min (longsOf n) words.length = 0 := by omega
        rw [e]
        have t1 : (List.map swapWord (words.take (longsOf n))).take (longsOf n) =
            List.map swapWord (words.take (longsOf n)) := List.take_of_length_le (by simp; omega)
        have t2 : (List.map swapWord (words.take (longsOf n))).drop (longsOf n) = [] :=
          List.drop_of_length_le (by simp; omega)
        rw [t1, t2]
        simp [Function.comp_def, swapWord_twice]
      · have hd : words.drop (longsOf n) = [] := List.drop_of_length_le (by omega)
        have ht : words.take (longsOf n) = words := List.take_of_length_le (by omega)
        have t1 : (List.map swapWord words).take (longsOf n) = List.map swapWord words :=
          List.take_of_length_le (by simp; omega)
        have t2 : (List.map swapWord words).drop (longsOf n) = [] :=
          List.drop_of_length_le (by simp; omega)
        rw [hd, ht, t1, t2]
        simp [Function.comp_def, swapWord_twice]
    · intro i hi
      have hl : longsOf n = (n - 1) / 2 + 1 := rfl
      by_cases hin : i < longsOf n
      · have h2 : 2 * i < n := by omega
        rw [if_pos h2, List.getElem?_append_left (by simp; omega), List.getElem?_map,
          List.getElem?_take_of_lt hin, List.getElem?_eq_getElem hi]
        simp only [Option.map_some]
        rw [hrev _ (List.getElem_mem hi)]
      · have h2 : ¬ 2 * i < n := by omega
        rw [if_neg h2, List.getElem?_append_right (by simp; omega), List.getElem?_drop]
        congr 1
        simp
        omega

example : zswap [[1, 2, 3, 4, 5, 6, 7, 8], [9, 10, 11, 12, 13, 14, 15, 16]] 2 =
    [[8, 7, 6, 5, 4, 3, 2, 1], [9, 10, 11, 12, 13, 14, 15, 16]] := by decide

/-- C18. Switching the ints of each pair twice is the identity; pair `k` is exchanged when it
starts inside the given number of ints. -/
theorem C18_zswitchInts (l : List (BitVec 32)) (n : Nat) :
    zswitchInts (zswitchInts l n) n = l ∧ (zswitchInts l n).length = l.length ∧
    (∀ k, 2 * k + 1 < l.length → 2 * k < n →
      (zswitchInts l n)[2 * k]? = l[2 * k + 1]? ∧ (zswitchInts l n)[2 * k + 1]? = l[2 * k]?) := by
  unfold zswitchInts
  by_cases h0 : n = 0
  · simp [h0]
  · simp only [h0, if_false]
    refine ⟨switchPairs_twice _ _, switchPairs_length _ _, ?_⟩
    intro k hk hn
    have hl : k < longsOf n := by unfold longsOf; omega
    generalize longsOf n = m at hl
    clear hn h0
    induction m generalizing l k with
    | zero => omega
    | succ m ih =>
      match l with
      | [] => simp at hk
      | [a] => simp at hk
      | a :: b :: rest =>
        cases k with
        | zero => simp [switchPairs]
        | succ k =>
          simp only [List.length_cons] at hk
          have := ih rest k (by omega) (by omega)
          have e1 : 2 * (k + 1) = 2 * k + 1 + 1 := by omega
          rw [e1]
          simp only [switchPairs, List.getElem?_cons_succ]
          exact this

example : zswitchInts [1, 2, 3, 4, 5] 4 = [2, 1, 4, 3, 5] := by decide

/-- C18, note: with an odd number of ints the last pair includes the int after the array, so the
caller's buffer must be rounded up to whole words. -/
theorem C18_odd_touches_next : zswitchInts [1, 2, 3, 99] 3 = [2, 1, 99, 3] := by decide

/-! ### C19 -/

/-- C19. Whatever the elements, compressing with a cleared bit map large enough for them and
uncompressing any window `[start, stop)` (or the one element `start = stop`) gives back exactly
the elements of the window. -/
theorem C19_repeat_roundtrip {E : Type} [DecidableEq E] [Inhabited E] (data : List E)
    (words start stop : Nat) (hwords : data.length ≤ words * 32) (h1 : start < data.length)
    (h2 : start ≤ stop) (h3 : stop ≤ data.length) :
    let c := repeatCompress data (List.replicate words 0)
    repeatUncompress start stop c.1 c.2 =
      (data.drop start).take (if start = stop then 1 else stop - start) := by
  match data with
  | [] => simp at h1
  | x :: xs =>
    simp only [List.length_cons] at hwords h1 h3
    intro c
    have hz : ∀ j, repeatBit (List.replicate words 0) j = false := by
      intro j
      rw [repeatBit_eq]
      by_cases hj : j / 32 < words
      · simp [hj]
      · simp [hj]
    have hc : c = compressLoop xs 1 x (List.replicate words 0) [x] := rfl
    obtain ⟨a1, a2, a3, a4⟩ := compressLoop_spec xs 1 x (List.replicate words 0) [x]
      (by simp; omega) (fun j _ => hz j)
    rw [← hc] at a1 a2 a3 a4
    have b0 : repeatBit c.1 0 = false := by rw [a4 0 (by omega)]; exact hz 0
    unfold repeatUncompress
    rw [a1]
    -- state after reaching the start of the window
    have hskip : (if start = 0 then (([x] ++ changes x xs).tail, ([x] ++ changes x xs).head?.getD default)
        else skipLoop c.1 (start + 1) 0 ([x] ++ changes x xs) default) =
        (changes (((x :: xs)[start]?).getD default) (xs.drop start), ((x :: xs)[start]?).getD default) ∧
        Marks c.1 (1 + start) (((x :: xs)[start]?).getD default) (xs.drop start) := by
      obtain ⟨s1, s2⟩ := skipLoop_spec c.1 xs start 1 x a2 (by omega)
      refine ⟨?_, s2⟩
      by_cases hs : start = 0
      · subst hs; rfl
      · rw [if_neg hs]
        unfold skipLoop
        rw [b0]
        simp only [Bool.false_eq_true, if_false]
        exact s1
    rw [hskip.1]
    simp only
    have hget : (x :: xs)[start]? = some ((x :: xs)[start]'(by simp; omega)) :=
      List.getElem?_eq_getElem (by simp; omega)
    have hdrop : (x :: xs).drop start = ((x :: xs)[start]?).getD default :: xs.drop start := by
      rw [hget, List.drop_eq_getElem_cons (by simp; omega)]
      rfl
    by_cases he : start = stop
    · rw [if_pos he, if_pos he, hdrop]
      rfl
    · rw [if_neg he, if_neg he, hdrop]
      have e : stop - start = (stop - (start + 1)) + 1 := by omega
      rw [e, List.take_succ_cons]
      have := expandLoop_spec c.1 (xs.drop start) (stop - (start + 1)) (1 + start) _ hskip.2
        (by simp; omega)
      rw [Nat.add_comm 1 start] at this
      rw [this]

example : repeatCompress [5, 5, 5, 7, 7, 5] [0] = ([22], [5, 7, 5]) ∧
    repeatUncompress 2 5 [22] [5, 7, 5] = [5, 7, 7] := by decide

/-- C19. Compressed data is never longer than the data, so the work array cannot be overrun. -/
theorem C19_no_growth {E : Type} [DecidableEq E] (data : List E) (words : Nat)
    (hwords : data.length ≤ words * 32) :
    (repeatCompress data (List.replicate words 0)).2.length ≤ data.length := by
  match data with
  | [] => exact Nat.le_refl _
  | x :: xs =>
    simp only [List.length_cons] at hwords
    have hz : ∀ j, repeatBit (List.replicate words 0) j = false := by
      intro j
      rw [repeatBit_eq]
      by_cases hj : j / 32 < words
      · simp [hj]
      · simp [hj]
    obtain ⟨a1, -, -, -⟩ := compressLoop_spec xs 1 x (List.replicate words 0) [x]
      (by simp; omega) (fun j _ => hz j)
    show (compressLoop xs 1 x (List.replicate words 0) [x]).2.length ≤ _
    rw [a1]
    have := changes_length xs x
    simp only [List.length_append, List.length_cons, List.length_nil]
    omega

example : (repeatCompress [1, 2, 3] [0]).2 = [1, 2, 3] := by decide

/-! ### C20 -/

/-- C20. With non negative two digit fields, encoding then decoding gives the fields back; the
code is negative, fits a 32 bit int, has the right severity, and is reported as an error exactly
for severities from "invalid argument" (3) up. -/
theorem C20_error_roundtrip (sev high low dss sys : Int) (h1 : 1 ≤ sev ∧ sev ≤ 9)
    (h2 : 0 ≤ high ∧ high ≤ 99) (h3 : 0 ≤ low ∧ low ≤ 99) (h4 : 0 ≤ dss ∧ dss ≤ 99)
    (h5 : 0 ≤ sys ∧ sys ≤ 99) :
    let e := zerrorEncode sev high low dss sys
    e < 0 ∧ -2147483648 ≤ e ∧ zerrorDecode e = ⟨sev, high, low, dss, sys⟩ ∧
      zerrorSeverity e = sev ∧ (zisError e = true ↔ 3 ≤ sev) := by
  intro e
  have he : e = -(sys + dss * 100 + low * 10000 + high * 1000000 + sev * 100000000) := by
    show zerrorEncode sev high low dss sys = _
    unfold zerrorEncode
    simp only
    have hs : (if sys > 99 ∨ sys < -9 then 0 else sys) = sys := if_neg (by omega)
    rw [hs, if_pos (by omega)]
  have hdec : zerrorDecode e = ⟨sev, high, low, dss, sys⟩ := by
    unfold zerrorDecode
    have hn : (if e < 0 then -e else e) = -e := if_pos (by omega)
    simp only [hn]
    have q1 : cdiv (-e) 100000000 = sev := by rw [cdiv_nonneg_eq (by omega)]; omega
    rw [q1]
    have q2 : cdiv (-e - sev * 100000000) 1000000 = high := by rw [cdiv_nonneg_eq (by omega)]; omega
    rw [q2]
    have q3 : cdiv (-e - (sev * 100000000 + high * 1000000)) 10000 = low := by
      rw [cdiv_nonneg_eq (by omega)]; omega
    rw [q3]
    have q4 : cdiv (-e - (sev * 100000000 + high * 1000000 + low * 10000)) 100 = dss := by
      rw [cdiv_nonneg_eq (by omega)]; omega
    rw [q4]
    congr 1
    omega
  refine ⟨by omega, by omega, hdec, ?_, ?_⟩
  · unfold zerrorSeverity
    rw [if_pos (by omega), cdiv_nonneg_eq (by omega)]
    omega
  · unfold zisError
    rw [if_neg (by omega), if_neg (by omega), if_neg (by omega), hdec]
    simp

example : zerrorEncode 7 12 34 25 2 = -712342502 ∧
    zerrorDecode (-712342502) = ⟨7, 12, 34, 25, 2⟩ ∧ zisError (-712342502) = true := by decide

/-- C20. Success and record-not-found statuses are not errors. -/
theorem C20_not_error (s : Int) (h : 0 ≤ s ∨ s = -1) : zisError s = false := by
  unfold zisError
  rcases h with h | h
  · rw [if_pos h]
  · rw [if_neg (by omega), if_pos h]

example : zisError 0 = false := by decide

/-- C20, failing part: STATUS_NOT_OKAY has the same value (-1) as STATUS_RECORD_NOT_FOUND, so a
function failing with STATUS_NOT_OKAY is not reported as an error. -/
theorem C20_not_okay_violation : zisError (-1) = false := by decide

/-- C20, failing part: a negative system error (allowed down to -9) is not recovered and changes
the decoded error number. -/
theorem C20_negative_system_violation :
    zerrorDecode (zerrorEncode 6 1 2 25 (-1)) = ⟨6, 1, 2, 24, 99⟩ := by decide

/-! ### C34 -/

/-- What each filter is meant to accept, in terms of the stored status. -/
def AcceptSpec (stored wanted : Int) : Prop :=
  (wanted = REC_VALID ∧ (stored ≤ 1 ∨ stored = 2)) ∨ (wanted = REC_PRIMARY ∧ stored ≤ 1) ∨
  (wanted = REC_ALIAS ∧ stored = 2) ∨ (wanted = REC_DELETED ∧ stored = 11) ∨
  (wanted = REC_RENAMED ∧ stored = 12) ∨
  (wanted = REC_ANY ∧ (stored ≤ 1 ∨ stored = 2 ∨ stored = 11 ∨ stored = 12))

/-- C34. The filter accepts exactly the statuses of the specification. -/
theorem C34_status_filter (stored wanted : Int) :
    zcompareRecordStatus stored wanted = true ↔ AcceptSpec stored wanted := by
  unfold zcompareRecordStatus AcceptSpec REC_VALID REC_PRIMARY REC_ALIAS REC_DELETED REC_RENAMED REC_ANY
  constructor
  · intro h
    split at h
    · omega
    · split at h
      · omega
      · split at h
        · omega
        · split at h
          · omega
          · exact absurd h (by simp)
  · intro h
    split
    · rfl
    · split
      · rfl
      · split
        · rfl
        · split
          · rfl
          · exfalso; omega

/-- C34. A lookup for valid records never returns a deleted, renamed, moved or removed one, and a
lookup for deleted records never a valid one. -/
theorem C34_valid_excludes (stored : Int) :
    (zcompareRecordStatus stored REC_VALID = true → stored ≠ REC_DELETED ∧ stored ≠ REC_RENAMED ∧
      stored ≠ REC_MOVED ∧ stored ≠ REC_ALIAS_DELETED ∧ stored ≠ REC_REMOVED) ∧
    (zcompareRecordStatus stored REC_DELETED = true → zcompareRecordStatus stored REC_VALID = false) := by
  constructor
  · intro h
    have := (C34_status_filter _ _).1 h
    unfold AcceptSpec at this
    unfold REC_VALID REC_PRIMARY REC_ALIAS REC_DELETED REC_RENAMED REC_ANY at this
    unfold REC_DELETED REC_RENAMED REC_MOVED REC_ALIAS_DELETED REC_REMOVED
    omega
  · intro h
    have h1 := (C34_status_filter _ _).1 h
    have hne : ¬ zcompareRecordStatus stored REC_VALID = true := fun h2 => by
      have h2 := (C34_status_filter _ _).1 h2
      unfold AcceptSpec REC_VALID REC_PRIMARY REC_ALIAS REC_DELETED REC_RENAMED REC_ANY at h1 h2
      omega
    simpa using hne

example : zcompareRecordStatus 1 0 = true ∧ zcompareRecordStatus 11 11 = true ∧
    zcompareRecordStatus 11 0 = false := by decide

end Hec
