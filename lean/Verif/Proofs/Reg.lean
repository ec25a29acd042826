import Verif.Model.Reg
import Verif.Props.Pack
/-! Lemmas about regular time series blocks. -/
namespace Hec

theorem putAt_length {E : Type} (buf : List E) (pos : Nat) (xs : List E)
    (h : pos + xs.length ≤ buf.length) : (putAt buf pos xs).length = buf.length := by
  unfold putAt; simp; omega

theorem putAt_get {E : Type} (buf : List E) (pos : Nat) (xs : List E)
    (h : pos + xs.length ≤ buf.length) (i : Nat) :
    (putAt buf pos xs)[i]? = if pos ≤ i ∧ i < pos + xs.length then xs[i - pos]? else buf[i]? := by
  unfold putAt
  by_cases h1 : i < pos
  · rw [if_neg (by omega), List.append_assoc, List.getElem?_append_left (by simp; omega),
      List.getElem?_take_of_lt h1]
  · by_cases h2 : i < pos + xs.length
    · rw [if_pos (by omega), List.getElem?_append_left (by simp; omega),
        List.getElem?_append_right (by simp; omega)]
      congr 1; simp; omega
    · rw [if_neg (by omega), List.getElem?_append_right (by simp; omega), List.getElem?_drop]
      congr 1; simp; omega

theorem windowFill_spec {E : Type} (N posFirst posLast S B : Int) (stored : List E)
    (rd : Nat → Nat → List E) (miss : E) (buf : List E) (hN : 0 ≤ N) (hs : stored ≠ [])
    (hpf : posFirst = B - S) (hpl : posLast = N + posFirst - stored.length)
    (hbuf : buf.length = N.toNat)
    (hrd : ∀ a b, a < b → b ≤ stored.length → rd a b = (stored.drop a).take (b - a)) :
    windowFill N stored.length posFirst posLast rd miss buf =
      (List.range N.toNat).map (fun i : Nat =>
        if S ≤ B + i ∧ B + i < S + stored.length then (stored[(B + i - S).toNat]?).getD miss else miss) := by
  have hs1 : 1 ≤ stored.length := by
    match stored, hs with
    | _ :: _, _ => simp
  obtain ⟨n, rfl⟩ := Int.eq_ofNat_of_zero_le hN
  simp only [Int.toNat_natCast] at hbuf ⊢
  apply List.ext_getElem?
  intro i
  have rhs : ((List.range n).map (fun i : Nat =>
        if S ≤ B + i ∧ B + i < S + stored.length then (stored[(B + i - S).toNat]?).getD miss else miss))[i]? =
      if i < n then some (if S ≤ B + i ∧ B + i < S + stored.length then (stored[(B + i - S).toNat]?).getD miss else miss) else none := by
    by_cases h : i < n <;> simp [h]
  rw [rhs]
  unfold windowFill
  simp only
  -- the part before
  generalize hb : (if posFirst < 0 then (if -posFirst > (n : Int) then (n : Int) else -posFirst) else 0) = before
  have hb0 : 0 ≤ before := by rw [← hb]; split; split <;> omega; omega
  have hbn : before ≤ n := by rw [← hb]; split; split <;> omega; omega
  obtain ⟨b, rfl⟩ := Int.eq_ofNat_of_zero_le hb0
  simp only [Int.toNat_natCast]
  have l1 : (putAt buf 0 (List.replicate b miss)).length = n := by
    rw [putAt_length _ _ _ (by simp; omega), hbuf]
  have g1 : ∀ j, (putAt buf 0 (List.replicate b miss))[j]? = if j < b then some miss else buf[j]? := by
    intro j
    rw [putAt_get _ _ _ (by simp; omega)]
    by_cases h : j < b <;> simp [h]
  generalize putAt buf 0 (List.replicate b miss) = buf1 at l1 g1
  have gout : ∀ l : List E, l.length = n → ¬ i < n → l[i]? = none := by
    intro l hl h; rw [List.getElem?_eq_none]; omega
  split
  · -- nothing but missing
    rename_i hc
    by_cases hi : i < n
    · rw [if_pos hi, g1 i, if_pos (by omega), if_neg (by omega)]
    · rw [if_neg hi, gout _ l1 hi]
  · rename_i hc
    generalize hst : (if posFirst > 0 then posFirst else 0) = start
    generalize hs0 : (if posFirst > 0 then start + ((stored.length : Int) - posFirst) else (stored.length : Int)) = stop0
    generalize hs1' : (if posLast < 0 then stop0 + posLast else stop0) = stop1
    generalize hsp : (if stop1 - start > (n : Int) then start + (n : Int) else stop1) = stop
    have fb : (0 ≤ posFirst ∧ b = 0) ∨ (posFirst < 0 ∧ -posFirst ≤ n ∧ (b : Int) = -posFirst) ∨
        (posFirst < 0 ∧ (n : Int) < -posFirst ∧ b = n) := by
      revert hb; split
      · split <;> omega
      · omega
    have fs : (0 < posFirst ∧ start = posFirst) ∨ (posFirst ≤ 0 ∧ start = 0) := by
      revert hst; split <;> omega
    have hstop0 : stop0 = stored.length := by
      revert hs0; split <;> omega
    have f1 : (posLast < 0 ∧ stop1 = stop0 + posLast) ∨ (0 ≤ posLast ∧ stop1 = stop0) := by
      revert hs1'; split <;> omega
    have fp : ((n : Int) < stop1 - start ∧ stop = start + n) ∨ (stop1 - start ≤ n ∧ stop = stop1) := by
      revert hsp; split <;> omega
    clear hb hst hs0 hs1' hsp rhs
    have hstart0 : 0 ≤ start := by omega
    have hstople : stop ≤ stored.length := by omega
    have hroom : 0 < stop - start → (b : Int) + (stop - start) ≤ n := by omega
    have hcopy : ∃ buf2, (if stop - start > 0 ∧ (stored.length : Int) - posFirst > 0 then
          putAt buf1 b (rd start.toNat stop.toNat) else buf1) = buf2 ∧ buf2.length = n ∧
        (∀ j : Nat, j < n → S ≤ B + j → B + j < S + stored.length → buf2[j]? = stored[(B + j - S).toNat]?) ∧
        (∀ j, j < b → buf2[j]? = some miss) := by
      refine ⟨_, rfl, ?_⟩
      by_cases hh : stop - start > 0 ∧ (stored.length : Int) - posFirst > 0
      · have hlen : ((stored.drop start.toNat).take (stop.toNat - start.toNat)).length = (stop - start).toNat := by
          simp; omega
        have hr := hroom hh.1
        rw [if_pos hh, hrd _ _ (by omega) (by omega)]
        generalize hX : (stored.drop start.toNat).take (stop.toNat - start.toNat) = X at *
        refine ⟨?_, ?_, ?_⟩
        · rw [putAt_length _ _ _ (by omega), l1]
        · intro j hj h1 h2
          rw [putAt_get _ _ _ (by omega), if_pos (by omega), ← hX,
            List.getElem?_take_of_lt (by omega), List.getElem?_drop]
          congr 1; omega
        · intro j hj
          rw [putAt_get _ _ _ (by omega), if_neg (by omega), g1 j, if_pos hj]
      · rw [if_neg hh]
        refine ⟨l1, ?_, ?_⟩
        · intro j hj h1 h2
          omega
        · intro j hj
          rw [g1 j, if_pos hj]
    obtain ⟨buf2, hb2, l2, g2, m2⟩ := hcopy
    rw [hb2]
    have hbsmall : ∀ j : Nat, j < n → B + j < S → j < b := by
      intro j hj h; omega
    have hget : ∀ j : Nat, j < n → S ≤ B + j → B + j < S + stored.length →
        buf2[j]? = some ((stored[(B + j - S).toNat]?).getD miss) := by
      intro j h0 h1 h2
      rw [g2 j h0 h1 h2, List.getElem?_eq_getElem (by omega)]; rfl
    have rep : ∀ (k m : Nat), k < m → (List.replicate m miss)[k]? = some miss := by
      intro k m h; simp [h]
    split
    · -- missing after
      rename_i hpl0
      split
      · rename_i hneg
        by_cases hi : i < n
        · rw [if_pos hi, if_neg (by omega), putAt_get _ _ _ (by simp; omega), if_pos (by simp; omega)]
          exact rep _ _ (by omega)
        · rw [if_neg hi, gout _ (by rw [putAt_length _ _ _ (by simp; omega), l2]) hi]
      · rename_i hneg
        have hfit : ((stored.length : Int) - posFirst).toNat + posLast.toNat ≤ n := by omega
        by_cases hi : i < n
        · rw [if_pos hi, putAt_get _ _ _ (by simp; omega)]
          by_cases hin : S ≤ B + i ∧ B + i < S + stored.length
          · rw [if_pos hin, if_neg (by simp; omega), hget i hi hin.1 hin.2]
          · rw [if_neg hin]
            by_cases hlt : B + i < S
            · rw [if_neg (by simp; omega), m2 i (hbsmall i hi hlt)]
            · rw [if_pos (by simp; omega)]
              exact rep _ _ (by omega)
        · rw [if_neg hi, gout _ (by rw [putAt_length _ _ _ (by simp; omega), l2]) hi]
    · rename_i hpl0
      by_cases hi : i < n
      · rw [if_pos hi]
        by_cases hin : S ≤ B + i ∧ B + i < S + stored.length
        · rw [if_pos hin, hget i hi hin.1 hin.2]
        · rw [if_neg hin, m2 i (hbsmall i hi (by omega))]
      · rw [if_neg hi, gout _ l2 hi]

end Hec
