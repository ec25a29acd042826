import Verif.Model.Strings
/-!
Lemmas for the hash: the bit grouping loop keeps its invariant and ends.
-/
namespace Hec

theorem uint8_all {P : UInt8 → Prop} (h : ∀ n : Fin 256, P (UInt8.ofNat n.val)) (c : UInt8) : P c := by
  have := h ⟨c.toNat, c.toNat_lt⟩
  simpa using this

set_option maxRecDepth 20000 in
theorem hashChar_toupper (c : UInt8) : hashChar (toupper c) = hashChar c := by
  refine uint8_all (P := fun c => hashChar (toupper c) = hashChar c) ?_ c
  decide

set_option maxRecDepth 20000 in
theorem hashChar_lt (c : UInt8) : (hashChar c).toNat < 128 := by
  refine uint8_all (P := fun c => (hashChar c).toNat < 128) ?_ c
  decide

theorem hashChar_congr (p q : Bytes) (h : p.map toupper = q.map toupper) :
    p.map hashChar = q.map hashChar := by
  have e : ∀ l : Bytes, l.map hashChar = (l.map toupper).map hashChar := by
    intro l; simp [Function.comp_def, hashChar_toupper]
  rw [e p, e q, h]

/-- Invariant of the loop of zhash at its head. -/
structure HashInv (ibit : Nat) (s : HashSt) : Prop where
  need1 : 1 ≤ s.ineed
  need2 : s.ineed ≤ ibit
  have8 : s.ihave ≤ 8
  hi : s.i2 / 256 < 2 ^ (ibit - s.ineed)
  lo : s.i2 % 2 ^ (8 - s.ihave) = 0
  it : s.it < 2 ^ ibit

theorem shift_bound {a m k n : Nat} (h : a / 256 < 2 ^ k) (hn : k + m ≤ n) :
    (a * 2 ^ m) / 256 < 2 ^ n := by
  have h1 : a < 2 ^ k * 256 := by
    have := (Nat.div_lt_iff_lt_mul (by omega : 0 < 256)).1 h
    omega
  have h2 : a * 2 ^ m < 2 ^ k * 256 * 2 ^ m := Nat.mul_lt_mul_of_pos_right h1 (Nat.two_pow_pos m)
  have h3 : 2 ^ k * 256 * 2 ^ m = 2 ^ (k + m) * 256 := by
    rw [Nat.pow_add, Nat.mul_assoc, Nat.mul_assoc, Nat.mul_comm 256]
  have h4 : 2 ^ (k + m) ≤ 2 ^ n := Nat.pow_le_pow_right (by omega) hn
  rw [Nat.div_lt_iff_lt_mul (by omega)]
  have h5 : 2 ^ (k + m) * 256 ≤ 2 ^ n * 256 := Nat.mul_le_mul_right _ h4
  omega

theorem hashMove_spec {ibit : Nat} {s : HashSt} (hb : ibit ≤ 23) (h : HashInv ibit s) :
    ∃ s', hashMove ibit s = some s' ∧ HashInv ibit s' ∧ s'.ibyte = s.ibyte ∧
      s'.ihave + (if s.ihave > 0 then 1 else 0) ≤ s.ihave := by
  obtain ⟨n1, n2, h8, hi, lo, hit⟩ := h
  unfold hashMove
  by_cases hh : s.ihave > 0
  · simp only [hh, if_true]
    generalize hm : (if s.ihave < s.ineed then s.ihave else s.ineed) = m
    have hm1 : 1 ≤ m ∧ m ≤ s.ihave ∧ m ≤ s.ineed := by rw [← hm]; split <;> omega
    rw [Nat.shiftLeft_eq]
    have hb1 : s.i2 * 2 ^ m / 256 < 2 ^ (ibit - s.ineed + m) := shift_bound hi (by omega)
    have hbig : s.i2 * 2 ^ m / 256 < 2 ^ 23 :=
      Nat.lt_of_lt_of_le hb1 (Nat.pow_le_pow_right (by omega) (by omega))
    have hno : ¬ s.i2 * 2 ^ m ≥ 2 ^ 31 := by omega
    have hlo : s.i2 * 2 ^ m % 2 ^ (8 - (s.ihave - m)) = 0 := by
      have e : 8 - (s.ihave - m) = (8 - s.ihave) + m := by omega
      rw [e, Nat.pow_add, Nat.mul_mod_mul_right, lo, Nat.zero_mul]
    simp only [hno, if_false]
    by_cases hz : s.ineed - m = 0
    · simp only [hz, if_true]
      refine ⟨_, rfl, ⟨by simp only; omega, Nat.le_refl _, by simp only; omega, ?_, ?_, ?_⟩, rfl,
        by simp only; omega⟩
      · simp only
        have : s.i2 * 2 ^ m % 256 / 256 = 0 := by omega
        rw [this]
        exact Nat.two_pow_pos _
      · simp only
        have hd : 2 ^ (8 - (s.ihave - m)) ∣ 256 := by
          have : (256 : Nat) = 2 ^ 8 := rfl
          rw [this]; exact Nat.pow_dvd_pow 2 (by omega)
        rw [Nat.mod_mod_of_dvd _ hd]
        exact hlo
      · simp only
        apply Nat.xor_lt_two_pow hit
        have e : ibit - s.ineed + m = ibit := by omega
        rw [e] at hb1
        exact hb1
    · simp only [hz, if_false]
      refine ⟨_, rfl, ⟨by simp only; omega, by simp only; omega, by simp only; omega, ?_, hlo, hit⟩,
        rfl, by simp only; omega⟩
      simp only
      have e : ibit - s.ineed + m = ibit - (s.ineed - m) := by omega
      rw [e] at hb1
      exact hb1
  · simp only [hh, if_false]
    exact ⟨s, rfl, ⟨n1, n2, h8, hi, lo, hit⟩, rfl, by omega⟩

theorem hashRefill_spec {path : Bytes} {ibit nt : Nat} {s : HashSt} (h : HashInv ibit s)
    (hp : nt ≤ path.length) :
    hashRefill path nt s = none ∨ ∃ s', hashRefill path nt s = some (some s') ∧ HashInv ibit s' ∧
      ((s.ihave = 0 ∧ s.ibyte < nt ∧ s'.ihave = 8 ∧ s'.ibyte = s.ibyte + 1) ∨ (s.ihave > 0 ∧ s' = s)) := by
  unfold hashRefill
  by_cases h0 : s.ihave = 0
  · simp only [h0, if_true]
    by_cases hn : s.ibyte + 1 > nt
    · left; simp [hn]
    · right
      simp only [hn, if_false]
      rw [List.getElem?_eq_getElem (by omega)]
      obtain ⟨n1, n2, h8, hi, lo, hit⟩ := h
      rw [h0] at lo
      refine ⟨_, rfl, ⟨n1, n2, by simp, ?_, ?_, hit⟩, Or.inl ⟨trivial, by omega, rfl, rfl⟩⟩
      · simp only
        have hc := (path[s.ibyte]'(by omega)).toNat_lt
        have e : (s.i2 + (path[s.ibyte]'(by omega)).toNat) / 256 = s.i2 / 256 := by omega
        rw [e]; exact hi
      · simp [Nat.mod_one]
  · right
    simp only [h0, if_false]
    exact ⟨s, rfl, h, Or.inr ⟨by omega, rfl⟩⟩

theorem hashLoop_spec (path : Bytes) (ibit nt : Nat) (hb : ibit ≤ 23) (hp : nt ≤ path.length) :
    ∀ (fuel : Nat) (s : HashSt), HashInv ibit s → 9 * (nt - s.ibyte) + s.ihave < fuel →
      ∃ v, hashLoop path ibit nt fuel s = some v ∧ v < 2 ^ ibit ∧
        ∀ f2, fuel ≤ f2 → hashLoop path ibit nt f2 s = some v := by
  intro fuel
  induction fuel with
  | zero => intro s _ h; omega
  | succ fuel ih =>
    intro s hs hf
    obtain ⟨s1, e1, i1, b1, m1⟩ := hashMove_spec hb hs
    rcases hashRefill_spec (path := path) (nt := nt) i1 hp with e2 | ⟨s2, e2, i2, hd⟩
    · refine ⟨s1.it, by simp [hashLoop, e1, e2], i1.it, ?_⟩
      intro f2 hf2
      obtain ⟨f3, rfl⟩ : ∃ f3, f2 = f3 + 1 := ⟨f2 - 1, by omega⟩
      simp [hashLoop, e1, e2]
    · have hlt : 9 * (nt - s2.ibyte) + s2.ihave < fuel := by
        rcases hd with ⟨z, l, a, b⟩ | ⟨z, rfl⟩
        · rw [a, b, b1]
          rw [b1] at l
          omega
        · rw [b1]
          split at m1 <;> omega
      obtain ⟨v, ev, hv, hall⟩ := ih s2 i2 hlt
      refine ⟨v, by simp [hashLoop, e1, e2, ev], hv, ?_⟩
      intro f2 hf2
      obtain ⟨f3, rfl⟩ : ∃ f3, f2 = f3 + 1 := ⟨f2 - 1, by omega⟩
      simp only [hashLoop, e1, e2]
      exact hall f3 (by omega)

theorem hashBits_spec (m : Nat) (h : 2 ≤ m) : 1 ≤ hashBits m ∧ m ≤ 2 ^ hashBits m ∧
    2 ^ (hashBits m - 1) < m := by
  have h1 : 2 ^ m.log2 ≤ m := Nat.log2_self_le (by omega)
  have h2 : m < 2 ^ (m.log2 + 1) := Nat.lt_log2_self
  unfold hashBits
  simp only
  split
  · rename_i he
    have hpos : 1 ≤ m.log2 := by
      rcases Nat.eq_zero_or_pos m.log2 with h0 | h0
      · rw [h0] at he; omega
      · exact h0
    refine ⟨by omega, by simp only [Nat.add_sub_cancel]; omega, ?_⟩
    have e : m.log2 + 1 - 1 - 1 = m.log2 - 1 := by omega
    rw [e]
    have : 2 ^ (m.log2 - 1) < 2 ^ m.log2 := Nat.pow_lt_pow_right (by omega) (by omega)
    omega
  · refine ⟨by omega, by omega, ?_⟩
    simp only [Nat.add_sub_cancel]
    omega

theorem hashBits_le {m k : Nat} (h : 2 ≤ m) (hk : m ≤ 2 ^ k) : hashBits m ≤ k := by
  have h3 := (hashBits_spec m h).2.2
  have hlt : 2 ^ (hashBits m - 1) < 2 ^ k := by omega
  have := (Nat.pow_lt_pow_iff_right (by omega : 1 < 2)).1 hlt
  omega

theorem hashChars_le (len ibit : Nat) (h1 : 1 ≤ ibit) (h2 : ibit ≤ 23) :
    hashChars len ibit ≤ len + 8 := by
  unfold hashChars
  simp only
  rcases Nat.eq_zero_or_pos len with h0 | h0
  · subst h0
    have : cdiv ((0 : Nat) * 8 - 1 : Int) ibit ≤ 0 := by
      unfold cdiv
      simp only [Int.natCast_zero, Int.zero_mul, Int.zero_sub, Int.neg_tdiv]
      have := Int.tdiv_nonneg (a := 1) (b := ibit) (by omega) (by omega)
      omega
    generalize cdiv ((0 : Nat) * 8 - 1 : Int) ibit = q at this
    have hle : (q + 1) * ibit - 1 ≤ 22 := by
      have : (q + 1) * (ibit : Int) ≤ 1 * ibit := Int.mul_le_mul_of_nonneg_right (by omega) (by omega)
      omega
    rcases Int.lt_or_le ((q + 1) * (ibit : Int) - 1) 0 with hn | hn
    · rw [cdiv_eq]
      split <;> omega
    · rw [cdiv_nonneg_eq hn]
      omega
  · rw [cdiv_nonneg_eq (a := (len : Int) * 8 - 1) (by omega)]
    have hq : (((len : Int) * 8 - 1) / ibit) * ibit ≤ (len : Int) * 8 - 1 :=
      Int.ediv_mul_le _ (by omega)
    have hq0 : 0 ≤ ((len : Int) * 8 - 1) / ibit := Int.ediv_nonneg (by omega) (by omega)
    generalize ((len : Int) * 8 - 1) / ibit = q at hq hq0
    have e : (q + 1) * (ibit : Int) = q * ibit + ibit := by rw [Int.add_mul]; omega
    rw [e]
    have hpos : 0 ≤ q * (ibit : Int) := Int.mul_nonneg hq0 (by omega)
    rw [cdiv_nonneg_eq (by omega)]
    omega

end Hec
