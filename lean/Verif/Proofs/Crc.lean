import Verif.Model.Crc
import Verif.Spec.Crc
/-! CRC-32: the table, linearity, and that changes in four neighbouring bytes are seen. -/
namespace Hec
set_option linter.unusedSimpArgs false

theorem bit_odd (c : UInt32) : (c &&& 1 ≠ 0) ↔ c.toNat % 2 = 1 := by
  have h : (c &&& 1).toNat = c.toNat % 2 := by rw [UInt32.toNat_and]; exact Nat.and_one_is_mod _
  constructor
  · intro hne
    have : (c &&& 1).toNat ≠ 0 := fun h0 => hne (UInt32.toNat_inj.mp (by rw [h0]; rfl))
    omega
  · intro h1 h0
    rw [h0] at h
    simp at h
    omega

theorem shr_toNat (c : UInt32) (k : Nat) (hk : k < 32) : (c >>> UInt32.ofNat k).toNat = c.toNat / 2 ^ k := by
  rw [UInt32.toNat_shiftRight, Nat.shiftRight_eq_div_pow]
  congr 2
  rw [UInt32.toNat_ofNat']; omega

theorem crcBit_toNat (c : UInt32) : (crcBit c).toNat = if c.toNat % 2 = 1 then (c.toNat / 2) ^^^ 0xedb88320 else c.toNat / 2 := by
  have h1 : (c >>> 1).toNat = c.toNat / 2 := shr_toNat c 1 (by decide)
  unfold crcBit
  by_cases h : c.toNat % 2 = 1
  · rw [if_pos ((bit_odd c).mpr h), if_pos h, UInt32.toNat_xor, h1]; rfl
  · rw [if_neg (fun hb => h ((bit_odd c).mp hb)), if_neg h, h1]

theorem xor_mod2 (a b : Nat) : (a ^^^ b) % 2 = (a + b) % 2 := by
  have h := Nat.testBit_xor a b 0
  simp only [Nat.testBit_zero] at h
  rcases Nat.mod_two_eq_zero_or_one a with h1 | h1 <;> rcases Nat.mod_two_eq_zero_or_one b with h2 | h2 <;>
    rcases Nat.mod_two_eq_zero_or_one (a ^^^ b) with h3 | h3 <;> simp [h1, h2, h3] at h <;> omega

theorem xor_div2 (a b : Nat) : (a ^^^ b) / 2 = (a / 2) ^^^ (b / 2) := by
  have := Nat.xor_div_two_pow (a := a) (b := b) (n := 1)
  simpa using this

theorem crcBit_xor (a b : UInt32) : crcBit (a ^^^ b) = crcBit a ^^^ crcBit b := by
  apply UInt32.toNat_inj.mp
  rw [UInt32.toNat_xor, crcBit_toNat, crcBit_toNat, crcBit_toNat, UInt32.toNat_xor, xor_div2, xor_mod2]
  rcases Nat.mod_two_eq_zero_or_one a.toNat with h1 | h1 <;> rcases Nat.mod_two_eq_zero_or_one b.toNat with h2 | h2
  · rw [if_neg (by omega), if_neg (by omega), if_neg (by omega)]
  · rw [if_pos (by omega), if_neg (by omega), if_pos (by omega), Nat.xor_assoc]
  · rw [if_pos (by omega), if_pos (by omega), if_neg (by omega), Nat.xor_assoc, Nat.xor_assoc, Nat.xor_comm (b.toNat / 2)]
  · rw [if_neg (by omega), if_pos (by omega), if_pos (by omega), Nat.xor_assoc, ← Nat.xor_assoc 0xedb88320, Nat.xor_comm 0xedb88320, Nat.xor_assoc (b.toNat / 2), Nat.xor_self, Nat.xor_zero]

theorem xor_eq_zero {a b : UInt32} (h : a ^^^ b = 0) : a = b := by
  have := congrArg (· ^^^ b) h
  simpa [UInt32.xor_assoc] using this

theorem crcBit_zero {a : UInt32} (h : crcBit a = 0) : a = 0 := by
  have h0 := congrArg UInt32.toNat h
  rw [crcBit_toNat] at h0
  have hlt := a.toNat_lt
  split at h0
  · have h1 : a.toNat / 2 = 0xedb88320 := by
      have h2 := congrArg (· ^^^ 0xedb88320) h0
      simpa [Nat.xor_assoc] using h2
    omega
  · have h1 : a.toNat / 2 = 0 := by simpa using h0
    apply UInt32.toNat_inj.mp
    show a.toNat = 0
    omega

theorem crcBit_inj {a b : UInt32} (h : crcBit a = crcBit b) : a = b := by
  apply xor_eq_zero
  apply crcBit_zero
  rw [crcBit_xor, h, UInt32.xor_self]

theorem crcBits_xor (n : Nat) : ∀ a b, crcBits n (a ^^^ b) = crcBits n a ^^^ crcBits n b := by
  induction n with
  | zero => intros; rfl
  | succ n ih => intro a b; simp only [crcBits]; rw [crcBit_xor, ih]

theorem crcBits_inj (n : Nat) : ∀ {a b}, crcBits n a = crcBits n b → a = b := by
  induction n with
  | zero => intro a b h; exact h
  | succ n ih => intro a b h; exact crcBit_inj (ih h)

theorem crcBits_add (m n : Nat) : ∀ a, crcBits (m + n) a = crcBits n (crcBits m a) := by
  induction m with
  | zero => intro a; rw [Nat.zero_add]; rfl
  | succ m ih => intro a; rw [Nat.add_right_comm]; exact ih (crcBit a)

/-- Bits that are 0 are shifted out. -/
theorem crcBits_shift (n : Nat) : ∀ {a : UInt32}, a.toNat % 2 ^ n = 0 → (crcBits n a).toNat = a.toNat / 2 ^ n := by
  induction n with
  | zero => intro a _; simp [crcBits]
  | succ n ih =>
    intro a h
    have h2 : a.toNat % 2 = 0 := by
      have : 2 ∣ 2 ^ (n + 1) := ⟨2 ^ n, by rw [Nat.pow_succ, Nat.mul_comm]⟩
      have := Nat.mod_mod_of_dvd a.toNat this
      omega
    have hb : (crcBit a).toNat = a.toNat / 2 := by rw [crcBit_toNat, if_neg (by omega)]
    have h3 : (a.toNat / 2) % 2 ^ n = 0 := by
      rw [Nat.pow_succ, Nat.mul_comm] at h
      rw [Nat.mod_mul] at h
      omega
    show (crcBits n (crcBit a)).toNat = _
    rw [ih (by rw [hb]; exact h3), hb, Nat.div_div_eq_div_mul, Nat.pow_succ, Nat.mul_comm]

theorem ofNat8 (n : Nat) : (UInt8.ofNat n).toNat = n % 256 := by simp [UInt8.toNat_ofNat']

/-- The word of one byte. -/
def word (b : UInt8) : UInt32 := UInt32.ofNat b.toNat

theorem word_toNat (b : UInt8) : (word b).toNat = b.toNat := by
  unfold word
  rw [UInt32.toNat_ofNat']
  have := b.toNat_lt
  omega

theorem low_high (v : UInt32) : word (UInt8.ofNat v.toNat) ^^^ UInt32.ofNat (v.toNat / 256 * 256) = v := by
  apply UInt32.toNat_inj.mp
  have hlt := v.toNat_lt
  rw [UInt32.toNat_xor, word_toNat, ofNat8, UInt32.toNat_ofNat', Nat.mod_eq_of_lt (by omega : v.toNat / 256 * 256 < 2 ^ 32)]
  have : v.toNat / 256 * 256 = 2 ^ 8 * (v.toNat / 256) := by rw [Nat.mul_comm]
  apply Nat.eq_of_testBit_eq
  intro i
  rw [Nat.testBit_xor, this, Nat.testBit_two_pow_mul, show (256 : Nat) = 2 ^ 8 from rfl, Nat.testBit_mod_two_pow, Nat.testBit_div_two_pow]
  by_cases h : i < 8
  · have h' : ¬ 8 ≤ i := by omega
    simp [h, h']
  · have h' : 8 ≤ i := by omega
    have h'' : i - 8 + 8 = i := by omega
    simp [h, h', h'']

/-- One byte: its bits are added to the register, which is then shifted by 8. -/
theorem crcByte_eq (v : UInt32) (b : UInt8) : crcByte v b = crcBits 8 (v ^^^ word b) := by
  have hw : word (UInt8.ofNat v.toNat ^^^ b) = word (UInt8.ofNat v.toNat) ^^^ word b := by
    apply UInt32.toNat_inj.mp
    rw [UInt32.toNat_xor, word_toNat, word_toNat, word_toNat, UInt8.toNat_xor]
  have hlt := v.toNat_lt
  have hhi : crcBits 8 (UInt32.ofNat (v.toNat / 256 * 256)) = v >>> 8 := by
    apply UInt32.toNat_inj.mp
    have hn : (UInt32.ofNat (v.toNat / 256 * 256)).toNat = v.toNat / 256 * 256 := by rw [UInt32.toNat_ofNat']; omega
    rw [crcBits_shift 8 (by rw [hn]; omega), hn, show (v >>> 8).toNat = v.toNat / 2 ^ 8 from shr_toNat v 8 (by decide)]
    omega
  unfold crcByte crcTable
  rw [← hhi]
  show crcBits 8 (word _) ^^^ _ = _
  rw [hw, ← crcBits_xor]
  congr 1
  rw [UInt32.xor_assoc, UInt32.xor_comm (word b), ← UInt32.xor_assoc, low_high]

theorem crcByte_inj {a b : UInt32} {x : UInt8} (h : crcByte a x = crcByte b x) : a = b := by
  rw [crcByte_eq, crcByte_eq] at h
  exact (UInt32.xor_left_inj _).mp (crcBits_inj _ h)

theorem crcBlock_append (v : UInt32) (a b : Bytes) : crcBlock v (a ++ b) = crcBlock (crcBlock v a) b := by
  unfold crcBlock; rw [List.foldl_append]

theorem crcBlock_inj (x : Bytes) : ∀ {a b : UInt32}, crcBlock a x = crcBlock b x → a = b := by
  induction x with
  | nil => intro a b h; exact h
  | cons y x ih => intro a b h; exact crcByte_inj (ih (a := crcByte a y) (b := crcByte b y) h)

/-- The number of some bytes, the lowest first. -/
def leNum : Bytes → Nat
  | [] => 0
  | b :: x => b.toNat + 256 * leNum x

theorem leNum_lt (x : Bytes) : leNum x < 256 ^ x.length := by
  induction x with
  | nil => simp [leNum]
  | cons b x ih =>
    have := b.toNat_lt
    simp only [leNum, List.length_cons, Nat.pow_succ]
    omega

theorem leNum_inj : ∀ {x y : Bytes}, x.length = y.length → leNum x = leNum y → x = y
  | [], [], _, _ => rfl
  | [], _ :: _, h, _ => by cases h
  | _ :: _, [], h, _ => by cases h
  | a :: x, b :: y, h, h2 => by
    have h1 := a.toNat_lt
    have h3 := b.toNat_lt
    simp only [leNum] at h2
    have h4 : a = b := UInt8.toNat_inj.mp (by omega)
    rw [h4, leNum_inj (x := x) (y := y) (by simpa using h) (by omega)]

theorem word_xor (b : UInt8) {m : Nat} (hm : m < 2 ^ 24) : word b ^^^ UInt32.ofNat (256 * m) = UInt32.ofNat (b.toNat + 256 * m) := by
  have hb := b.toNat_lt
  have h := low_high (UInt32.ofNat (b.toNat + 256 * m))
  have hn : (UInt32.ofNat (b.toNat + 256 * m)).toNat = b.toNat + 256 * m := by rw [UInt32.toNat_ofNat']; omega
  rw [hn] at h
  have h1 : word (UInt8.ofNat (b.toNat + 256 * m)) = word b := by
    apply UInt32.toNat_inj.mp
    rw [word_toNat, word_toNat, ofNat8]
    omega
  rw [h1, show (b.toNat + 256 * m) / 256 * 256 = 256 * m by omega] at h
  exact h

/-- Up to four bytes: they are added to the register, which is then shifted. -/
theorem crcBlock_short : ∀ (x : Bytes) (v : UInt32), x.length ≤ 4 → crcBlock v x = crcBits (8 * x.length) (v ^^^ UInt32.ofNat (leNum x)) := by
  intro x
  induction x with
  | nil => intro v _; simp [crcBlock, crcBits, leNum]
  | cons b x ih =>
    intro v h
    simp only [List.length_cons] at h
    have hlt : leNum x < 2 ^ 24 := by
      have h1 := leNum_lt x
      have h2 : 256 ^ x.length ≤ 256 ^ 3 := Nat.pow_le_pow_right (by decide) (by omega)
      have h3 : (256 : Nat) ^ 3 = 2 ^ 24 := by decide
      omega
    have h8 : crcBits 8 (UInt32.ofNat (256 * leNum x)) = UInt32.ofNat (leNum x) := by
      apply UInt32.toNat_inj.mp
      have hn : (UInt32.ofNat (256 * leNum x)).toNat = 256 * leNum x := by rw [UInt32.toNat_ofNat']; omega
      rw [crcBits_shift 8 (by rw [hn]; omega), hn, UInt32.toNat_ofNat']
      omega
    show crcBlock (crcByte v b) x = _
    rw [ih _ (by omega), crcByte_eq, List.length_cons, Nat.mul_succ, Nat.add_comm (8 * x.length) 8, crcBits_add, ← h8, ← crcBits_xor, UInt32.xor_assoc,
      word_xor b hlt]
    rfl

theorem crcBlock_four {x y : Bytes} (v : UInt32) (h : x.length = y.length) (h4 : x.length ≤ 4) (he : crcBlock v x = crcBlock v y) : x = y := by
  rw [crcBlock_short x v h4, crcBlock_short y v (by omega), h] at he
  have h1 := (UInt32.xor_right_inj v).mp (crcBits_inj _ he)
  have hx := leNum_lt x
  have hy := leNum_lt y
  have hp : 256 ^ x.length ≤ 256 ^ 4 := Nat.pow_le_pow_right (by decide) h4
  rw [← h] at hy
  have h3 : (256 : Nat) ^ 4 = 2 ^ 32 := by decide
  have h2 := congrArg UInt32.toNat h1
  rw [UInt32.toNat_ofNat', UInt32.toNat_ofNat', Nat.mod_eq_of_lt (by omega), Nat.mod_eq_of_lt (by omega)] at h2
  exact leNum_inj h h2

/-- The check sum is that of the bits one after the other. -/
theorem crcBit_spec (v : UInt32) (b : Bool) : (crcBit (v ^^^ UInt32.ofNat b.toNat)).toNat = _root_.Spec.shiftBit v.toNat b := by
  have hb : (UInt32.ofNat b.toNat).toNat = b.toNat := by cases b <;> rfl
  rw [crcBit_toNat, UInt32.toNat_xor, hb, xor_mod2, xor_div2]
  unfold _root_.Spec.shiftBit
  rw [Nat.testBit_zero]
  have h0 : b.toNat / 2 = 0 := by cases b <;> rfl
  rw [h0, Nat.xor_zero]
  cases b <;> rcases Nat.mod_two_eq_zero_or_one v.toNat with h | h <;> simp [h] <;> omega

theorem bits_spec (n : Nat) : ∀ (v : UInt32) (m : Nat), m < 2 ^ n → n ≤ 8 →
    (crcBits n (v ^^^ UInt32.ofNat m)).toNat = ((List.range n).map fun k => m.testBit k).foldl _root_.Spec.shiftBit v.toNat := by
  induction n with
  | zero =>
    intro v m hm _
    have : m = 0 := by omega
    subst this
    simp [crcBits]
  | succ n ih =>
    intro v m hm hn
    have hm8 : m < 256 := Nat.lt_of_lt_of_le hm (Nat.pow_le_pow_right (by decide) hn)
    have hsplit : UInt32.ofNat m = UInt32.ofNat (m.testBit 0).toNat ^^^ UInt32.ofNat (2 * (m / 2)) := by
      apply UInt32.toNat_inj.mp
      rw [UInt32.toNat_xor, UInt32.toNat_ofNat', UInt32.toNat_ofNat', UInt32.toNat_ofNat', Nat.mod_eq_of_lt (by omega), Nat.mod_eq_of_lt (by omega : 2 * (m / 2) < 2 ^ 32),
        Nat.mod_eq_of_lt (by cases m.testBit 0 <;> decide), Nat.toNat_testBit]
      apply Nat.eq_of_testBit_eq
      intro i
      rw [Nat.testBit_xor]
      cases i with
      | zero => simp
      | succ i =>
        have h1 : (m / 2 ^ 0 % 2).testBit (i + 1) = false := by
          apply Nat.testBit_lt_two_pow
          have : 2 ^ 1 ≤ 2 ^ (i + 1) := Nat.pow_le_pow_right (by decide) (by omega)
          omega
        rw [h1, Bool.false_xor, show 2 * (m / 2) = 2 ^ 1 * (m / 2) from rfl, Nat.testBit_two_pow_mul]
        simp [Nat.testBit_div_two]
    have h1 : crcBit (UInt32.ofNat (2 * (m / 2))) = UInt32.ofNat (m / 2) := by
      apply UInt32.toNat_inj.mp
      have hn : (UInt32.ofNat (2 * (m / 2))).toNat = 2 * (m / 2) := by rw [UInt32.toNat_ofNat']; omega
      rw [crcBit_toNat, hn, if_neg (by omega), UInt32.toNat_ofNat']
      omega
    show (crcBits n (crcBit _)).toNat = _
    rw [hsplit, ← UInt32.xor_assoc, crcBit_xor, h1, ih _ (m / 2) (by rw [Nat.pow_succ] at hm; omega) (by omega), List.range_succ_eq_map, List.map_cons, List.foldl_cons, crcBit_spec, List.map_map]
    congr 1
    apply List.map_congr_left
    intro k _
    simp [Nat.testBit_div_two]

theorem crcBlock_spec : ∀ (x : Bytes) (v : UInt32), (crcBlock v x).toNat = _root_.Spec.crc32 v.toNat x := by
  intro x
  induction x with
  | nil => intro v; rfl
  | cons b x ih =>
    intro v
    show (crcBlock (crcByte v b) x).toNat = _
    rw [ih, crcByte_eq]
    unfold _root_.Spec.crc32
    rw [List.flatMap_cons, List.foldl_append]
    congr 1
    exact bits_spec 8 v b.toNat b.toNat_lt (by decide)

end Hec
