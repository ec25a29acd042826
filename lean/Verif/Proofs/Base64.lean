import Verif.Spec.Base64
import Verif.Model.Base64
import Verif.Proofs.Open
/-! Lemmas for the base 64 functions. -/
namespace Hec
open _root_.Spec (IsBase64 numberIn digit InBase64)

instance (c : UInt8) : Decidable (IsBase64 c) := by unfold IsBase64; infer_instance

/-- Each of the 64 values has its character, and reading the character gives the value. -/
theorem charOf_spec (k : UInt8) (h : k.toNat < 64) :
    ∃ c, charOf k = some c ∧ valueOf64 c = some k ∧ IsBase64 c ∧ digit c = k.toNat ∧ c ≠ 61 := by
  have := byte_all (P := fun k => k.toNat < 64 → ((charOf k).bind valueOf64 = some k ∧ ∀ c ∈ (charOf k).toList, IsBase64 c ∧ digit c = k.toNat ∧ c ≠ 61)) (by decide +kernel) k h
  obtain ⟨h1, h2⟩ := this
  cases hc : charOf k with
  | none => rw [hc] at h1; simp at h1
  | some c =>
    rw [hc] at h1 h2
    exact ⟨c, rfl, h1, (h2 c (by simp)).1, (h2 c (by simp)).2.1, (h2 c (by simp)).2.2⟩

theorem pad_read : valueOf64 61 = some 255 := by decide +kernel

theorem charInt_ne (k : UInt8) : charInt k ≠ 255 := byte_all (P := fun k => charInt k ≠ 255) (by decide +kernel) k

theorem or_disjoint (u v : UInt8) (i p : Nat) (hu : u.toNat = p * 2 ^ i) (hv : v.toNat < 2 ^ i) : (u ||| v).toNat = u.toNat + v.toNat := by
  rw [UInt8.toNat_or, hu, ← Nat.shiftLeft_eq, Nat.shiftLeft_add_eq_or_of_lt hv]

/-! The parts of the bytes that are encoded. -/
theorem e0_0 (a : UInt8) : ((a &&& 0xfc) >>> 2).toNat = a.toNat / 4 := byte_all (P := fun a => ((a &&& 0xfc) >>> 2).toNat = a.toNat / 4) (by decide +kernel) a
theorem e0_1 (a : UInt8) : ((a &&& 0x03) <<< 4).toNat = a.toNat % 4 * 16 := byte_all (P := fun a => ((a &&& 0x03) <<< 4).toNat = a.toNat % 4 * 16) (by decide +kernel) a
theorem e1_1 (a : UInt8) : ((a &&& 0xf0) >>> 4).toNat = a.toNat / 16 := byte_all (P := fun a => ((a &&& 0xf0) >>> 4).toNat = a.toNat / 16) (by decide +kernel) a
theorem e1_2 (a : UInt8) : ((a &&& 0x0f) <<< 2).toNat = a.toNat % 16 * 4 := byte_all (P := fun a => ((a &&& 0x0f) <<< 2).toNat = a.toNat % 16 * 4) (by decide +kernel) a
theorem e2_2 (a : UInt8) : ((a &&& 0xc0) >>> 6).toNat = a.toNat / 64 := byte_all (P := fun a => ((a &&& 0xc0) >>> 6).toNat = a.toNat / 64) (by decide +kernel) a
theorem e2_3 (a : UInt8) : (a &&& 0x3f).toNat = a.toNat % 64 := byte_all (P := fun a => (a &&& 0x3f).toNat = a.toNat % 64) (by decide +kernel) a

/-! The parts of the values that are decoded. -/
theorem d0_0 (a : UInt8) : ((a &&& 0x3f) <<< 2).toNat = a.toNat % 64 * 4 := byte_all (P := fun a => ((a &&& 0x3f) <<< 2).toNat = a.toNat % 64 * 4) (by decide +kernel) a
theorem d1_0 (a : UInt8) : ((a &&& 0x30) >>> 4).toNat = a.toNat / 16 % 4 := byte_all (P := fun a => ((a &&& 0x30) >>> 4).toNat = a.toNat / 16 % 4) (by decide +kernel) a
theorem d1_1 (a : UInt8) : ((a &&& 0x0f) <<< 4).toNat = a.toNat % 16 * 16 := byte_all (P := fun a => ((a &&& 0x0f) <<< 4).toNat = a.toNat % 16 * 16) (by decide +kernel) a
theorem d2_1 (a : UInt8) : ((a &&& 0x3c) >>> 2).toNat = a.toNat / 4 % 16 := byte_all (P := fun a => ((a &&& 0x3c) >>> 2).toNat = a.toNat / 4 % 16) (by decide +kernel) a
theorem d2_2 (a : UInt8) : ((a &&& 0x03) <<< 6).toNat = a.toNat % 4 * 64 := byte_all (P := fun a => ((a &&& 0x03) <<< 6).toNat = a.toNat % 4 * 64) (by decide +kernel) a

theorem v1 (a b : UInt8) : ((a &&& 0x03) <<< 4 ||| (b &&& 0xf0) >>> 4).toNat = a.toNat % 4 * 16 + b.toNat / 16 := by
  have hb := b.toNat_lt
  rw [or_disjoint _ _ 4 (a.toNat % 4) (e0_1 a) (by rw [e1_1]; omega), e0_1, e1_1]
theorem v2 (b c : UInt8) : ((b &&& 0x0f) <<< 2 ||| (c &&& 0xc0) >>> 6).toNat = b.toNat % 16 * 4 + c.toNat / 64 := by
  have hb := c.toNat_lt
  rw [or_disjoint _ _ 2 (b.toNat % 16) (e1_2 b) (by rw [e2_2]; omega), e1_2, e2_2]

theorem w0 (x y : UInt8) : ((x &&& 0x3f) <<< 2 ||| (y &&& 0x30) >>> 4).toNat = x.toNat % 64 * 4 + y.toNat / 16 % 4 := by
  rw [or_disjoint _ _ 2 (x.toNat % 64) (d0_0 x) (by rw [d1_0]; omega), d0_0, d1_0]
theorem w1 (x y : UInt8) : ((x &&& 0x0f) <<< 4 ||| (y &&& 0x3c) >>> 2).toNat = x.toNat % 16 * 16 + y.toNat / 4 % 16 := by
  rw [or_disjoint _ _ 4 (x.toNat % 16) (d1_1 x) (by rw [d2_1]; omega), d1_1, d2_1]
theorem w2 (x y : UInt8) : ((x &&& 0x03) <<< 6 ||| (y &&& 0x3f)).toNat = x.toNat % 4 * 64 + y.toNat % 64 := by
  rw [or_disjoint _ _ 6 (x.toNat % 4) (d2_2 x) (by rw [e2_3]; omega), d2_2, e2_3]

/-- The characters of a text, and what reading them gives: `n` more characters read. -/
theorem encode_spec : ∀ x : Bytes, ∃ o, encodeLoop x = some o ∧ InBase64 x o ∧ o.length = (x.length + 2) / 3 * 4 ∧
    ∀ (size : Nat) (out : Bytes) (n : Nat), out.length + o.length ≤ size →
      decodeLoop size o out n = some ⟨0, out ++ x ++ List.replicate (size - (out.length + x.length)) 0, n + (x.length / 3 * 4 + if x.length % 3 = 0 then 0 else x.length % 3 + 1)⟩
  | [] => by
    refine ⟨[], rfl, .none, rfl, ?_⟩
    intro size out n h
    unfold decodeLoop
    simp only [List.length_nil, Nat.add_zero] at h
    rw [if_pos h]; simp
  | [a] => by
    have ha := a.toNat_lt
    obtain ⟨c, hc, rc, bc, dc, pc⟩ := charOf_spec ((a &&& 0xfc) >>> 2) (by rw [e0_0]; omega)
    obtain ⟨d, hd, rd, bd, dd, pd⟩ := charOf_spec ((a &&& 0x03) <<< 4) (by rw [e0_1]; omega)
    refine ⟨[c, d, 61, 61], ?_, .one a c d (by simp [bc, bd]) ?_, by simp, ?_⟩
    · simp [encodeLoop, hc, hd]
    · simp only [numberIn, List.foldl_cons, List.foldl_nil, dc, dd, e0_0, e0_1]; omega
    · intro size out n h
      have e0 : ((a &&& 0xfc) >>> 2 &&& 0x3f) <<< 2 ||| ((a &&& 0x03) <<< 4 &&& 0x30) >>> 4 = a := by
        apply UInt8.toNat_inj.mp; rw [w0, e0_0, e0_1]; omega
      have e1 : ((a &&& 0x03) <<< 4 &&& 0x0f) <<< 4 = 0 := by
        apply UInt8.toNat_inj.mp; rw [d1_1, e0_1, show (0 : UInt8).toNat = 0 from rfl]; omega
      simp only [List.length_cons, List.length_nil] at h
      simp only [decodeLoop, rc, rd, pad_read, charInt_ne, or_self, if_false, if_true, Option.bind_eq_bind, Option.bind_some, e0, e1]
      rw [if_pos (by omega)]
      have : size - (out.length + [a].length) = (size - (out.length + 2)) + 1 := by simp only [List.length_cons, List.length_nil]; omega
      rw [this, List.replicate_succ]
      simp
  | [a, b] => by
    have ha := a.toNat_lt
    have hb := b.toNat_lt
    obtain ⟨c, hc, rc, bc, dc, pc⟩ := charOf_spec ((a &&& 0xfc) >>> 2) (by rw [e0_0]; omega)
    obtain ⟨d, hd, rd, bd, dd, pd⟩ := charOf_spec ((a &&& 0x03) <<< 4 ||| (b &&& 0xf0) >>> 4) (by rw [v1]; omega)
    obtain ⟨e, he, re, be, de, pe⟩ := charOf_spec ((b &&& 0x0f) <<< 2) (by rw [e1_2]; omega)
    refine ⟨[c, d, e, 61], ?_, .two a b c d e (by simp [bc, bd, be]) ?_, by simp, ?_⟩
    · simp [encodeLoop, hc, hd, he]
    · simp only [numberIn, List.foldl_cons, List.foldl_nil, dc, dd, de, e0_0, v1, e1_2]; omega
    · intro size out n h
      have e0 : ((a &&& 0xfc) >>> 2 &&& 0x3f) <<< 2 ||| (((a &&& 0x03) <<< 4 ||| (b &&& 0xf0) >>> 4) &&& 0x30) >>> 4 = a := by
        apply UInt8.toNat_inj.mp; rw [w0, v1, e0_0]; omega
      have e1 : (((a &&& 0x03) <<< 4 ||| (b &&& 0xf0) >>> 4) &&& 0x0f) <<< 4 ||| ((b &&& 0x0f) <<< 2 &&& 0x3c) >>> 2 = b := by
        apply UInt8.toNat_inj.mp; rw [w1, v1, e1_2]; omega
      have e2 : ((b &&& 0x0f) <<< 2 &&& 0x03) <<< 6 = 0 := by
        apply UInt8.toNat_inj.mp; rw [d2_2, e1_2, show (0 : UInt8).toNat = 0 from rfl]; omega
      simp only [List.length_cons, List.length_nil] at h
      simp only [decodeLoop, rc, rd, re, pe, pad_read, charInt_ne, or_self, if_false, if_true, Option.bind_eq_bind, Option.bind_some, e0, e1, e2]
      rw [if_pos (by omega)]
      have : size - (out.length + [a, b].length) = (size - (out.length + 3)) + 1 := by simp only [List.length_cons, List.length_nil]; omega
      rw [this, List.replicate_succ]
      simp
  | a :: b :: x :: rest => by
    have ha := a.toNat_lt
    have hb := b.toNat_lt
    have hx := x.toNat_lt
    obtain ⟨c, hc, rc, bc, dc, pc⟩ := charOf_spec ((a &&& 0xfc) >>> 2) (by rw [e0_0]; omega)
    obtain ⟨d, hd, rd, bd, dd, pd⟩ := charOf_spec ((a &&& 0x03) <<< 4 ||| (b &&& 0xf0) >>> 4) (by rw [v1]; omega)
    obtain ⟨e, he, re, be, de, pe⟩ := charOf_spec ((b &&& 0x0f) <<< 2 ||| (x &&& 0xc0) >>> 6) (by rw [v2]; omega)
    obtain ⟨f, hf, rf, bf, df, pf⟩ := charOf_spec (x &&& 0x3f) (by rw [e2_3]; omega)
    obtain ⟨o, ho, sp, lo, back⟩ := encode_spec rest
    refine ⟨c :: d :: e :: f :: o, ?_, .three a b x c d e f rest o (by simp [bc, bd, be, bf]) ?_ sp, ?_, ?_⟩
    · simp [encodeLoop, hc, hd, he, hf, ho]
    · simp only [numberIn, List.foldl_cons, List.foldl_nil, dc, dd, de, df, e0_0, v1, v2, e2_3]; omega
    · simp only [List.length_cons]; omega
    · intro size out n h
      have e0 : ((a &&& 0xfc) >>> 2 &&& 0x3f) <<< 2 ||| (((a &&& 0x03) <<< 4 ||| (b &&& 0xf0) >>> 4) &&& 0x30) >>> 4 = a := by
        apply UInt8.toNat_inj.mp; rw [w0, v1, e0_0]; omega
      have e1 : (((a &&& 0x03) <<< 4 ||| (b &&& 0xf0) >>> 4) &&& 0x0f) <<< 4 ||| (((b &&& 0x0f) <<< 2 ||| (x &&& 0xc0) >>> 6) &&& 0x3c) >>> 2 = b := by
        apply UInt8.toNat_inj.mp; rw [w1, v1, v2]; omega
      have e2 : (((b &&& 0x0f) <<< 2 ||| (x &&& 0xc0) >>> 6) &&& 0x03) <<< 6 ||| (x &&& 0x3f &&& 0x3f) = x := by
        apply UInt8.toNat_inj.mp; rw [w2, v2, e2_3]; omega
      simp only [List.length_cons] at h
      have hstep := back size (out ++ [a, b, x]) (n + 4) (by simp; omega)
      simp only [decodeLoop, rc, rd, re, rf, charInt_ne, or_self, if_false, Option.bind_eq_bind, Option.bind_some, e0, e1, e2, pe, pf]
      rw [hstep]
      simp only [List.length_append, List.length_cons, List.length_nil, List.append_assoc, List.cons_append, List.nil_append]
      have h1 : (rest.length + 1 + 1 + 1) / 3 = rest.length / 3 + 1 := by omega
      have h2 : (rest.length + 1 + 1 + 1) % 3 = rest.length % 3 := by omega
      have h3 : out.length + (0 + 1 + 1 + 1) + rest.length = out.length + (rest.length + 1 + 1 + 1) := by omega
      rw [h1, h2, h3]
      have h4 : n + 4 + (rest.length / 3 * 4 + if rest.length % 3 = 0 then 0 else rest.length % 3 + 1) = n + ((rest.length / 3 + 1) * 4 + if rest.length % 3 = 0 then 0 else rest.length % 3 + 1) := by
        split <;> omega
      rw [h4]

end Hec
