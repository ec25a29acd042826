import Verif.Model.Engine
import Verif.Proofs.Hash
/-! Lemmas on disk writes and on the packing of ints and bytes into words. -/
namespace Hec
set_option linter.unusedSimpArgs false
set_option linter.unusedVariables false

theorem apply_out {w : Wr} {d : Disk} {x : Nat} (h : ¬ (w.a ≤ x ∧ x < w.a + w.n)) : w.apply d x = d x := by
  simp only [Wr.apply, if_neg h]

theorem apply_in {w : Wr} {d : Disk} {i : Nat} (h : i < w.n) : w.apply d (w.a + i) = w.f i := by
  have : w.a ≤ w.a + i ∧ w.a + i < w.a + w.n := by omega
  simp only [Wr.apply, if_pos this]
  congr 1
  omega

@[simp] theorem put_disk (s : Eng) (a n : Nat) (f : Nat → Nat) :
    (s.put a n f).disk = Wr.apply ⟨a, n, f⟩ s.disk := rfl
@[simp] theorem put_hdr (s : Eng) (a n : Nat) (f : Nat → Nat) : (s.put a n f).hdr = s.hdr := rfl
@[simp] theorem put_log (s : Eng) (a n : Nat) (f : Nat → Nat) :
    (s.put a n f).log = s.log ++ [⟨a, n, f⟩] := rfl

theorem lowInt_pack (a b : UInt32) : lowInt (packInts a b) = a := by
  have h : a.toNat < 4294967296 := a.toNat_lt
  have : (packInts a b) % 2 ^ 32 = a.toNat := by
    simp only [packInts, show (2:Nat) ^ 32 = 4294967296 from rfl]; omega
  rw [lowInt, this]; simp

theorem highInt_pack (a b : UInt32) : highInt (packInts a b) = b := by
  have h : a.toNat < 4294967296 := a.toNat_lt
  have : (packInts a b) / 2 ^ 32 = b.toNat := by
    simp only [packInts, show (2:Nat) ^ 32 = 4294967296 from rfl]; omega
  rw [highInt, this]; simp

theorem lo32_pack {a b : Nat} (h : a < 2 ^ 32) : lo32 (pack32 a b) = a := by
  simp only [lo32, pack32, show (2:Nat) ^ 32 = 4294967296 from rfl] at *; omega

theorem hi32_pack {a b : Nat} (h : a < 2 ^ 32) : hi32 (pack32 a b) = b := by
  simp only [hi32, pack32, show (2:Nat) ^ 32 = 4294967296 from rfl] at *; omega

/-! ### Ints -/

theorem putInts_out (s : Eng) (a : Nat) (xs : List UInt32) (x : Nat)
    (h : ¬ (a ≤ x ∧ x < a + nLongs xs.length)) : (s.putInts a xs).disk x = s.disk x := by
  unfold Eng.putInts
  split
  · rfl
  · exact apply_out h

theorem getInts_congr {d d' : Disk} {a n : Nat} (h : ∀ i, i < nLongs n → d (a + i) = d' (a + i)) :
    getInts d a n = getInts d' a n := by
  apply List.map_congr_left
  intro i hi
  have : i / 2 < nLongs n := by simp only [nLongs]; simp at hi; omega
  rw [h _ this]

theorem getInts_putInts (s : Eng) (a : Nat) (xs : List UInt32) :
    getInts (s.putInts a xs).disk a xs.length = xs := by
  apply List.ext_getElem
  · simp [getInts]
  intro i h1 h2
  have hne : ¬ xs.length = 0 := by omega
  have hlt : i / 2 < nLongs xs.length := by simp only [nLongs]; omega
  simp only [getInts, List.getElem_map, List.getElem_range, Eng.putInts, if_neg hne, put_disk]
  rw [apply_in (w := ⟨a, nLongs xs.length, _⟩) hlt]
  simp only [lowInt_pack, highInt_pack]
  split
  · next h =>
    have : 2 * (i / 2) = i := by omega
    rw [this, List.getElem?_eq_getElem h2]; rfl
  · next h =>
    have : 2 * (i / 2) + 1 = i := by omega
    rw [this, List.getElem?_eq_getElem h2]; rfl

@[simp] theorem putInts_hdr (s : Eng) (a : Nat) (xs : List UInt32) : (s.putInts a xs).hdr = s.hdr := by
  unfold Eng.putInts; split <;> rfl

/-! ### Bytes -/

theorem byteOf_wordOf (b : Nat → UInt8) (k : Nat) (hk : k < 8) : byteOf (wordOf b) k = b k := by
  have h0 := (b 0).toNat_lt
  have h1 := (b 1).toNat_lt
  have h2 := (b 2).toNat_lt
  have h3 := (b 3).toNat_lt
  have h4 := (b 4).toNat_lt
  have h5 := (b 5).toNat_lt
  have h6 := (b 6).toNat_lt
  have h7 := (b 7).toNat_lt
  have key : wordOf b / 256 ^ k % 256 = (b k).toNat := by
    unfold wordOf
    have hk' : k = 0 ∨ k = 1 ∨ k = 2 ∨ k = 3 ∨ k = 4 ∨ k = 5 ∨ k = 6 ∨ k = 7 := by omega
    rcases hk' with rfl | rfl | rfl | rfl | rfl | rfl | rfl | rfl <;>
      simp only [Nat.reducePow] <;> omega
  rw [byteOf, key]; simp

theorem unpackBytes_length (f : Nat → Nat) (n : Nat) : (unpackBytes f n).length = n := by simp [unpackBytes]

theorem unpackBytes_congr {f g : Nat → Nat} {n : Nat} (h : ∀ j, j < nLongsB n → f j = g j) :
    unpackBytes f n = unpackBytes g n := by
  apply List.map_congr_left
  intro i hi
  have : i / 8 < nLongsB n := by simp only [nLongsB]; simp at hi; omega
  simp only [wordsByte, h _ this]

theorem unpack_pack (old : Nat → Nat) (p : Bytes) : unpackBytes (packBytes old p) p.length = p := by
  apply List.ext_getElem
  · simp [unpackBytes]
  intro i h1 h2
  simp only [unpackBytes, List.getElem_map, List.getElem_range, wordsByte, packBytes]
  rw [byteOf_wordOf _ _ (Nat.mod_lt _ (by omega))]
  have : 8 * (i / 8) + i % 8 = i := by omega
  rw [this, List.getElem?_eq_getElem h2]; rfl

/-- `zstringCompare` of strings of equal length. -/
theorem compare_iff (p q : Bytes) (h : q.length = p.length) :
    zstringCompare p q p.length = true ↔ p.map toupper = q.map toupper := by
  induction p generalizing q with
  | nil =>
    cases q with
    | nil => simp [zstringCompare]
    | cons => simp at h
  | cons a as ih =>
    cases q with
    | nil => simp at h
    | cons b bs =>
      simp only [List.length_cons, Nat.add_right_cancel_iff] at h
      simp only [List.length_cons, zstringCompare, List.map_cons, List.cons.injEq]
      split
      · next hne => simp [hne]
      · next he =>
        have he : toupper a = toupper b := Decidable.not_not.mp he
        rw [ih bs h]; simp [he]

end Hec
