import Verif.Spec.Api
import Verif.Proofs.Headers
import Verif.Props.Records
namespace Hec
set_option linter.unusedSimpArgs false
set_option linter.unusedVariables false
open _root_.Spec (Ascii NoBlankEnd written shownIn shown rtrim trim)

theorem legalLen_ascii : ∀ (s : Bytes), Ascii s → legalLen s = s.length
  | [], _ => rfl
  | [_], _ => rfl
  | b :: c :: bs, h => by
    have hb := h b (by simp)
    have ih := legalLen_ascii (c :: bs) (fun x hx => h x (List.mem_cons_of_mem _ hx))
    unfold legalLen
    rw [if_neg (by omega), ih]
    simp; omega

theorem lastInk_some {s : Bytes} : ∀ {n i : Nat}, lastInk s n = some i → i ≤ n ∧ ∀ j, i < j → j ≤ n → s.getD j 0 = 32
  | 0, i, h => by cases h
  | n + 1, i, h => by
    unfold lastInk at h
    split at h
    · injection h with h; subst h; exact ⟨Nat.le_refl _, fun j h1 h2 => by omega⟩
    · rename_i hb
      obtain ⟨h1, h2⟩ := lastInk_some h
      refine ⟨by omega, fun j h3 h4 => ?_⟩
      by_cases hj : j = n + 1
      · subst hj; simpa using hb
      · exact h2 j h3 (by omega)

theorem take_blanks {s : Bytes} {n : Nat} (hn : n ≤ s.length) (h : ∀ j, n ≤ j → j < s.length → s.getD j 0 = 32) :
    s = s.take n ++ List.replicate (s.length - n) 32 := by
  apply List.ext_getElem
  · simp; omega
  · intro i h1 h2
    rw [List.getElem_append]
    split
    · simp
    · rename_i h3
      simp only [List.length_take, Nat.min_eq_left hn] at h3
      have := h i (by omega) h1
      rw [List.getD_eq_getElem?_getD, List.getElem?_eq_getElem h1] at this
      simpa using this

/-- mallocAndCopy takes off blanks only. -/
theorem copy_blanks {s : Bytes} (h : Ascii s) : ∃ k, s = mallocAndCopy s ++ List.replicate k 32 := by
  unfold mallocAndCopy
  rw [legalLen_ascii s h]
  simp only
  split
  · rename_i h0; exact ⟨0, by rw [List.length_eq_zero_iff.mp h0]; rfl⟩
  · rename_i h0
    split
    · rename_i hb
      cases hl : lastInk s (s.length - 1) with
      | some i =>
        obtain ⟨h1, h2⟩ := lastInk_some hl
        exact ⟨_, take_blanks (by omega) (fun j h3 h4 => h2 j (by omega) (by omega))⟩
      | none =>
        refine ⟨_, take_blanks (by omega) (fun j h3 h4 => ?_)⟩
        rw [show j = s.length - 1 by omega]; exact hb
    · exact ⟨0, by simp⟩

theorem copy_same {s : Bytes} (h : Ascii s) (hb : NoBlankEnd s) : mallocAndCopy s = s := by
  obtain ⟨k, hk⟩ := copy_blanks h
  cases k with
  | zero => simpa using hk.symm
  | succ k =>
    exfalso
    apply hb
    rw [hk, List.replicate_succ', ← List.append_assoc, List.getLast?_append]
    simp

theorem shown_copy {s : Bytes} (h : Ascii s) : shown (some (mallocAndCopy s)) = shown (some s) := by
  obtain ⟨k, hk⟩ := copy_blanks h
  have : rtrim (mallocAndCopy s) = rtrim s := by rw [← rtrim_append_blanks _ k, ← hk]
  unfold shown
  simp only [Option.getD_some, trim_rtrim, this]

theorem written_length {α : Type} (mem x : List α) (h : x.length ≤ mem.length) : (written mem x).length = mem.length := by
  unfold written; simp; omega

theorem stringCopy_gen (dst src : Bytes) : stringCopy dst src src.length = some (shownIn dst dst.length src, min src.length (dst.length - 1)) := by
  by_cases h : src.length < dst.length
  · rw [stringCopy_eq _ _ _ (Nat.le_refl _) h]
    unfold shownIn written
    rw [if_neg (by omega), List.take_of_length_le (Nat.le_refl _), List.take_of_length_le (by omega : src.length ≤ dst.length - 1), Nat.min_eq_left (by omega)]
    simp
  · by_cases h0 : dst.length = 0
    · rw [List.length_eq_zero_iff] at h0; subst h0
      unfold stringCopy shownIn
      split <;> simp
    · unfold stringCopy
      rw [if_neg (by omega), if_neg h0]
      simp only
      rw [if_neg (show ¬ src.length < dst.length - 1 by omega), if_neg (show ¬ src.length < dst.length - 1 by omega)]
      have e := copyIn_eq (src.take (dst.length - 1)) dst 0 (by simp; omega)
      rw [show ((0 : Nat) : Int) = 0 from rfl] at e
      rw [e, Option.bind_some]
      have hl : (src.take (dst.length - 1)).length = dst.length - 1 := by simp; omega
      rw [hl, wr_split _ _ _ (by simp; omega), Option.map_some]
      unfold shownIn written
      rw [if_neg h0, Nat.min_eq_right (by omega)]
      congr 2
      have h2 : dst.drop (dst.length - 1 + 1) = [] := List.drop_eq_nil_of_le (by omega)
      rw [List.take_zero, List.nil_append, Nat.zero_add, List.take_append_of_le_length (by omega), List.take_of_length_le (by omega : (List.take (dst.length - 1) src).length ≤ dst.length - 1)]
      rw [List.drop_append, List.drop_eq_nil_of_le (by omega : (List.take (dst.length - 1) src).length ≤ dst.length - 1 + 1), List.nil_append, List.drop_drop, List.drop_eq_nil_of_le (by omega), List.length_append, hl]
      simp [h2]

theorem putString_some (buf : Bytes) {size : Int} (s : Bytes) (h0 : 0 ≤ size) (h1 : size ≤ buf.length) :
    putString buf size (some s) = some (shownIn buf size.toNat s) := by
  unfold putString stringCopyAt
  simp only
  rw [if_pos h0, if_pos (by omega)]
  have hl : (List.take size.toNat (List.drop 0 buf)).length = size.toNat := by simp; omega
  rw [stringCopy_gen, Option.map_some, hl]
  simp only [List.take_zero, List.nil_append, Nat.zero_add, List.drop_zero]
  congr 1
  unfold shownIn written
  split
  · simp
  · rename_i hz
    rw [List.append_assoc]
    congr 1
    rw [List.drop_take]
    have : (List.take (size.toNat - 1) s ++ [0]).length ≤ size.toNat := by simp; omega
    generalize (List.take (size.toNat - 1) s ++ [0]).length = n at *
    conv => rhs; rw [← List.take_append_drop (size.toNat - n) (buf.drop n)]
    rw [List.drop_drop, show n + (size.toNat - n) = size.toNat by omega]

theorem copyArray_all {α : Type} (dst src : List α) (h : src.length ≤ dst.length) : copyArray dst src.length src = some (written dst src) := by
  unfold copyArray written
  split
  · rename_i h0
    have : src = [] := by rw [← List.length_eq_zero_iff]; omega
    rw [this]; simp
  · simp only [Int.toNat_natCast, Nat.min_self]
    rw [if_pos h, List.take_length]

theorem putLabels_eq (buf : Bytes) {size : Int} (l : Bytes) (h0 : 0 ≤ size) (h1 : size ≤ buf.length) :
    putLabels buf size l = some (written buf (l.take size.toNat)) := by
  unfold putLabels written
  simp only
  have : (if (l.length : Int) > size then size.toNat else l.length) = (l.take size.toNat).length := by
    rw [List.length_take]; split <;> omega
  rw [this, if_pos (by rw [List.length_take]; omega)]
  congr 2
  rw [List.length_take]
  by_cases h : size.toNat ≤ l.length
  · rw [Nat.min_eq_left h]
  · rw [Nat.min_eq_right (by omega), List.take_length, List.take_of_length_le (by omega)]

theorem strncpyInto_eq (buf : Bytes) (t : Bytes) (n : Nat) (ht : ∀ b ∈ t, b ≠ 0) (hn : n ≤ t.length) (hb : n ≤ buf.length) :
    strncpyInto buf (t ++ [0]) n = some (written buf (t.take n)) := by
  have : cstr (t ++ [0]) = t := by
    unfold cstr
    rw [List.takeWhile_append_of_pos (by intro x hx; simpa using ht x hx)]; simp
  unfold strncpyInto written
  simp only [this]
  rw [if_pos hb]
  have : (t.take n).length = n := by simp; omega
  rw [this]; simp

open _root_.Spec (join SixParts) in
theorem name0 {ps : List Bytes} (hp : SixParts ps) (k : Nat) : mallocAndCopyPath (join ps ++ List.replicate k 32) = join ps ++ List.replicate 0 32 := by
  rw [C50_trailing_blanks ps hp k]; simp

end Hec
