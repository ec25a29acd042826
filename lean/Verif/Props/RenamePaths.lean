import Verif.Proofs.EngineRename2
/-!
The pathname that a copied or renamed record gets (C50): trailing blanks are dropped, missing slashes are added.
-/
namespace Hec
set_option linter.unusedSimpArgs false
open _root_.Spec (join SixParts)

theorem lastInk_blanks {x : Bytes} {k : Nat} (hx : 2 ≤ x.length) (hlast : x[x.length - 1]? ≠ some 32) :
    ∀ j, j < k → lastInkFrom (x ++ List.replicate k 32) (x.length + j) = some (x.length - 1) := by
  have base : lastInkFrom (x ++ List.replicate k 32) (x.length - 1) = some (x.length - 1) := by
    obtain ⟨m, hm⟩ : ∃ m, x.length - 1 = m + 1 := ⟨x.length - 2, by omega⟩
    rw [hm] at hlast ⊢
    unfold lastInkFrom
    rw [List.getElem?_append_left (by omega), if_pos hlast]
  have step : ∀ j, j < k → (x ++ List.replicate k (32 : UInt8))[x.length + j]? = some 32 := by
    intro j hj
    rw [List.getElem?_append_right (by omega), show x.length + j - x.length = j by omega, List.getElem?_replicate, if_pos hj]
  intro j
  induction j with
  | zero =>
    intro hj
    obtain ⟨m, hm⟩ : ∃ m, x.length = m + 1 := ⟨x.length - 1, by omega⟩
    have h := step 0 hj
    rw [Nat.add_zero] at h ⊢
    rw [hm] at h base
    conv => lhs; rw [hm]
    unfold lastInkFrom
    rw [h, if_neg (by simp)]
    rw [show m + 1 - 1 = m by omega] at base
    rw [base]; congr 1; omega
  | succ j ih =>
    intro hj
    have h := step (j + 1) hj
    rw [← Nat.add_assoc] at h ⊢
    unfold lastInkFrom
    rw [h, if_neg (by simp)]
    exact ih (by omega)

theorem trimmedLen_blanks {x : Bytes} (k : Nat) (hx : 2 ≤ x.length) (hlast : x[x.length - 1]? ≠ some 32) :
    trimmedLen (x ++ List.replicate k 32) = x.length := by
  unfold trimmedLen
  cases k with
  | zero =>
    rw [List.replicate_zero, List.append_nil, if_neg hlast]
  | succ k =>
    have hl : (x ++ List.replicate (k + 1) (32 : UInt8)).length - 1 = x.length + k := by
      rw [List.length_append, List.length_replicate]; omega
    rw [hl, lastInk_blanks hx hlast k (by omega)]
    have hg : (x ++ List.replicate (k + 1) (32 : UInt8))[x.length + k]? = some 32 := by
      rw [List.getElem?_append_right (by omega), show x.length + k - x.length = k by omega, List.getElem?_replicate, if_pos (by omega)]
    rw [hg, if_pos rfl]
    simp only
    omega

theorem copyPath_blanks {x : Bytes} (k : Nat) (hx : 2 ≤ x.length) (hlast : x[x.length - 1]? ≠ some 32) :
    mallocAndCopyPath (x ++ List.replicate k 32) = mallocAndCopyPath x := by
  unfold mallocAndCopyPath
  have h0 := trimmedLen_blanks 0 hx hlast
  rw [List.replicate_zero, List.append_nil] at h0
  rw [if_neg (by rw [List.length_append]; omega), if_neg (by omega), trimmedLen_blanks k hx hlast, h0]
  rw [List.take_append_of_le_length (Nat.le_refl _)]

theorem join_len_ge {ps : List Bytes} (h : ps ≠ []) : 2 ≤ (join ps).length := by
  cases ps with
  | nil => exact absurd rfl h
  | cons a as => unfold join; simp; omega

/-- C50.  Blanks after the pathname are not part of it. -/
theorem C50_trailing_blanks (ps : List Bytes) (h : SixParts ps) (k : Nat) : mallocAndCopyPath (join ps ++ List.replicate k 32) = join ps := by
  have h2 : 2 ≤ (join ps).length := join_len_ge (by intro h0; rw [h0] at h; exact absurd h.1 (by decide))
  rw [copyPath_blanks k h2 (by rw [join_getLast]; decide), mallocAndCopyPath_join h]

theorem cutSlashes_short (ps : List Bytes) (hp : ∀ p ∈ ps, ∀ x ∈ p, x ≠ 47) {f : Bytes} (hf : ∀ x ∈ f, x ≠ 47) : ∀ n, ps.length < n →
    cutSlashes n (ps.flatMap (· ++ [47]) ++ f) = (ps.flatMap (· ++ [47]) ++ f, n - ps.length) := by
  induction ps with
  | nil =>
    intro n _
    rw [List.flatMap_nil, List.nil_append]
    simp only [List.length_nil, Nat.sub_zero]
    induction f with
    | nil => rfl
    | cons a f ih =>
      unfold cutSlashes
      rw [if_neg (hf a (by simp)), ih (fun x hx => hf x (by simp [hx]))]
  | cons p ps ih =>
    intro n hn
    rw [List.length_cons] at hn
    rw [List.flatMap_cons, List.append_assoc, List.append_assoc, List.singleton_append, cutSlashes_part (hp p (by simp)), if_neg (by omega),
      ih (fun q hq => hp q (by simp [hq])) (n - 1) (by omega)]
    simp only [List.length_cons, Prod.mk.injEq, true_and]
    omega

/-- C50.  A pathname whose last slashes are missing is completed: the missing parts are empty.  Blanks after it are
not part of it. -/
theorem C50_missing_slashes (ps : List Bytes) (f : Bytes) (k : Nat) (hn : ps.length ≤ 5) (hp : ∀ p ∈ ps, ∀ x ∈ p, x ≠ 47) (hf : ∀ x ∈ f, x ≠ 47)
    (hne : f ≠ []) (hlast : f[f.length - 1]? ≠ some 32) :
    mallocAndCopyPath (join ps ++ f ++ List.replicate k 32) = join (ps ++ [f] ++ List.replicate (5 - ps.length) []) := by
  have hfl : 0 < f.length := List.length_pos_iff.mpr hne
  have hl1 : 1 ≤ (join ps).length := by unfold join; rw [List.length_cons]; omega
  have hl : (join ps ++ f).length = (join ps).length + f.length := List.length_append ..
  have hg : (join ps ++ f)[(join ps ++ f).length - 1]? ≠ some 32 := by
    rw [hl, List.getElem?_append_right (by omega), show (join ps).length + f.length - 1 - (join ps).length = f.length - 1 by omega]
    exact hlast
  rw [copyPath_blanks k (by omega) hg]
  unfold mallocAndCopyPath
  have h0 := trimmedLen_blanks 0 (by omega) hg
  rw [List.replicate_zero, List.append_nil] at h0
  rw [if_neg (by omega), h0, List.take_length]
  have h1 : join ps ++ f = ([] : Bytes) ++ 47 :: (ps.flatMap (· ++ [47]) ++ f) := rfl
  rw [h1, cutSlashes_part (by simp), if_neg (by decide), cutSlashes_short ps hp hf 6 (by omega)]
  simp only
  have h2 : ∀ m : Nat, (List.replicate m ([] : Bytes)).flatMap (· ++ [47]) = List.replicate m 47 := by
    intro m
    induction m with
    | zero => rfl
    | succ m ih => rw [List.replicate_succ, List.flatMap_cons, ih]; rfl
  unfold join
  rw [List.flatMap_append, List.flatMap_append, h2, show 6 - ps.length = 5 - ps.length + 1 by omega, List.replicate_succ]
  simp

theorem lastInk_none : ∀ m n : Nat, lastInkFrom (List.replicate n 32) m = none ∨ n ≤ m := by
  intro m
  induction m with
  | zero => intro n; left; rfl
  | succ m ih =>
    intro n
    rcases ih n with h | h
    · by_cases hm : m + 1 < n
      · left
        unfold lastInkFrom
        rw [List.getElem?_replicate, if_pos hm, if_neg (by simp)]
        exact h
      · right; omega
    · right; omega

/-- C50.  Of a pathname of blanks only, one blank is dropped, and the slashes are added behind the others. -/
theorem C50_only_blanks (k : Nat) : mallocAndCopyPath (List.replicate (k + 1) 32) = List.replicate k 32 ++ List.replicate 7 47 := by
  have hc : ∀ k : Nat, cutSlashes 7 (List.replicate k 32) = (List.replicate k 32, 7) := by
    intro k
    induction k with
    | zero => rfl
    | succ k ih => rw [List.replicate_succ]; unfold cutSlashes; rw [if_neg (by decide), ih]
  unfold mallocAndCopyPath
  have ht : trimmedLen (List.replicate (k + 1) 32) = k := by
    unfold trimmedLen
    have hg : (List.replicate (k + 1) (32 : UInt8))[(List.replicate (k + 1) (32 : UInt8)).length - 1]? = some 32 := by
      rw [List.length_replicate, List.getElem?_replicate, if_pos (by omega)]
    rw [if_pos hg, List.length_replicate]
    rcases lastInk_none k (k + 1) with h | h
    · rw [Nat.add_sub_cancel, h]
    · omega
  rw [if_neg (by rw [List.length_replicate]; omega), ht, List.take_replicate, Nat.min_eq_left (by omega), hc]

/-- The hypotheses are met: `/A/B` with a blank after it. -/
example : mallocAndCopyPath [47, 65, 47, 66, 32] = [47, 65, 47, 66, 47, 47, 47, 47, 47] :=
  C50_missing_slashes [[65]] [66] 1 (by decide) (by decide) (by decide) (by decide) (by decide)

end Hec
