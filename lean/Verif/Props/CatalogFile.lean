import Verif.Proofs.Open
import Verif.Model.CatalogFile
/-!
C106: writing a catalog to a file (zcatalogFile) leaves the DSS file as it is.
-/
namespace Spec
open Hec

/-- No name leads to another file. -/
def NoLinks (p : Place) : Prop := ∀ n, p.leads n = n

/-- The name ends in ".dss", in small letters, behind at least two bytes. -/
def SmallDss (n : Bytes) : Prop := ∃ stem, n = stem ++ [46, 100, 115, 115] ∧ 2 ≤ stem.length

/-- A name without the blanks at its end. -/
def noBlanks (n : Bytes) : Bytes := (n.reverse.dropWhile (· = 32)).reverse

end Spec

namespace Hec
open _root_.Spec (NoLinks SmallDss noBlanks HasExtension NoQuotes)

theorem drop_last4 (stem t : Bytes) (h : t.length = 4) : (stem ++ t).drop ((stem ++ t).length - 4) = t := by
  rw [show (stem ++ t).length - 4 = stem.length by rw [List.length_append]; omega]
  simp

theorem start_eq (p : Place) (full name : Bytes) (given : Option Bytes) (h : catalogFileName full given = some name) :
    startCatalog p full given = some fun x => if x = p.leads name then some [] else p.files x := by
  unfold startCatalog; rw [h]; rfl

theorem small_iff (n : Bytes) : SmallDss n ↔ 5 < n.length ∧ n.drop (n.length - 4) = DOT_DSS := by
  constructor
  · rintro ⟨stem, rfl, h⟩
    refine ⟨by simp; omega, ?_⟩
    exact drop_last4 stem _ rfl
  · rintro ⟨h, hd⟩
    refine ⟨n.take (n.length - 4), ?_, by simp; omega⟩
    have := List.take_append_drop (n.length - 4) n
    rw [hd] at this
    exact this.symm

theorem ending_small (stem : Bytes) (h : 2 ≤ stem.length) : catalogEnding (stem ++ [46, 100, 115, 115]) = stem ++ [46, 100, 115, 99] := by
  unfold catalogEnding
  rw [if_pos ((small_iff _).1 ⟨stem, rfl, h⟩)]
  have : ∀ t : Bytes, t.length = 4 → (stem ++ t).take ((stem ++ t).length - 1) = stem ++ t.take 3 := by
    intro t ht
    rw [show (stem ++ t).length - 1 = stem.length + 3 by rw [List.length_append]; omega]
    rw [List.take_append, List.take_of_length_le (by omega)]
    simp
  rw [this _ rfl]
  simp

theorem ending_other (n : Bytes) (h : ¬ SmallDss n) : catalogEnding n = n := by
  unfold catalogEnding
  rw [if_neg (fun x => h ((small_iff n).2 x))]

theorem take_trim (g : Bytes) : g.take (trimLength g) = noBlanks g := by
  have hl : ∀ r : Bytes, trimLengthLoop r = (r.dropWhile (· = 32)).length := by
    intro r
    induction r with
    | nil => rfl
    | cons c cs ih =>
      unfold trimLengthLoop
      by_cases hc : c = 32
      · subst hc; simp [BLANK, ih]
      · simp [BLANK, hc]
  have : ∀ r : Bytes, r.reverse.take (r.dropWhile (· = 32)).length = (r.dropWhile (· = 32)).reverse := by
    intro r
    induction r with
    | nil => rfl
    | cons c cs ih =>
      by_cases hc : c = 32
      · subst hc
        rw [List.dropWhile_cons_of_pos (by decide), List.reverse_cons, List.take_append_of_le_length, ih]
        rw [List.length_reverse]
        exact (List.dropWhile_sublist _).length_le
      · rw [List.dropWhile_cons_of_neg (by simpa using hc), ← List.length_reverse, List.take_length]
  have h2 := this g.reverse
  rw [List.reverse_reverse] at h2
  unfold trimLength noBlanks
  rw [hl, h2]

/-- **Part of C106**: without a name from the caller, the catalog of a file whose name ends in ".dss" goes to the file of that name with ".dsc"; every
other file, the DSS file among them, is as before.  Missing: other names (`C106_destroys_violation`). -/
theorem C106_own_name_partial (p : Place) (hp : NoLinks p) (stem : Bytes) (h : 2 ≤ stem.length ∧ stem.length ≤ 251) :
    ∃ fs, startCatalog p (stem ++ [46, 100, 115, 115]) none = some fs ∧
      (∀ x, x ≠ stem ++ [46, 100, 115, 99] → fs x = p.files x) ∧ fs (stem ++ [46, 100, 115, 115]) = p.files (stem ++ [46, 100, 115, 115]) := by
  refine ⟨_, start_eq p _ (stem ++ [46, 100, 115, 99]) none ?_, ?_⟩
  · unfold catalogFileName
    simp only []
    rw [if_neg (by simp; omega), ending_small _ h.1]
  · refine ⟨fun x hx => ?_, ?_⟩
    · simp only [show ∀ n, p.leads n = n from hp]; rw [if_neg hx]
    · simp only [show ∀ n, p.leads n = n from hp]; rw [if_neg (by simp)]

/-- **Part of C106**: with a name from the caller, the DSS file is as before if the caller's name, its trailing blanks and a final "s" for "c" apart, is
not the name of the DSS file. -/
theorem C106_given_name_partial (p : Place) (hp : NoLinks p) (full g : Bytes) (hl : (noBlanks g).length ≤ 255)
    (h : (¬ SmallDss (noBlanks g) ∧ noBlanks g ≠ full) ∨
      ∃ stem, noBlanks g = stem ++ [46, 100, 115, 115] ∧ 2 ≤ stem.length ∧ full ≠ stem ++ [46, 100, 115, 99]) :
    ∃ fs, startCatalog p full (some g) = some fs ∧ fs full = p.files full := by
  have ht : trimLength g ≤ 255 := by
    have e : (g.take (trimLength g)).length = (noBlanks g).length := by rw [take_trim]
    have e2 : trimLength g ≤ g.length := by
      have : ∀ r : Bytes, trimLengthLoop r ≤ r.length := by
        intro r
        induction r with
        | nil => exact Nat.le_refl _
        | cons c cs ih => unfold trimLengthLoop; split <;> simp <;> omega
      have := this g.reverse
      rw [List.length_reverse] at this
      exact this
    rw [List.length_take] at e
    omega
  refine ⟨_, start_eq p _ (catalogEnding (noBlanks g)) (some g) ?_, ?_⟩
  · unfold catalogFileName
    simp only []
    rw [if_neg (by omega), take_trim]
  · simp only [show ∀ n, p.leads n = n from hp]
    rcases h with ⟨h1, h2⟩ | ⟨stem, h1, h2, h3⟩
    · rw [ending_other _ h1, if_neg (fun e => h2 e.symm)]
    · rw [h1, ending_small _ h2, if_neg h3]

/-- The caller's name may be that of the DSS file itself, if it ends in ".dss": the catalog then goes to the file with ".dsc". -/
theorem C106_same_name (p : Place) (hp : NoLinks p) (stem : Bytes) (h : 2 ≤ stem.length ∧ stem.length ≤ 251) :
    ∃ fs, startCatalog p (stem ++ [46, 100, 115, 115]) (some (stem ++ [46, 100, 115, 115])) = some fs ∧
      fs (stem ++ [46, 100, 115, 115]) = p.files (stem ++ [46, 100, 115, 115]) := by
  have e : noBlanks (stem ++ [46, 100, 115, 115]) = stem ++ [46, 100, 115, 115] := by simp [noBlanks]
  refine C106_given_name_partial p hp _ _ (by rw [e]; simp; omega) (Or.inr ⟨stem, e, h.1, by simp⟩)

/-- **C106 is false of the code**: if the full name of the open DSS file does not end in ".dss" in small letters, writing a catalog without giving a name
empties the DSS file. -/
theorem C106_destroys_violation (p : Place) (full : Bytes) (hl : full.length ≤ 255) (h : ¬ SmallDss full) :
    ∃ fs, startCatalog p full none = some fs ∧ fs (p.leads full) = some [] := by
  refine ⟨_, start_eq p _ full none ?_, ?_⟩
  · unfold catalogFileName
    simp only []
    rw [if_neg (by omega), ending_other _ h]
  · simp only [if_true]

/-- zopen takes such names: one ending in ".DSS", for one, is taken as it is, so the file that is opened is the file that is emptied. -/
theorem C106_capitals_violation (p : Place) (n : Bytes) (hq : NoQuotes n) (he : HasExtension n) (hs : ¬ SmallDss n) (hl : n.length ≤ 255)
    (hr : p.real n = some n) (content : Bytes) (hf : p.files n = some content) (hc : content ≠ []) :
    zfileName p n = some (n, p.permission n, true) ∧ ∃ fs, startCatalog p n none = some fs ∧ fs n = some [] := by
  refine ⟨?_, ?_⟩
  · unfold zfileName
    rw [dssName_ext hq he (by omega)]
    simp only [Option.map_some, hr]
    rw [List.take_of_length_le (by omega), hf]
    have : 0 < content.length := List.length_pos_iff.2 hc
    simp [this]
  · obtain ⟨fs, h1, h2⟩ := C106_destroys_violation p n hl hs
    refine ⟨fs, h1, ?_⟩
    unfold Place.leads at h2
    rw [hr] at h2
    exact h2

/-- A computer with one DSS file, `/d/A.DSS`. -/
def capitals : Place := ⟨fun n => if n = [47, 100, 47, 65, 46, 68, 83, 83] then some [90, 68, 83, 83] else none, fun n => some n, fun _ => 0, fun _ _ => true⟩

example : NoLinks capitals := fun _ => rfl

example : ∃ fs, startCatalog capitals [47, 100, 47, 65, 46, 68, 83, 83] none = some fs ∧ fs [47, 100, 47, 65, 46, 68, 83, 83] = some [] :=
  (C106_capitals_violation capitals _ ⟨by decide, by decide, by decide⟩ ⟨[47, 100, 47, 65], 68, 83, 83, rfl, by decide, by decide⟩
    (by rw [small_iff]; decide) (by decide) rfl [90, 68, 83, 83] rfl (by decide)).2

/-- A new file opened as `a.dss` has that as its full name (it does not exist yet, and has no full name), and is emptied too: the name is too short. -/
theorem C106_short_name_violation (p : Place) (hr : p.real [97, 46, 100, 115, 115] = none) (hf : p.files [97, 46, 100, 115, 115] = none) :
    zfileName p [97, 46, 100, 115, 115] = some ([97, 46, 100, 115, 115], 0, false) ∧
      ∃ fs, startCatalog p [97, 46, 100, 115, 115] none = some fs ∧ fs (p.leads [97, 46, 100, 115, 115]) = some [] := by
  refine ⟨?_, C106_destroys_violation p _ (by decide) (by rw [small_iff]; decide)⟩
  have hn : dssName [97, 46, 100, 115, 115] = some [97, 46, 100, 115, 115] := by decide +kernel
  unfold zfileName
  rw [hn]
  simp only [Option.map_some, hr]
  rw [show List.take 1023 [97, 46, 100, 115, 115] = ([97, 46, 100, 115, 115] : Bytes) from by decide, hf]

end Hec
