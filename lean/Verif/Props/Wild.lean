import Verif.Proofs.Wild
import Verif.Props.Catalog
/-!
Pathnames with wild characters (C49): which pathnames the catalog finds for a pattern.
-/
namespace Hec
set_option linter.unusedSimpArgs false
set_option linter.unusedVariables false
set_option synthInstance.maxSize 1000
set_option synthInstance.maxHeartbeats 200000
open _root_.Spec (Matches join IsPart Op Reachable GoodSizes create runs)
open Hec.Spec (sameUpToCase)

theorem six_lengths (ps : List Bytes) (hl : ps.length = 6) (hp : ∀ p ∈ ps, IsPart p) : (zpathnamePartLengths (join ps) 6).1 = 6 := by
  unfold zpathnamePartLengths join
  simp only [List.drop_succ_cons, List.drop_zero, show ¬ ((6 : Nat) > 6) from by omega, if_false]
  have h2 := partLengths_join ps (fun p h c hc => (hp p h c hc).1) 1 [] 6 (by simp; omega)
  simp only [List.nil_append] at h2
  rw [show (1 : Int) - 1 = 0 from rfl] at h2
  rw [h2]
  simp [hl]

/-- C49.  For a pattern of six parts, a pathname is found if and only if each of its parts matches
that of the pattern, whatever the local arrays and the memory around them hold.  Conditions: parts of at
most 128 characters; no part is shorter than the text after a leading star of the pattern; no
empty part against the pattern `**`. -/
theorem C49_wild_partial (before : Int → Option UInt8) (u : UInt8) (junk : Int) (pats ps : List Bytes) (hl : pats.length = 6) (hl2 : ps.length = 6)
    (hq : ∀ q ∈ pats, IsPart q ∧ q.length ≤ 128) (hp : ∀ p ∈ ps, IsPart p ∧ p.length ≤ 128)
    (hends : ∀ (i : Nat) (q p x : Bytes), pats[i]? = some q → ps[i]? = some p → q = 42 :: x → x.getLast? ≠ some 42 → x.length ≤ p.length)
    (htwo : ∀ (i : Nat) (p : Bytes), pats[i]? = some [42, 42] → ps[i]? = some p → p ≠ []) :
    ∃ found, wildFound before u junk (join pats) (join ps) = some found ∧
      (found = true ↔ ∀ (i : Nat) (q p : Bytes), pats[i]? = some q → ps[i]? = some p → Matches q p) := by
  have hne : ∀ l : List Bytes, ¬ (join l).length = 0 := fun l => by simp [join]
  have hzip : ∀ x ∈ pats.zip ps, ∃ i : Nat, pats[i]? = some x.1 ∧ ps[i]? = some x.2 := by
    intro x hx
    obtain ⟨i, hi, e⟩ := List.mem_iff_getElem.mp hx
    have hi' : i < pats.length ∧ i < ps.length := by rw [List.length_zip] at hi; omega
    refine ⟨i, ?_, ?_⟩
    · rw [List.getElem?_eq_getElem hi'.1, ← e, List.getElem_zip]
    · rw [List.getElem?_eq_getElem hi'.2, ← e, List.getElem_zip]
  have hact : ∀ x ∈ pats.zip ps, (planned x.1).action = 3 → (planned x.1).len ≤ x.2.length := by
    intro x hx h3
    obtain ⟨i, h1, h2⟩ := hzip x hx
    rcases planned_cases x.1 with ⟨_, hpl⟩ | ⟨_, _, hpl⟩ | ⟨_, _, _, _, hpl⟩ | ⟨y, hy, _, hlast, hpl⟩ | ⟨_, _, hpl⟩
    · rw [hpl] at h3; simp at h3
    · rw [hpl] at h3; simp at h3
    · rw [hpl] at h3; simp at h3
    · rw [hpl]
      exact hends i x.1 x.2 y h1 h2 hy hlast
    · rw [hpl] at h3; simp at h3
  refine ⟨(pats.zip ps).all fun x => partMatch x.1 x.2, ?_, ?_⟩
  · unfold wildFound zcatParsePath
    rw [if_neg (hne pats), six_lengths pats hl (fun q h => (hq q h).1), if_neg (by omega),
      parseParts_spec pats hl (fun q h => (hq q h).1) (fun q h => (hq q h).2) junk _ (by simp) 6 0 _ rfl (by simp)]
    simp only [Option.map_some, Option.bind_some, List.drop_zero]
    unfold zcatComparePath
    rw [if_neg (hne ps), six_lengths ps hl2 (fun q h => (hp q h).1), if_neg (by omega)]
    have := compareParts_spec false before ps hl2 (fun q h => (hp q h).1) (fun q h => (hp q h).2) junk pats 0 (List.replicate 129 u) (List.replicate 129 u)
      (by omega) (by simp) (by simp) (fun q h => (hq q h).1) (fun q h => (hq q h).2) (by simpa using hact)
    rw [allMatch_false] at this
    simpa using this
  · rw [List.all_eq_true]
    constructor
    · intro h i q p h1 h2
      have hm : (q, p) ∈ pats.zip ps := by
        rw [List.mem_iff_getElem?]
        exact ⟨i, by rw [List.getElem?_zip_eq_some]; exact ⟨h1, h2⟩⟩
      refine (partMatch_iff q p (fun e => htwo i p (by rw [h1, e]) h2) (fun x hx => ?_)).mp (h _ hm)
      by_cases hlast : x.getLast? = some 42
      · exact Or.inr hlast
      · exact Or.inl (hends i q p x h1 h2 hx hlast)
    · intro h x hx
      obtain ⟨i, h1, h2⟩ := hzip x hx
      refine (partMatch_iff x.1 x.2 (fun e => htwo i x.2 (by rw [h1, e]) h2) (fun y hy => ?_)).mpr (h i x.1 x.2 h1 h2)
      by_cases hlast : y.getLast? = some 42
      · exact Or.inr hlast
      · exact Or.inl (hends i x.1 x.2 y h1 h2 hy hlast)

/-- C49.  A pattern of six parts finds no pathname of fewer parts. -/
theorem C49_malformed (before : Int → Option UInt8) (u : UInt8) (junk : Int) (pats ps : List Bytes) (hl : pats.length = 6) (hl2 : ps.length < 6)
    (hq : ∀ q ∈ pats, IsPart q ∧ q.length ≤ 128) (hp : ∀ p ∈ ps, IsPart p) :
    wildFound before u junk (join pats) (join ps) = some false := by
  have hne : ∀ l : List Bytes, ¬ (join l).length = 0 := fun l => by simp [join]
  have hcount : (zpathnamePartLengths (join ps) 6).1 = ps.length := by
    unfold zpathnamePartLengths join
    simp only [List.drop_succ_cons, List.drop_zero, show ¬ ((6 : Nat) > 6) from by omega, if_false]
    have h2 := partLengths_join ps (fun p h c hc => (hp p h c hc).1) 1 [] 6 (by simp; omega)
    simp only [List.nil_append] at h2
    rw [show (1 : Int) - 1 = 0 from rfl] at h2
    rw [h2]
    simp
  unfold wildFound zcatParsePath
  rw [if_neg (hne pats), six_lengths pats hl (fun q h => (hq q h).1), if_neg (by omega),
    parseParts_spec pats hl (fun q h => (hq q h).1) (fun q h => (hq q h).2) junk _ (by simp) 6 0 _ rfl (by simp)]
  simp only [Option.map_some, Option.bind_some]
  unfold zcatComparePath
  rw [if_neg (hne ps), hcount, if_pos (by omega)]

example : wildFound (fun _ => none) 1 0 (join [[42], [42], [42], [42], [42], [42]]) (join [[65], [66], [67]]) = some false :=
  C49_malformed _ _ _ _ _ rfl (by decide) (by simp [IsPart]) (by simp [IsPart])

/-- C49.  A pattern that does not have six parts finds every pathname. -/
theorem C49_no_pattern (before : Int → Option UInt8) (u : UInt8) (junk : Int) (pat path : Bytes) (h : (zpathnamePartLengths pat 6).1 < 6) :
    wildFound before u junk pat path = some true := by
  unfold wildFound zcatParsePath
  split
  · rfl
  · rw [if_pos (by omega)]; rfl

/-- The hypotheses are met: pattern `/*/lo*/*W/*o*/e//` and pathname `/x/LOC/FLOW/foo/E//`. -/
def patEx : List Bytes := [[42], [108, 111, 42], [42, 87], [42, 111, 42], [101], []]
def pathEx : List Bytes := [[120], [76, 79, 67], [70, 76, 79, 87], [102, 111, 111], [69], []]

example : (∀ q ∈ patEx, IsPart q ∧ q.length ≤ 128) ∧ (∀ p ∈ pathEx, IsPart p ∧ p.length ≤ 128) ∧
    wildFound (fun _ => none) 1 0 (join patEx) (join pathEx) = some true := by
  refine ⟨?_, ?_, by decide +kernel⟩ <;> simp [patEx, pathEx, IsPart]

example : ∀ (i : Nat) (q p : Bytes), patEx[i]? = some q → pathEx[i]? = some p → Matches q p := by
  obtain ⟨f, h1, h2⟩ := C49_wild_partial (fun _ => none) 1 0 patEx pathEx rfl rfl (by simp [patEx, IsPart]) (by simp [pathEx, IsPart])
    (by
      intro i q p x h1 h2 h3 h4
      match i with
      | 0 => simp [patEx] at h1; subst h1; simp at h3; subst h3; simp
      | 1 => simp [patEx] at h1; subst h1; simp at h3
      | 2 => simp [patEx] at h1; simp [pathEx] at h2; subst h1 h2; simp at h3; subst h3; simp
      | 3 => simp [patEx] at h1; subst h1; simp at h3; subst h3; simp at h4
      | 4 => simp [patEx] at h1; subst h1; simp at h3
      | 5 => simp [patEx] at h1; subst h1; simp at h3
      | n + 6 => simp [patEx] at h1)
    (by
      intro i p h1 h2
      match i with
      | 0 => simp [patEx] at h1
      | 1 => simp [patEx] at h1
      | 2 => simp [patEx] at h1
      | 3 => simp [patEx] at h1
      | 4 => simp [patEx] at h1
      | 5 => simp [patEx] at h1
      | n + 6 => simp [patEx] at h1)
  have : some f = some true := h1.symm.trans (by decide +kernel)
  injection this with e
  exact h2.mp e

/-- C49 fails for a part that is shorter than the text after the star: what lies in memory before the
local array is compared, so that the pattern `*BC` finds the part `C` or not, as it happens. -/
theorem C49_short_part_violation :
    wildFound (fun _ => some 66) 1 0 (join [[42, 66, 67], [42], [42], [42], [42], [42]]) (join [[67], [], [], [], [], []]) = some true ∧
    wildFound (fun _ => some 0) 1 0 (join [[42, 66, 67], [42], [42], [42], [42], [42]]) (join [[67], [], [], [], [], []]) = some false ∧
    wildFound (fun _ => none) 1 0 (join [[42, 66, 67], [42], [42], [42], [42], [42]]) (join [[67], [], [], [], [], []]) = none := by decide +kernel

/-- C49 fails for the pattern `**`: it does not find an empty part. -/
theorem C49_two_stars_violation :
    wildFound (fun _ => none) 1 0 (join [[42, 42], [42], [42], [42], [42], [42]]) (join [[], [66], [67], [], [], []]) = some false ∧
    Matches [42, 42] [] ∧ wildFound (fun _ => none) 1 0 (join [[42], [42], [42], [42], [42], [42]]) (join [[], [66], [67], [], [], []]) = some true := by
  refine ⟨by decide +kernel, ?_, by decide +kernel⟩
  exact Matches.contains (x := []) (a := []) (m := []) (b := []) ⟨rfl, by simp⟩

section
variable {hdrSize maxHash binSize : Nat} {mul : Nat → Nat}

/-- C49.  The catalog with a pattern: after any history of writes, deletes, undeletes and renames (as in C48) of
records with six-part pathnames, the rows are those of the full catalog whose pathname matches the
pattern. -/
theorem C49_catalog_partial (g : GoodSizes hdrSize maxHash binSize) {past : List Op} {s : Eng}
    (R : Reachable (create hdrSize maxHash binSize mul).1 (create hdrSize maxHash binSize mul).2 past s)
    (before : Int → Option UInt8) (u : UInt8) (junk : Int) (pats : List Bytes) (hl : pats.length = 6) (hq : ∀ q ∈ pats, IsPart q ∧ q.length ≤ 128)
    (hstar : ∀ q ∈ pats, q.head? = some 42 → q = [42]) :
    ∃ rows sel, zcatalog (create hdrSize maxHash binSize mul).1 s everything = some rows ∧
      zcatalog (create hdrSize maxHash binSize mul).1 s { everything with wild := (fun p => (wildFound before u junk (join pats) p).getD false) } = some sel ∧
      sel.Sublist rows ∧ ∀ r ps, ps.length = 6 → (∀ p ∈ ps, IsPart p ∧ p.length ≤ 128) → r.path = join ps →
        (r ∈ sel ↔ r ∈ rows ∧ ∀ (i : Nat) (q p : Bytes), pats[i]? = some q → ps[i]? = some p → Matches q p) := by
  obtain ⟨rows, sel, h1, h2, _, h3, h4⟩ := C48_selection_partial g R
    { everything with wild := (fun p => (wildFound before u junk (join pats) p).getD false) } rfl
  refine ⟨rows, sel, h1, h4, h2, ?_⟩
  intro r ps hl2 hp hr
  obtain ⟨f, e1, e2⟩ := C49_wild_partial before u junk pats ps hl hl2 hq hp
    (fun i q p x a b e l => by
      have := hstar q (List.mem_of_getElem? a) (by rw [e]; rfl)
      rw [e] at this
      have : x = [] := by simpa using this
      rw [this]; simp)
    (fun i p a b => by
      have := hstar [42, 42] (List.mem_of_getElem? a) rfl
      simp at this)
  rw [h3 r (Or.inl rfl)]
  simp only [hr, e1, Option.getD_some, ← e2]
  simp [everything]

end

end Hec
