import Verif.Spec.Compare
import Verif.Proofs.Open
import Verif.Props.EngineCases
import Verif.Props.Engine
/-!
C102: comparing two records.
-/
namespace Hec
set_option linter.unusedSimpArgs false
set_option linter.unusedVariables false
open _root_.Spec (Op Store Step Steps run runs Allowed AllAllowed Plain Reachable GoodSizes create join stored SameContents HoldsInts HoldsRecord NoBraces)
open Hec.Spec (sameUpToCase)

theorem compareInts_prefix (l : List UInt32) : ∀ (m x y : List UInt32), l.length = m.length → compareInts (l ++ x) (m ++ y) m.length = some (decide (l = m)) := by
  induction l with
  | nil =>
    intro m x y h
    have : m = [] := List.eq_nil_of_length_eq_zero h.symm
    subst this
    simp [compareInts]
  | cons a l ih =>
    intro m x y h
    cases m with
    | nil => simp at h
    | cons b m =>
      simp only [List.cons_append, List.length_cons, compareInts]
      by_cases hab : a = b
      · rw [if_pos hab, ih m x y (by simpa using h)]
        simp [hab]
      · rw [if_neg hab]
        simp [hab]

theorem next_some (p q : Bool) : nextCompare (some p) (some q) = some (p && q) := by cases p <;> rfl

theorem next_false (x : Option Bool) : nextCompare (some false) x = some false := rfl

theorem compareSection_holds {a b : Section} {l m : List UInt32} (ha : HoldsInts a l) (hb : HoldsInts b m) (exact : Bool) :
    compareSection exact a b = some (decide (l = m) && (!exact || decide (a.mode = b.mode))) := by
  obtain ⟨a1, a2, a3⟩ := ha
  obtain ⟨b1, b2, b3⟩ := hb
  unfold compareSection
  by_cases hn : a.number = b.number
  · have hlen : l.length = m.length := by omega
    have key : zcompareIntArrays a.ints b.ints b.number = some (decide (l = m)) := by
      unfold zcompareIntArrays
      cases hx : a.ints with
      | none =>
        have hl := a2.mpr hx
        have hm : m = [] := List.eq_nil_of_length_eq_zero (by rw [← hlen, hl]; rfl)
        rw [b2.mp hm]
        simp [hl, hm]
      | some x =>
        obtain ⟨x', rfl⟩ := a3 x hx
        cases hy : b.ints with
        | none =>
          have hm := b2.mpr hy
          have hl : l = [] := List.eq_nil_of_length_eq_zero (by rw [hlen, hm]; rfl)
          rw [a2.mp hl] at hx; cases hx
        | some y =>
          obtain ⟨y', rfl⟩ := b3 y hy
          simp only
          rw [b1, Int.toNat_natCast, compareInts_prefix l m x' y' hlen]
    rw [key, next_some, next_some]
    simp [hn, Bool.and_comm]
  · rw [decide_eq_false hn, next_false]
    have : l ≠ m := by rintro rfl; omega
    simp [this]

theorem readSection_holds (l room : List UInt32) : HoldsInts (readSection l room) l := by
  refine ⟨rfl, ?_, fun x hx => ?_⟩
  · unfold readSection
    simp only
    split <;> simp_all
  · unfold readSection at hx
    simp only at hx
    split at hx
    · cases hx
    · rw [← Option.some.inj hx]; exact List.prefix_append _ _

theorem readTransfer_holds (p : Bytes) (R : Rec) (x : TransferRest) : HoldsRecord (readTransfer p R x) R :=
  ⟨rfl, readSection_holds _ _, readSection_holds _ _, readSection_holds _ _, readSection_holds _ _, readSection_holds _ _, readSection_holds _ _, rfl, rfl⟩

/-- C102.  Comparing two structs with the contents of two records, not exactly: it never reads outside the arrays, and they are equal exactly
when the records have the same contents. -/
theorem C102_same_partial {t t' : Transfer} {R R' : Rec} (h : HoldsRecord t R) (h' : HoldsRecord t' R') :
    ∃ ok, zcompareTransfers false t t' = some ok ∧ (ok = true ↔ SameContents R R') := by
  refine ⟨?ok, ?a, ?b⟩
  case a =>
    unfold zcompareTransfers
    rw [compareSection_holds h.ih h'.ih, compareSection_holds h.h2 h'.h2, compareSection_holds h.uh h'.uh, compareSection_holds h.v1 h'.v1,
      compareSection_holds h.v2 h'.v2, compareSection_holds h.v3 h'.v3]
    simp only [next_some]
    exact rfl
  case b =>
    unfold SameContents
    rw [h.dataType, h'.dataType, h.numberValues, h'.numberValues, h.logicalNumber, h'.logicalNumber]
    simp only [Bool.not_false, Bool.true_or, Bool.true_and, Bool.and_true, Bool.and_eq_true, decide_eq_true_eq, Int.natCast_inj]
    constructor
    · rintro ⟨a, b, d, e, f, g, i, j, k⟩; exact ⟨a, b, d, f, g, i, e, j, k⟩
    · rintro ⟨a, b, d, f, g, i, e, j, k⟩; exact ⟨a, b, d, e, f, g, i, j, k⟩

theorem compareUpper_eq (c : UInt8) : (c ≤ 122 ∨ 128 ≤ c) → compareUpper c = toupper c :=
  byte_all (P := fun c => (c ≤ 122 ∨ 128 ≤ c) → compareUpper c = toupper c) (by decide +kernel) c

theorem compare_names {p q : Bytes} (hp : NoBraces p) (hq : NoBraces q) : zcompareStrings (some p) (some q) true = true ↔ sameUpToCase p q := by
  have e : ∀ {l : Bytes}, NoBraces l → l.map compareUpper = l.map toupper := fun {l} h => List.map_congr_left fun c hc => compareUpper_eq c (h c hc)
  unfold zcompareStrings
  simp only
  rw [e hp, e hq]
  by_cases hl : p.length = q.length
  · rw [if_neg (by omega), if_pos trivial, decide_eq_true_eq]
    exact same_iff.symm
  · rw [if_pos hl]
    constructor
    · intro h; cases h
    · intro h; exact absurd (same_iff.mp h).length hl

/-- C102.  Comparing exactly two records that were read: they are equal exactly when moreover the pathnames are the same up to letter case, and the
version, the time of the last write and the rest are the same. -/
theorem C102_exact_partial {p p' : Bytes} (hp : NoBraces p) (hp' : NoBraces p') (R R' : Rec) (x x' : TransferRest) :
    ∃ ok, zcompareTransfers true (readTransfer p R x) (readTransfer p' R' x') = some ok ∧
      (ok = true ↔ sameUpToCase p p' ∧ SameContents R R' ∧ R.version = R'.version ∧ R.lastWrite = R'.lastWrite ∧
        x.totalAllocated = x'.totalAllocated ∧ x.totalExpanded = x'.totalExpanded ∧ x.insufficient = x'.insufficient ∧ x.programName = x'.programName) := by
  have h := readTransfer_holds p R x
  have h' := readTransfer_holds p' R' x'
  refine ⟨?ok, ?a, ?b⟩
  case a =>
    unfold zcompareTransfers
    rw [compareSection_holds h.ih h'.ih, compareSection_holds h.h2 h'.h2, compareSection_holds h.uh h'.uh, compareSection_holds h.v1 h'.v1,
      compareSection_holds h.v2 h'.v2, compareSection_holds h.v3 h'.v3]
    simp only [next_some]
    exact rfl
  case b =>
    have hprog : zcompareStrings (some x.programName) (some x'.programName) false = true ↔ x.programName = x'.programName := by
      unfold zcompareStrings
      simp only
      by_cases hl : x.programName.length = x'.programName.length
      · rw [if_neg (by omega)]; simp
      · rw [if_pos hl]
        constructor
        · intro h; cases h
        · intro h; rw [h] at hl; exact absurd rfl hl
    have hlen : sameUpToCase p p' → p.length = p'.length := fun h => (same_iff.mp h).length
    unfold SameContents
    simp only [readTransfer, readSection, Bool.not_true, Bool.false_or, Bool.and_true, Bool.and_eq_true, decide_eq_true_eq, Int.natCast_inj, decide_true, true_and, and_true,
      hprog, compare_names hp hp']
    constructor
    · rintro ⟨a, _, b, d, e, f, g, i, j, k, l, m, n, o, q, r, s⟩
      exact ⟨a, ⟨of_decide_eq_true b, d, e, g, i, j, f, k, l⟩, of_decide_eq_true o, r, of_decide_eq_true m, of_decide_eq_true n, of_decide_eq_true q, s⟩
    · rintro ⟨a, ⟨b, d, e, g, i, j, f, k, l⟩, o, r, m, n, q, s⟩
      exact ⟨a, hlen a, decide_eq_true b, d, e, f, g, i, j, k, l, decide_eq_true m, decide_eq_true n, decide_eq_true o, decide_eq_true q, r, s⟩

variable {hdrSize maxHash binSize : Nat} {mul : Nat → Nat}

/-- C102.  A struct that was written to a file in use, and read again, compares equal to the one written; and to no struct with other contents. -/
theorem C102_written_partial (g : GoodSizes hdrSize maxHash binSize) {past : List Op} {s s' : Eng} {r : Req}
    (R : Reachable (create hdrSize maxHash binSize mul).1 (create hdrSize maxHash binSize mul).2 past s)
    (ha : Allowed (create hdrSize maxHash binSize mul).1 past s (.write r))
    (hw : zwrite (create hdrSize maxHash binSize mul).1 s r = some (s', .ok)) :
    ∃ rec, zread (create hdrSize maxHash binSize mul).1 s' r.path = some (some rec) ∧
      (∀ (t : Transfer) (v : UInt32) (x : TransferRest), HoldsRecord t (stored r v) → zcompareTransfers false t (readTransfer r.path rec x) = some true) ∧
      ∀ (t : Transfer) (r' : Req) (v : UInt32) (x : TransferRest), HoldsRecord t (stored r' v) → zcompareTransfers false t (readTransfer r.path rec x) = some true →
        SameContents (stored r' v) (stored r v) := by
  have hc := create_OK (mul := mul) g
  obtain ⟨G, H⟩ := reach g R
  obtain ⟨G', s1, res, hr, S, H1⟩ := H.step hc ha
  have he : some (s1, res) = some (s', .ok) := hr.symm.trans hw
  simp only [Option.some.injEq, Prod.mk.injEq] at he
  obtain ⟨rfl, rfl⟩ := he
  have hz := zread_abs hc H1.inv (q := r.path) ha.2.1
  have hst := S.step
  generalize abs _ G' s1.disk = S' at hst hz
  generalize abs _ G s.disk = S0 at hst
  have key : ∃ v, S'.live r.path = some (stored r v) := by
    cases hst with
    | writeNew _ h2 _ => exact ⟨_, (h2 _).1 (same_iff.mpr rfl)⟩
    | overwrite _ _ h3 _ => exact ⟨_, (h3 _).1 (same_iff.mpr rfl)⟩
  obtain ⟨v0, hv⟩ := key
  refine ⟨stored r v0, by rw [hz, hv], fun t v x ht => ?_, fun t r' v x ht hok => ?_⟩
  · obtain ⟨ok, k1, k2⟩ := C102_same_partial ht (readTransfer_holds r.path (stored r v0) x)
    rw [k1, k2.mpr ⟨rfl, rfl, rfl, rfl, rfl, rfl, rfl, rfl, rfl⟩]
  · obtain ⟨ok, k1, k2⟩ := C102_same_partial ht (readTransfer_holds r.path (stored r v0) x)
    have := k2.mp (Option.some.inj (k1.symm.trans hok))
    exact this

/-! ### Cases -/

def noRest : TransferRest := ⟨[0], 0, 0, 0, []⟩
def recA : Rec := stored (req pA [1, 2] [] [3]) 1
def recB : Rec := stored (req pA [1, 2] [] [3, 4]) 1

/-- A struct of an application for `recA`, as it is written. -/
def appA : Transfer := { readTransfer pA recA noRest with ih := ⟨some [1, 2], 2, 0⟩, v1 := ⟨some [3, 77, 78], 1, 0⟩ }

theorem appA_holds : HoldsRecord appA recA :=
  ⟨rfl, ⟨rfl, by decide, by decide⟩, readSection_holds _ _, readSection_holds _ _, ⟨rfl, by decide, by decide⟩, readSection_holds _ _, readSection_holds _ _, rfl, rfl⟩

example : zcompareTransfers false appA (readTransfer pA recA noRest) = some true ∧ zcompareTransfers false appA (readTransfer pA recB noRest) = some false ∧
    zcompareTransfers true appA (readTransfer pA recA noRest) = some false ∧
    zcompareTransfers true (readTransfer pA recA noRest) (readTransfer pa recA noRest) = some true ∧
    zcompareTransfers true (readTransfer pA recA noRest) (readTransfer pB recA noRest) = some false ∧
    zcompareTransfers true (readTransfer pA recA noRest) (readTransfer pA { recA with version := 2 } noRest) = some false := by decide +kernel

example : NoBraces pA ∧ NoBraces pa ∧ HoldsRecord appA (stored (req pA [1, 2] [] [3]) 1) := ⟨by unfold NoBraces; decide, by unfold NoBraces; decide, appA_holds⟩

/-- The hypotheses of C102_written_partial. -/
example : ∃ s', zwrite tiny.1 tiny.2 (req pA [1, 2] [] [3]) = some (s', .ok) ∧ Allowed tiny.1 [] tiny.2 (.write (req pA [1, 2] [] [3])) := by
  have h : (zwrite tiny.1 tiny.2 (req pA [1, 2] [] [3])).map (·.2) = some .ok := by decide +kernel
  obtain ⟨⟨s', res⟩, h1, h2⟩ := Option.map_eq_some_iff.mp h
  simp only at h2
  subst h2
  exact ⟨s', h1, (plain_allowed (c := tiny.1) (create_OK tiny_good) [.write (req pA [1, 2] [] [3])] (by simp [Plain, req, Spec.oddHeaders, pA])).1⟩

/-- The full claim is for all structs.  It fails: a struct without ints in an array, but with a pointer to one, is not equal to the one read
after it was written. -/
theorem C102_null_violation :
    (zwrite tiny.1 tiny.2 (req pA [1, 2] [] [3])).bind (fun p => zread tiny.1 p.1 pA) = some (some recA) ∧
    zcompareTransfers false { appA with uh := ⟨some [0], 0, 0⟩ } (readTransfer pA recA noRest) = some false ∧
    zcompareTransfers false (readTransfer pA recA noRest) { appA with uh := ⟨some [0], 0, 0⟩ } = some false := by decide +kernel

/-- Failing part: a struct written without a logical number of values is not equal to the one read, which has the number of values there. -/
theorem C102_logical_violation :
    (req pA [1, 2] [] [3]).logicalNumber = 0 ∧ recA.logicalNumber = 1 ∧
    zcompareTransfers false { appA with logicalNumber := 0 } (readTransfer pA recA noRest) = some false := by decide +kernel

/-- Failing part: for an exact comparison, `/[/` and `/{/` are the same pathname; for the file they are two. -/
theorem C102_braces_violation :
    zcompareTransfers true (readTransfer [47, 91, 47] recA noRest) (readTransfer [47, 123, 47] recA noRest) = some true ∧
    ¬ sameUpToCase [47, 91, 47] [47, 123, 47] := by
  refine ⟨by decide +kernel, fun h => ?_⟩
  have := same_iff.mp h
  unfold Same at this
  revert this
  decide +kernel

/-- Failing part: if the lengths in the struct are not those of the arrays, it reads outside. -/
theorem C102_outside_violation :
    zcompareTransfers false { appA with v1 := ⟨some [3], 2, 0⟩ } { appA with v1 := ⟨some [3], 2, 0⟩ } = none := by decide +kernel

end Hec
