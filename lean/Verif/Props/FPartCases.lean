import Verif.Props.FPart
import Verif.Proofs.Wild
import Verif.Spec.Histories
/-!
C65: pathnames, cases that meet the conditions, and where the statement fails.
-/
namespace Hec
open _root_.Spec (splitBar pieces tagOf tagsOf textsOf ValidTag Tagged canonical SixParts join TagTime)

theorem parts_six {ps : List Bytes} (h : SixParts ps) (h128 : ∀ p ∈ ps, p.length ≤ 128) {bufs : Nat → Bytes} (hb : ∀ i, (bufs i).length = 129) (junk : Int) :
    ((List.range 6).mapM fun i : Nat => (zpathnameGetPart (join ps) ((i : Int) + 1) (bufs i) junk).map fun r => cstr r.1) = some ps := by
  have key : ∀ (i : Nat) (hi : i < 6), (zpathnameGetPart (join ps) ((i : Int) + 1) (bufs i) junk).map (fun r => cstr r.1) = some (ps[i]'(by rw [h.1]; exact hi)) := by
    intro i hi
    obtain ⟨b', h1, _, h3⟩ := getPart_short ps h.1 h.2 h128 i hi (bufs i) (hb i) junk
    rw [h1, Option.map_some]
    congr 1
    refine cstr_holds h3 ?_
    intro c hc
    exact (h.2 _ (List.getElem_mem (by rw [h.1]; exact hi)) c hc).2
  obtain ⟨a, b, c, d, e, f, rfl⟩ : ∃ a b c d e f, ps = [a, b, c, d, e, f] := by
    match ps, h.1 with
    | [a, b, c, d, e, f], _ => exact ⟨a, b, c, d, e, f, rfl⟩
  have k0 := key 0 (by decide)
  have k1 := key 1 (by decide)
  have k2 := key 2 (by decide)
  have k3 := key 3 (by decide)
  have k4 := key 4 (by decide)
  have k5 := key 5 (by decide)
  simp only [List.range, List.range.loop, List.mapM_cons, List.mapM_nil]
  simp only [k0, k1, k2, k3, k4, k5]
  rfl

/-- C65, pathnames.  A pathname of six parts keeps its parts A to E; its F part gets the normal form if it has one, and
stays as it is if it does not look like tags at all.  Anything else is an error. -/
theorem C65_pathname {ps : List Bytes} (h : SixParts ps) (h128 : ∀ p ∈ ps, p.length ≤ 128) {bufs : Nat → Bytes} (hb : ∀ i, (bufs i).length = 129) (junk : Int) :
    normalizeFPartInPathname (join ps) bufs junk = some (
      match normalizeFPart (ps.getD 5 []) with
      | (0, some g) => (0, some (join (ps.set 5 g)))
      | (st, _) => if st < 10 then (0, some (join ps)) else (st, none)) := by
  unfold normalizeFPartInPathname
  rw [parts_six h h128 hb junk, Option.bind_some]
  have hset := C65_set (ps.getD 5 [])
  cases hn : normalizeFPart (ps.getD 5 []) with
  | mk st o =>
    rw [hn] at hset
    split
    · rename_i g heq
      injection heq with e1 e2; subst e1; subst e2
      obtain ⟨a, b, c, d, e, f, rfl⟩ : ∃ a b c d e f, ps = [a, b, c, d, e, f] := by
        match ps, h.1 with
        | [a, b, c, d, e, f], _ => exact ⟨a, b, c, d, e, f, rfl⟩
      simp [join, F_SUCCESS]
    · rename_i heq
      exact absurd heq hset
    · rename_i st' o' hx hy heq
      injection heq with e1 e2; subst e1; subst e2
      have : ¬ (st = 0) := by
        intro e
        subst e
        cases o with
        | none => exact hset rfl
        | some g => exact hx g rfl rfl
      have hm : (match ((st, o) : Int × Option Bytes) with
          | (0, some g) => ((0, some (join (ps.set 5 g))) : Int × Option Bytes)
          | (st, _) => if st < 10 then (0, some (join ps)) else (st, none)) = if st < 10 then (0, some (join ps)) else (st, none) := by
        split
        · rename_i heq
          injection heq with e1 e2
          exact absurd e1 this
        · rename_i heq
          injection heq with e1 e2
          subst e1; subst e2; rfl
      rw [hm]
      unfold canUseOriginalFPart F_MEMORY_ERROR F_SUCCESS
      simp only [decide_eq_true_eq]
      split <;> rfl

/-! ### cases -/

/-- `v:20200229-143000|text|c:000001`. -/
def tags1 : Bytes := [118, 58, 50, 48, 50, 48, 48, 50, 50, 57, 45, 49, 52, 51, 48, 48, 48, 124, 116, 101, 120, 116, 124, 99, 58, 48, 48, 48, 48, 48, 49]
/-- `text|C:000001|V:20200229-143000`. -/
def tags2 : Bytes := [116, 101, 120, 116, 124, 67, 58, 48, 48, 48, 48, 48, 49, 124, 86, 58, 50, 48, 50, 48, 48, 50, 50, 57, 45, 49, 52, 51, 48, 48, 48]
/-- `C:000001|V:20200229-143000|text`. -/
def tags3 : Bytes := [67, 58, 48, 48, 48, 48, 48, 49, 124, 86, 58, 50, 48, 50, 48, 48, 50, 50, 57, 45, 49, 52, 51, 48, 48, 48, 124, 116, 101, 120, 116]

theorem tags1_form : normalizeFPart tags1 = (0, some tags3) := by decide +kernel
theorem tags2_form : normalizeFPart tags2 = (0, some tags3) := by decide +kernel
example : Tagged tags1 ∧ tags3 = canonical tags1 := (C65_normal_form _ _).1 tags1_form
example : normalizeFPart tags3 = (0, some tags3) := C65_idempotent tags1_form
example : normalizeFPart tags2 = (0, some tags3) := C65_order (f := tags3) (C65_idempotent tags1_form) (by decide +kernel) (by decide)
example : normalizeFPart tags1 = (0, some tags3) :=
  C65_case (f := [118, 58, 50, 48, 50, 48, 48, 50, 50, 57, 45, 49, 52, 51, 48, 48, 48, 124, 116, 101, 120, 116, 124, 67, 58, 48, 48, 48, 48, 48, 49])
    (by decide +kernel) (by decide +kernel) (by decide +kernel) (by decide +kernel) (by decide)
example : (tagsOf tags1).Perm (tagsOf tags2) ∧ textsOf tags1 = textsOf tags2 := C65_injective tags1_form tags2_form
/-- `/A/B/C/D/E/` and the tags. -/
example : normalizeFPartInPathname (join [[65], [66], [67], [68], [69], tags1]) (fun _ => List.replicate 129 7) 0 =
    some (0, some (join [[65], [66], [67], [68], [69], tags3])) := by
  rw [C65_pathname (ps := [[65], [66], [67], [68], [69], tags1])
    ⟨rfl, by unfold _root_.Spec.IsPart; decide⟩ (by decide) (by simp) 0]
  rw [show ([[65], [66], [67], [68], [69], tags1] : List Bytes).getD 5 [] = tags1 from rfl, tags1_form]
  rfl

/-! ### failing parts -/

/-- C65, failing part: times that do not exist are accepted, the day 00 (`T:20220200-1200`) and times after the end of a
day (`V:20220228-240030`). -/
theorem C65_times_violation :
    normalizeFPart [84, 58, 50, 48, 50, 50, 48, 50, 48, 48, 45, 49, 50, 48, 48] = (0, some [84, 58, 50, 48, 50, 50, 48, 50, 48, 48, 45, 49, 50, 48, 48, 124]) ∧
    normalizeFPart [86, 58, 50, 48, 50, 50, 48, 50, 50, 56, 45, 50, 52, 48, 48, 51, 48] =
      (0, some [86, 58, 50, 48, 50, 50, 48, 50, 50, 56, 45, 50, 52, 48, 48, 51, 48, 124]) := by
  decide +kernel

/-- C65, failing part: an error of a tag (here the unknown letter F) is reported as text that is no tag, and the pathname
is used as it is, if a text comes first and the F part ends in a bar: `x|F:1|` but not `x|F:1`. -/
theorem C65_masked_violation : (normalizeFPart [120, 124, 70, 58, 49, 124]).1 = 3 ∧ (normalizeFPart [120, 124, 70, 58, 49]).1 = 11 := by
  decide +kernel

/-- C65, failing part: normalizing the F part cuts the other parts at 128 characters. -/
theorem C65_long_parts_violation :
    normalizeFPartInPathname (join [List.replicate 130 65, [66], [67], [68], [69], [78, 58, 120]]) (fun _ => List.replicate 129 7) 0 =
      some (0, some (join [List.replicate 128 65, [66], [67], [68], [69], [78, 58, 120, 124]])) := by
  decide +kernel

end Hec
