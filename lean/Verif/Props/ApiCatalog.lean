import Verif.Proofs.Api
import Verif.Props.Catalog
/-!
The public interface: the catalog (C60).
-/
namespace Hec
set_option linter.unusedSimpArgs false
set_option linter.unusedVariables false
set_option synthInstance.maxSize 1000
set_option synthInstance.maxHeartbeats 200000
open _root_.Spec (Op Store Step Steps run runs Allowed AllAllowed Reachable GoodSizes create join SixParts compatible shownIn written KeepsBehind StringAt)
open Hec.Spec (sameUpToCase)

variable {hdrSize maxHash binSize : Nat} {mul : Nat → Nat}

/-- One pathname in its slot. -/
theorem slot_put {buf path : Bytes} {pos item : Nat} (h : pos + item ≤ buf.length) (hp : path.length < item) :
    ∃ b, stringCopyAt buf pos item path path.length = some b ∧ b.length = buf.length ∧
      ∀ x, b[x]? = if pos ≤ x ∧ x < pos + path.length + 1 then (path ++ [0])[x - pos]? else buf[x]? := by
  unfold stringCopyAt
  rw [if_pos (by omega), if_pos (by simpa using h)]
  have hl : ((buf.drop pos).take (item : Int).toNat).length = item := by simp; omega
  rw [stringCopy_eq _ _ _ (Nat.le_refl _) (by omega), Option.map_some]
  simp only [Int.toNat_natCast, List.take_length] at hl ⊢
  refine ⟨_, rfl, ?_, fun x => ?_⟩
  · simp; omega
  · rw [List.append_assoc, List.getElem?_append]
    simp only [List.length_take, Nat.min_eq_left (show pos ≤ buf.length by omega)]
    by_cases h1 : x < pos
    · rw [if_pos h1, if_neg (by omega), List.getElem?_take_of_lt h1]
    · rw [if_neg h1]
      have e : path ++ 0 :: ((buf.drop pos).take item).drop (path.length + 1) = (path ++ [0]) ++ ((buf.drop pos).take item).drop (path.length + 1) := by simp
      rw [e, List.append_assoc, List.getElem?_append]
      have hpl : (path ++ [0]).length = path.length + 1 := by simp
      rw [hpl]
      by_cases h2 : x < pos + path.length + 1
      · rw [if_pos (by omega), if_pos (by omega)]
      · rw [if_neg (by omega), if_neg (by omega), List.getElem?_append]
        simp only [List.length_drop, hl]
        by_cases h3 : x < pos + item
        · rw [if_pos (by omega), List.getElem?_drop, List.getElem?_take_of_lt (by omega), List.getElem?_drop]
          congr 1; omega
        · rw [if_neg (by omega), List.getElem?_drop]
          congr 1; omega

/-- All pathnames and types from number `i` on. -/
theorem putRows_ok (item : Nat) : ∀ (rows : List CatRow) (i : Nat) (buf : Bytes) (types : List Nat), (i + rows.length) * item ≤ buf.length →
    i + rows.length ≤ types.length → (∀ r ∈ rows, r.path.length < item) →
    ∃ b t, putRows item i rows buf types = some (b, t) ∧ b.length = buf.length ∧ t.length = types.length ∧
      (∀ j r, rows[j]? = some r → t[i + j]? = some r.dataType ∧ ∀ k, k < r.path.length + 1 → b[(i + j) * item + k]? = (r.path ++ [0])[k]?) ∧
      (∀ x, x < i * item ∨ (i + rows.length) * item ≤ x → b[x]? = buf[x]?) ∧ (∀ x, x < i ∨ i + rows.length ≤ x → t[x]? = types[x]?)
  | [], i, buf, types, _, _, _ => ⟨buf, types, rfl, rfl, rfl, by simp, fun _ _ => rfl, fun _ _ => rfl⟩
  | r :: rs, i, buf, types, h1, h2, h3 => by
    have hr := h3 r (by simp)
    simp only [List.length_cons] at h1 h2
    have e1 : (i + 1) * item = i * item + item := by rw [Nat.add_mul, Nat.one_mul]
    have e2 : (i + 1 + rs.length) * item ≤ buf.length := by rw [show i + 1 + rs.length = i + (rs.length + 1) by omega]; exact h1
    have e3 : (i + 1) * item ≤ (i + 1 + rs.length) * item := Nat.mul_le_mul_right _ (by omega)
    obtain ⟨b1, a1, a2, a3⟩ := slot_put (buf := buf) (path := r.path) (pos := i * item) (item := item) (by omega) hr
    obtain ⟨b, t, c1, c2, c3, c4, c5, c6⟩ := putRows_ok item rs (i + 1) b1 (types.set i r.dataType) (by rw [a2]; exact e2) (by rw [List.length_set]; omega)
      (fun x hx => h3 x (List.mem_cons_of_mem _ hx))
    refine ⟨b, t, ?_, by rw [c2, a2], by rw [c3, List.length_set], ?_, ?_, ?_⟩
    · unfold putRows
      rw [if_pos (by omega), a1, Option.bind_some, c1]
    · intro j x hx
      cases j with
      | zero =>
        simp only [List.getElem?_cons_zero, Option.some.injEq] at hx
        subst hx
        refine ⟨?_, fun k hk => ?_⟩
        · rw [Nat.add_zero, c6 i (by omega), List.getElem?_set_self (by omega)]
        · rw [Nat.add_zero, c5 _ (by omega), a3, if_pos (by omega)]
          congr 1; omega
      | succ j =>
        simp only [List.getElem?_cons_succ] at hx
        have := c4 j x hx
        rw [show i + 1 + j = i + (j + 1) by omega] at this
        exact this
    · intro x hx
      simp only [List.length_cons] at hx
      rw [c5 x (by rcases hx with hx | hx
                   · left; omega
                   · right; rw [show i + 1 + rs.length = i + (rs.length + 1) by omega]; exact hx), a3, if_neg]
      rintro ⟨h4, h5⟩
      rcases hx with hx | hx
      · omega
      · rw [show i + (rs.length + 1) = i + 1 + rs.length by omega] at hx; omega
    · intro x hx
      simp only [List.length_cons] at hx
      rw [c6 x (by omega), List.getElem?_set_ne (by omega)]

/-- C60.  In a file reached by any calls, with memory for `count` pathnames of up to 392 bytes and `count` types, the
catalog gives the pathnames that match the filter, but not more than `count`: each in its slot with a zero byte behind it,
with its type.  Each can be read, none is there twice, and every record whose pathname matches is there; if everything
matches, there are as many as the record count says.  With less room these are the first ones.  Nothing behind the
slots changes.  Missing: aliases, collections, other files (see C48). -/
theorem C60_catalog_partial (g : GoodSizes hdrSize maxHash binSize) {past : List Op} {s : Eng}
    (R : Reachable (create hdrSize maxHash binSize mul).1 (create hdrSize maxHash binSize mul).2 past s) (wild : Bytes → Bool) (mem : Bytes) (types : List Nat)
    (count item : Nat) (hi : 393 ≤ item) (hm : count * item ≤ mem.length) (ht : count ≤ types.length) :
    ∃ list : List (Bytes × Nat), list.length ≤ hecRecordCount s ∧ ((∀ p, wild p = true) → list.length = hecRecordCount s) ∧
      list.Pairwise (fun a b => ¬ sameUpToCase a.1 b.1) ∧
      (∀ r ∈ list, wild r.1 = true ∧ ∃ rec, zread (create hdrSize maxHash binSize mul).1 s r.1 = some (some rec) ∧ compatible (UInt32.ofNat r.2) rec.dataType) ∧
      (∀ q rec, q.length ≤ 392 → zread (create hdrSize maxHash binSize mul).1 s q = some (some rec) →
        ∃ path, sameUpToCase path q ∧ (wild path = true → ∃ type, (path, type) ∈ list)) ∧
      ∃ (n : Nat) (mem' : Bytes) (types' : List Nat), hecCatalog (create hdrSize maxHash binSize mul).1 s wild mem types count item = some ((n : Int), mem', types') ∧
        n = min list.length count ∧ (∀ i path type, i < n → list[i]? = some (path, type) → types'[i]? = some type ∧ StringAt mem' (i * item) path) ∧
        KeepsBehind (n * item) mem mem' ∧ KeepsBehind n types types' := by
  obtain ⟨all, h1, h2, h3, h4, h5⟩ := C48_catalog_partial g R
  obtain ⟨all', rows, g1, g2, g3, g4, g5⟩ := C48_selection_partial g R ⟨REC_STATUS_VALID, 0, 0, 0, 0, 0, wild⟩ rfl
  rw [h1] at g1
  simp only [Option.some.injEq] at g1
  subst g1
  simp only [if_true] at g5
  have g4 : ∀ r, r ∈ rows ↔ r ∈ all ∧ wild r.path = true := fun r => by
    have := g4 r (Or.inl rfl)
    simpa using this
  generalize hn : min rows.length count = n
  have hnl : (rows.take n).length = n := by simp; omega
  have hle : n * item ≤ count * item := Nat.mul_le_mul_right _ (by omega)
  obtain ⟨b, t, c1, c2, c3, c4, c5, c6⟩ := putRows_ok item (rows.take n) 0 mem types (by rw [hnl, Nat.zero_add]; omega) (by omega)
    (fun r hr => by have := (h4 r (g2.subset (List.mem_of_mem_take hr))).1; omega)
  refine ⟨rows.map fun r => (r.path, r.dataType), by have := g2.length_le; rw [List.length_map]; unfold hecRecordCount; omega, fun hw => ?_, ?_, ?_, ?_, n, b, t, ?_, ?_, ?_, ⟨c2, ?_⟩, ⟨c3, ?_⟩⟩
  · rw [List.length_map]
    have he : wild = fun _ => true := funext hw
    rw [he, show (⟨REC_STATUS_VALID, 0, 0, 0, 0, 0, fun _ => true⟩ : CatReq) = everything from rfl, h1] at g5
    injection g5 with g5
    rw [← g5]; exact h2
  · rw [List.pairwise_map]; exact h3.sublist g2
  · intro r hr
    obtain ⟨x, hx, rfl⟩ := List.mem_map.mp hr
    exact ⟨g3 x hx, (h4 x (g2.subset hx)).2⟩
  · intro q rec hq hz
    obtain ⟨r, hr, hs⟩ := h5 q rec hq hz
    exact ⟨r.path, hs, fun hw => ⟨r.dataType, List.mem_map.mpr ⟨r, (g4 r).mpr ⟨hr, hw⟩, rfl⟩⟩⟩
  · unfold hecCatalog
    rw [g5, Option.bind_some]
    simp only
    have : (if (rows.length : Int) > count then (count : Int) else rows.length) = (n : Int) := by split <;> omega
    rw [this, Int.toNat_natCast, c1]; rfl
  · rw [List.length_map]; omega
  · intro i path type hi' hx
    rw [List.getElem?_map] at hx
    obtain ⟨r, hr, he⟩ := Option.map_eq_some_iff.mp hx
    simp only [Prod.mk.injEq] at he
    obtain ⟨rfl, rfl⟩ := he
    obtain ⟨d1, d2⟩ := c4 i r (by rw [List.getElem?_take_of_lt hi']; exact hr)
    rw [Nat.zero_add] at d1 d2
    refine ⟨d1, ?_⟩
    unfold StringAt
    apply List.ext_getElem?
    intro k
    by_cases hk : k < r.path.length + 1
    · rw [List.getElem?_take_of_lt hk, List.getElem?_drop]
      exact d2 k hk
    · rw [List.getElem?_eq_none (by simp; omega), List.getElem?_eq_none (by simp; omega)]
  · apply List.ext_getElem?
    intro x
    rw [List.getElem?_drop, List.getElem?_drop, c5 _ (by right; rw [hnl, Nat.zero_add]; omega)]
  · apply List.ext_getElem?
    intro x
    rw [List.getElem?_drop, List.getElem?_drop, c6 _ (by right; rw [hnl]; omega)]

/-! ### Cases -/

/-- The conditions of C60_catalog_partial are met after the calls of `sample`. -/
example : ∃ s, Reachable tiny.1 tiny.2 sample s ∧ ∃ list : List (Bytes × Nat), list.length = hecRecordCount s ∧
    ∃ (n : Nat) (mem' : Bytes) (types' : List Nat), hecCatalog tiny.1 s (fun _ => true) (List.replicate 800 7) [9, 9] 2 400 = some ((n : Int), mem', types') ∧
      n = min (hecRecordCount s) 2 := by
  obtain ⟨s, h⟩ := sample_reachable
  obtain ⟨list, _, h2, _, _, _, n, m, t, h3, h4, _⟩ := C60_catalog_partial (mul := id) tiny_good h (fun _ => true) (List.replicate 800 7) [9, 9] 2 400 (by decide)
    (by rw [List.length_replicate]; decide) (by decide)
  have h2 := h2 (fun _ => rfl)
  exact ⟨s, h, list, h2, n, m, t, h3, by rw [← h2]; exact h4⟩

/-- Two records, evaluated: with room for one pathname, and with slots of four bytes for both. -/
example : ((runs tiny.1 tiny.2 [.write (reqT pA 100 5), .write (reqT pB 200 5)]).bind fun p =>
    (hecCatalog tiny.1 p.1 (fun _ => true) (List.replicate 8 7) [9, 9] 1 6).bind fun r => (hecCatalog tiny.1 p.1 (fun _ => true) (List.replicate 9 7) [9, 9] 5 4).map fun q =>
      (hecRecordCount p.1, r, q)) = some (2, (1, [47, 65, 47, 0, 7, 7, 7, 7], [100, 9]), (2, [47, 65, 47, 0, 47, 66, 47, 0, 7], [100, 200])) := by decide +kernel

/-- C60 fails: in slots shorter than the pathnames these are cut, two of them to the same name, and the call succeeds. -/
theorem C60_cut_violation :
    ((runs tiny.1 tiny.2 [.write (reqT pA 100 5), .write (reqT pB 200 5)]).bind fun p =>
      (hecCatalog tiny.1 p.1 (fun _ => true) (List.replicate 4 7) [9, 9] 2 2)) = some (2, [47, 0, 47, 0], [100, 200]) := by decide +kernel

end Hec
