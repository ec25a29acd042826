import Verif.Proofs.Records
import Verif.Props.CopyCases
/-!
Text and arrays are read back as they were stored (C53).  `ps` are the six parts of the pathname the record is stored
under, `qs` those of the pathname it is read under, which may differ in letter case; both may be followed by blanks.
-/
namespace Hec
set_option linter.unusedSimpArgs false
set_option linter.unusedVariables false
set_option synthInstance.maxSize 1000
set_option synthInstance.maxHeartbeats 200000
open _root_.Spec (Op Store Step Steps run runs Allowed AllAllowed Plain Reachable GoodSizes create join SixParts stored oddHeaders
  compatible Points IsInt MayStore Later headerString HeaderKept headerOdd)
open Hec.Spec (sameUpToCase)

section
variable {hdrSize maxHash binSize : Nat} {mul : Nat → Nat}

/-- C53.  Text that is stored with acceptable arguments, under a pathname without record or with a record of that type, is
stored; no other record changes; and it is read back character for character, with its labels and table, whatever is
called next about other records.  Missing: writes outside the conditions of MayStore (see the violations below). -/
theorem C53_text_partial (g : GoodSizes hdrSize maxHash binSize) {past : List Op} {s : Eng}
    (hs : Reachable (create hdrSize maxHash binSize mul).1 (create hdrSize maxHash binSize mul).2 past s) (e : WriteEnv) (t : TextIn)
    {ps : List Bytes} {k : Nat} (hp : SixParts ps) (hpath : t.path = join ps ++ List.replicate k 32)
    {x y z : Bytes} (hx : Points t.text t.nText x) (hy : Points t.table t.nTable y) (hz : Points t.labels t.nLabels z)
    (hn : 1 ≤ t.nTable + t.nText) (hr : IsInt t.rows) (hcol : IsInt t.cols)
    (hw : MayStore (create hdrSize maxHash binSize mul).1 past s (join ps) ((z.length + 3) / 4 % 2 + headerOdd t.uh))
    (ht : ∀ R, zread (create hdrSize maxHash binSize mul).1 s (join ps) = some (some R) → R.dataType = if t.cols > 1 then 310 else 300) :
    ∃ s', ztextStore (create hdrSize maxHash binSize mul).1 s e t = some (s', some .ok) ∧
      (∀ q, q.length ≤ 392 → ¬ sameUpToCase (join ps) q →
        zread (create hdrSize maxHash binSize mul).1 s' q = zread (create hdrSize maxHash binSize mul).1 s q) ∧
      ∀ ops s'', Later (create hdrSize maxHash binSize mul).1 past s' (join ps) ops s'' →
        ∀ qs j, SixParts qs → sameUpToCase (join ps) (join qs) →
        ∃ uh, HeaderKept t.uh uh ∧ ztextRetrieve (create hdrSize maxHash binSize mul).1 s'' (join qs ++ List.replicate j 32) =
          some (.got ⟨x, y, z, t.rows, t.cols, uh⟩) := by
  have hmal : mallocAndCopyPath t.path = join ps := by rw [hpath]; exact C50_trailing_blanks ps hp k
  have hargs : textArgs t = true := by
    unfold textArgs
    have f : ∀ {p : Option Bytes} {n : Int} {x : Bytes}, Points p n x → (decide (0 < n) && p.isNone) = false := by
      intro p n x h
      rcases h with ⟨h1, _⟩ | ⟨h1, _, rest, h2, _⟩
      · simp; omega
      · simp [h2]
    rw [f hx, f hy, f hz]
    simp; omega
  obtain ⟨s', k1, k2, k3⟩ := stored_kept g hs { textReq e t with uh := lengthened t.uh } (can_allowed (by
      show 0 < (mallocAndCopyPath t.path).length
      rw [hmal]; simp [join]) (by
      show MayStore _ past s (mallocAndCopyPath t.path) (oddHeaders [_, _, _, _, _, _] (padInts (chars t.labels t.nLabels)) (lengthened t.uh))
      rw [hmal, points_chars hz]
      unfold oddHeaders
      rw [padInts_length, lengthened_odd]
      simpa using hw)) (fun R hR => by
      refine ht R ?_
      rw [← hmal]; exact hR)
  refine ⟨s', ?_, ?_, fun ops s'' hl qs j hqs hq => ⟨lengthened t.uh, lengthened_kept _, ?_⟩⟩
  · unfold ztextStore
    rw [if_pos hargs]
    unfold zwritePublic
    show ((zwrite _ s { textReq e t with uh := lengthened t.uh }).map _) = _
    rw [k1]; rfl
  · intro q hq hne
    exact k2 q hq (by
      show ¬ sameUpToCase (mallocAndCopyPath t.path) q
      rw [hmal]; exact hne)
  · have hl' : Later (create hdrSize maxHash binSize mul).1 past s' (mallocAndCopyPath t.path) ops s'' := by rw [hmal]; exact hl
    obtain ⟨v, hv⟩ := k3 ops s'' hl' (join qs) (by
      show sameUpToCase (mallocAndCopyPath t.path) _
      rw [hmal]; exact hq)
    unfold ztextRetrieve
    rw [C50_trailing_blanks qs hqs j, hv]
    have hty : ∀ b : Prop, [Decidable b] → ¬ ((if b then (310 : UInt32) else 300) ≠ 300 ∧ (if b then (310 : UInt32) else 300) ≠ 310) := by
      intro b _
      split <;> decide
    simp only [Option.map_some, stored, textReq, plainReq]
    rw [if_neg (hty _)]
    simp only [points_chars hx, points_chars hy, points_chars hz, charsOf_points hx, charsOf_points hy, charsOf_points hz, toInt32_i32 hr,
      toInt32_i32 hcol]

/-- C53.  Text is refused where there is a record of another type, and every read is as before. -/
theorem C53_text_refused_partial (g : GoodSizes hdrSize maxHash binSize) {past : List Op} {s : Eng}
    (hs : Reachable (create hdrSize maxHash binSize mul).1 (create hdrSize maxHash binSize mul).2 past s) (e : WriteEnv) (t : TextIn)
    {ps : List Bytes} {k : Nat} (hp : SixParts ps) (hpath : t.path = join ps ++ List.replicate k 32)
    {z : Bytes} (hz : Points t.labels t.nLabels z) (hargs : textArgs t = true)
    (hw : MayStore (create hdrSize maxHash binSize mul).1 past s (join ps) ((z.length + 3) / 4 % 2 + headerOdd t.uh)) {R : Rec}
    (ht : zread (create hdrSize maxHash binSize mul).1 s (join ps) = some (some R)) (hd : R.dataType ≠ if t.cols > 1 then 310 else 300) :
    ∃ s', ztextStore (create hdrSize maxHash binSize mul).1 s e t = some (s', some .differentType) ∧
      ∀ q, q.length ≤ 392 → zread (create hdrSize maxHash binSize mul).1 s' q = zread (create hdrSize maxHash binSize mul).1 s q := by
  have hmal : mallocAndCopyPath t.path = join ps := by rw [hpath]; exact C50_trailing_blanks ps hp k
  obtain ⟨s', k1, k2⟩ := stored_refused g hs { textReq e t with uh := lengthened t.uh } (can_allowed (by
      show 0 < (mallocAndCopyPath t.path).length
      rw [hmal]; simp [join]) (by
      show MayStore _ past s (mallocAndCopyPath t.path) (oddHeaders [_, _, _, _, _, _] (padInts (chars t.labels t.nLabels)) (lengthened t.uh))
      rw [hmal, points_chars hz]
      unfold oddHeaders
      rw [padInts_length, lengthened_odd]
      simpa using hw)) (R := R) (by
      show zread _ s (mallocAndCopyPath t.path) = _
      rw [hmal]; exact ht) (by
      show ¬ compatible R.dataType (if t.cols > 1 then 310 else 300)
      rintro (h | ⟨h1, h2⟩ | ⟨h1, h2⟩)
      · exact hd h
      · revert h2; split <;> decide
      · revert h2; split <;> decide)
  refine ⟨s', ?_, k2⟩
  unfold ztextStore
  rw [if_pos hargs]
  unfold zwritePublic
  show ((zwrite _ s { textReq e t with uh := lengthened t.uh }).map _) = _
  rw [k1]; rfl

/-- C53.  Text without a character, or with a number of characters but no pointer to them, is refused, and the file is
left as it is. -/
theorem C53_text_arguments (c : Cfg) (s : Eng) (e : WriteEnv) (t : TextIn)
    (h : t.nTable + t.nText < 1 ∨ (0 < t.nText ∧ t.text = none) ∨ (0 < t.nTable ∧ t.table = none) ∨ (0 < t.nLabels ∧ t.labels = none)) :
    ztextStore c s e t = some (s, none) := by
  unfold ztextStore
  rw [if_neg]
  unfold textArgs
  rcases h with h | ⟨h1, h2⟩ | ⟨h1, h2⟩ | ⟨h1, h2⟩
  · simp [h]
  · simp [h1, h2]
  · simp [h1, h2]
  · simp [h1, h2]

/-- C53.  The same for arrays of ints, floats and doubles, any of which may be missing. -/
theorem C53_array_partial (g : GoodSizes hdrSize maxHash binSize) {past : List Op} {s : Eng}
    (hs : Reachable (create hdrSize maxHash binSize mul).1 (create hdrSize maxHash binSize mul).2 past s) (e : WriteEnv) (a : ArrayIn)
    {ps : List Bytes} {k : Nat} (hp : SixParts ps) (hpath : a.path = join ps ++ List.replicate k 32)
    {x y : List UInt32} {z : List UInt64} (hx : Points a.ints a.nInts x) (hy : Points a.floats a.nFloats y) (hz : Points a.doubles a.nDoubles z)
    (hw : MayStore (create hdrSize maxHash binSize mul).1 past s (join ps) (headerOdd a.uh))
    (ht : ∀ R, zread (create hdrSize maxHash binSize mul).1 s (join ps) = some (some R) → R.dataType = 90) :
    ∃ s', zarrayStore (create hdrSize maxHash binSize mul).1 s e a = some (s', .ok) ∧
      (∀ q, q.length ≤ 392 → ¬ sameUpToCase (join ps) q →
        zread (create hdrSize maxHash binSize mul).1 s' q = zread (create hdrSize maxHash binSize mul).1 s q) ∧
      ∀ ops s'', Later (create hdrSize maxHash binSize mul).1 past s' (join ps) ops s'' →
        ∀ qs j, SixParts qs → sameUpToCase (join ps) (join qs) →
        ∃ uh, HeaderKept a.uh uh ∧ zarrayRetrieve (create hdrSize maxHash binSize mul).1 s'' (join qs ++ List.replicate j 32) =
          some (.got ⟨x, y, z, uh⟩) := by
  have hmal : mallocAndCopyPath a.path = join ps := by rw [hpath]; exact C50_trailing_blanks ps hp k
  obtain ⟨s', k1, k2, k3⟩ := stored_kept g hs { arrayReq e a with uh := lengthened a.uh } (can_allowed (by
      show 0 < (mallocAndCopyPath a.path).length
      rw [hmal]; simp [join]) (by
      show MayStore _ past s (mallocAndCopyPath a.path) (oddHeaders [] [] (lengthened a.uh))
      rw [hmal]
      unfold oddHeaders
      rw [lengthened_odd]
      simpa using hw)) (fun R hR => by
      refine ht R ?_
      rw [← hmal]; exact hR)
  refine ⟨s', k1, ?_, fun ops s'' hl qs j hqs hq => ⟨lengthened a.uh, lengthened_kept _, ?_⟩⟩
  · intro q hq hne
    exact k2 q hq (by
      show ¬ sameUpToCase (mallocAndCopyPath a.path) q
      rw [hmal]; exact hne)
  · have hl' : Later (create hdrSize maxHash binSize mul).1 past s' (mallocAndCopyPath a.path) ops s'' := by rw [hmal]; exact hl
    obtain ⟨v, hv⟩ := k3 ops s'' hl' (join qs) (by
      show sameUpToCase (mallocAndCopyPath a.path) _
      rw [hmal]; exact hq)
    unfold zarrayRetrieve
    rw [C50_trailing_blanks qs hqs j, hv]
    simp only [Option.map_some, stored, arrayReq, plainReq, points_given hx, points_given hy, points_given hz]
    rw [if_neg (by decide), doubles_length, show 2 * (2 * z.length / 2) = (z.flatMap doubleInts).length by rw [doubles_length]; omega,
      List.take_length, intsDoubles_ints]

/-- C53.  A record of another type is not read as text or arrays, and a record that is not there is reported. -/
theorem C53_other_type (c : Cfg) (s : Eng) {qs : List Bytes} (hq : SixParts qs) (j : Nat) :
    (∀ R, zread c s (join qs) = some (some R) →
      (R.dataType ≠ 300 → R.dataType ≠ 310 → ztextRetrieve c s (join qs ++ List.replicate j 32) = some .wrongType) ∧
      (R.dataType ≠ 90 → zarrayRetrieve c s (join qs ++ List.replicate j 32) = some .wrongType)) ∧
    (zread c s (join qs) = some none → ztextRetrieve c s (join qs ++ List.replicate j 32) = some .notFound ∧
      zarrayRetrieve c s (join qs ++ List.replicate j 32) = some .notFound) := by
  unfold ztextRetrieve zarrayRetrieve
  rw [C50_trailing_blanks qs hq j]
  refine ⟨fun R hR => ⟨fun h1 h2 => ?_, fun h1 => ?_⟩, fun h => ?_⟩
  · rw [hR]; simp [h1, h2]
  · rw [hR]; simp [h1]
  · rw [h]; exact ⟨rfl, rfl⟩

end

/-! ### Cases -/

/-- Text "HELLO" with a table of one cell and a label, under a pathname with a blank at its end. -/
def hello : TextIn := ⟨nA ++ [32], some [72, 69, 76, 76, 79, 0], 5, some [49, 50], 2, some [76, 65, 66, 69, 76], 5, 1, 1, [1, 2]⟩

def anEnv : WriteEnv := ⟨7, 0, 0, 0, (1, 2)⟩

/-- The conditions of C53_text_partial are met in a new file. -/
example : ∃ s', ztextStore tiny.1 tiny.2 anEnv hello = some (s', some .ok) ∧
    ∃ uh, HeaderKept [1, 2] uh ∧ ztextRetrieve tiny.1 s' (na ++ [32, 32]) = some (.got ⟨[72, 69, 76, 76, 79], [49, 50], [76, 65, 66, 69, 76], 1, 1, uh⟩) := by
  have hp : SixParts [[65], [], [], [], [], []] := ⟨rfl, by simp [_root_.Spec.IsPart]⟩
  have hq : SixParts [[97], [], [], [], [], []] := ⟨rfl, by simp [_root_.Spec.IsPart]⟩
  have hz : zread tiny.1 tiny.2 (join [[65], [], [], [], [], []]) = some none := by decide +kernel
  obtain ⟨s', h1, _, h3⟩ := C53_text_partial (mul := id) tiny_good (past := []) (s := tiny.2) ⟨trivial, [], rfl⟩ anEnv hello (k := 1) hp rfl
    (x := [72, 69, 76, 76, 79]) (y := [49, 50]) (z := [76, 65, 66, 69, 76])
    (Or.inr ⟨by decide, by decide, [0], rfl, rfl⟩) (Or.inr ⟨by decide, by decide, [], rfl, rfl⟩) (Or.inr ⟨by decide, by decide, [], rfl, rfl⟩)
    (by decide) ⟨by decide, by decide⟩ ⟨by decide, by decide⟩
    ⟨by decide, (fun R h => by rw [show (create 12 2 58 id) = tiny from rfl, hz] at h; cases h), fun _ d hd => by simp at hd⟩
    (fun R h => by rw [show (create 12 2 58 id) = tiny from rfl, hz] at h; cases h)
  exact ⟨s', h1, h3 [] s' ⟨trivial, ⟨[], rfl⟩, by simp⟩ _ 2 hq (by rw [same_iff]; decide)⟩

/-- Arrays: two ints, one float and two doubles are stored in a new file and read back, evaluated. -/
example : ((zarrayStore tiny.1 tiny.2 anEnv ⟨nA, some [5, 6, 7], 2, some [9], 1, some [2 ^ 40 + 1, 3], 2, []⟩).bind fun p =>
    (zarrayRetrieve tiny.1 p.1 na).map fun r => (p.2, r)) = some (.ok, .got ⟨[5, 6], [9], [2 ^ 40 + 1, 3], []⟩) := by decide +kernel

/-- Text is not read as arrays and arrays not as text, evaluated. -/
example : ((ztextStore tiny.1 tiny.2 anEnv hello).bind fun p => zarrayRetrieve tiny.1 p.1 na) = some .wrongType ∧
    ((zarrayStore tiny.1 tiny.2 anEnv ⟨nA, some [1], 1, none, 0, none, 0, []⟩).bind fun p => ztextRetrieve tiny.1 p.1 nA) = some .wrongType := by
  decide +kernel

/-- C53 fails for user headers: one int, 5, is taken for a string, and two other ints are read back. -/
theorem C53_user_header_violation :
    ((zarrayStore tiny.1 tiny.2 anEnv ⟨nA, some [1], 1, none, 0, none, 0, [5]⟩).bind fun p =>
      (zarrayRetrieve tiny.1 p.1 nA).map fun r => (p.2, r)) = some (.ok, .got ⟨[1], [], [], [538976261, 32]⟩) := by decide +kernel

/-- C53 fails: a text that was stored with one column cannot be replaced by a table of two columns. -/
theorem C53_text_table_violation :
    ((ztextStore tiny.1 tiny.2 anEnv hello).bind fun p => (ztextStore tiny.1 p.1 anEnv { hello with cols := 2 }).map fun q => (p.2, q.2)) =
      some (some .ok, some .differentType) := by decide +kernel

/-- C53 fails: text that was replaced by text with labels and a longer user header, in the space of the old one, is
destroyed by the next record. -/
theorem C53_overlap_violation :
    ((ztextStore tiny.1 tiny.2 anEnv ⟨nA, some (List.replicate 16 65), 16, none, 0, none, 0, 0, 0, [1, 2]⟩).bind fun p =>
      (ztextStore tiny.1 p.1 anEnv ⟨nA, some (List.replicate 16 66), 16, none, 0, some [76], 1, 0, 0, [0]⟩).bind fun q =>
        (zarrayStore tiny.1 q.1 anEnv ⟨nB, some [1], 1, none, 0, none, 0, []⟩).bind fun r =>
          (ztextRetrieve tiny.1 q.1 nA).bind fun t1 => (ztextRetrieve tiny.1 r.1 nA).map fun t2 =>
            (p.2, q.2, r.2, decide (t1 = .got ⟨List.replicate 16 66, [], [76], 0, 0, [0]⟩), decide (t2 = .got ⟨List.replicate 16 66, [], [76], 0, 0, [0]⟩))) =
      some (some .ok, some .ok, .ok, true, false) := by decide +kernel

end Hec
