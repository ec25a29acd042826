import Verif.Props.Headers
/-! Headers of paired data from older versions (C51). -/
namespace Hec
set_option linter.unusedSimpArgs false
open _root_.Spec (shown trim)

theorem assignAll_old : ∀ (l : List Bytes) (fs : List Field) (P rest : Bytes), l.length ≤ fs.length → (∀ s ∈ l, s ≠ [] ∧ ∀ c ∈ s, c ≠ 0) →
    assignAll (P ++ (l.flatMap (· ++ [0]) ++ 0 :: rest)) P.length fs =
      some (List.zipWith (fun f s => setAlways f (some s)) fs l ++ fs.drop l.length) := by
  intro l
  induction l with
  | nil =>
    intro fs P rest _ _
    cases fs with
    | nil => rfl
    | cons f fs =>
      unfold assignAll
      have := strlenAt_eq P [] rest (by simp)
      simp only [List.nil_append, List.flatMap_nil] at this ⊢
      rw [this, Option.bind_some, List.length_nil, if_pos rfl]
      simp
  | cons s l ih =>
    intro fs P rest hl hz
    cases fs with
    | nil => simp at hl
    | cons f fs =>
      obtain ⟨hne, hs0⟩ := hz s (by simp)
      have et : P ++ ((s :: l).flatMap (· ++ [0]) ++ 0 :: rest) = P ++ (s ++ 0 :: (l.flatMap (· ++ [0]) ++ 0 :: rest)) := by simp
      have et2 : P ++ ((s :: l).flatMap (· ++ [0]) ++ 0 :: rest) = (P ++ (s ++ [0])) ++ (l.flatMap (· ++ [0]) ++ 0 :: rest) := by simp
      have hpos : s.length ≠ 0 := by simpa using hne
      unfold assignAll
      rw [et, strlenAt_eq P _ _ hs0, Option.bind_some, if_neg hpos, cstr_at P _ _ hs0]
      have := ih fs (P ++ (s ++ [0])) rest (by simpa using hl) (fun x hx => hz x (by simp [hx]))
      rw [← et2, et] at this
      simp only [List.length_append, List.length_cons, List.length_nil] at this
      rw [show P.length + s.length + 1 = P.length + (s.length + (0 + 1)) by omega, this]
      simp only [Option.map_some, List.zipWith_cons_cons, List.cons_append, List.length_cons, List.drop_succ_cons, mallocAndCopyTrim_eq]
      congr 2
      unfold setAlways shown
      rw [Option.getD_some]
      by_cases hc : trim s = []
      · rw [if_neg (by rw [trimLength_eq]; simp [(trim_nil_iff s).mp hc]), if_pos hc]
      · rw [if_pos (by rw [trimLength_eq]; exact fun h => hc ((trim_nil_iff s).mpr (by simpa using h))), if_neg hc]

/-- C51.  In headers of paired data from older versions the strings begin at int 5, one behind the other, each with a
zero behind it.  They are read as they were written, if they lie in the first 400 bytes; an empty one is taken for the
end, and the strings of the struct from there on are left as they are. -/
theorem C51_paired_old_header (l : List Bytes) (pad : Bytes) (hz : ∀ s ∈ l, s ≠ [] ∧ ∀ c ∈ s, c ≠ 0)
    (hdr ca : Bytes) (number : Nat) (hn : 5 < number) (hca : ca.length = 400)
    (hx : (hdr.drop 20).take ((number - 5) * 4) = l.flatMap (· ++ [0]) ++ 0 :: pad) (hlen : (number - 5) * 4 ≤ 400)
    (hw : (hdr.drop 20).take 4 ≠ List.replicate 4 0) (hw2 : (hdr.drop 20).take 4 ≠ List.replicate 4 32)
    (fs : List Field) (hfs : l.length ≤ fs.length) :
    zpdHeadToUnits fs hdr number ca = some (List.zipWith (fun f s => setAlways f (some s)) fs l ++ fs.drop l.length) := by
  have hl : (l.flatMap (· ++ [0]) ++ 0 :: pad).length ≤ 400 := by rw [← hx, List.length_take]; omega
  have hch := headChars_old hdr _ 5 number ca hw hw2 hx (by omega)
  unfold zpdHeadToUnits
  rw [if_neg (by omega), hch, Option.bind_some]
  have := assignAll_old l fs [] (pad ++ ca.drop (l.flatMap (· ++ [0]) ++ 0 :: pad).length) hfs hz
  simpa using this

/-- The hypotheses are met: `FT`, an empty string, and what follows is not read. -/
example : zpdHeadToUnits [⟨none, false⟩, ⟨some [65], true⟩, ⟨some [66], true⟩] (List.replicate 20 1 ++ [70, 84, 0, 0, 67, 70, 83, 0]) 7 (List.replicate 400 9) =
    some [⟨some [70, 84], true⟩, ⟨some [65], true⟩, ⟨some [66], true⟩] :=
  C51_paired_old_header [[70, 84]] [67, 70, 83, 0] (by decide) _ _ 7 (by decide) (List.length_replicate ..) (by decide) (by decide) (by decide) (by decide) _ (by decide)

/-- A header of paired data that ends behind the blank int at which the strings begin makes the library read on to a
zero byte behind it. -/
theorem C51_paired_read_outside_violation : zpdHeadToUnits [] (List.replicate 20 1 ++ [32, 32, 32, 32]) 6 (List.replicate 400 9) = none := by decide +kernel

end Hec
