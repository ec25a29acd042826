import Verif.Proofs.Api
import Verif.Props.Records
/-!
The public interface: text and arrays (C57).
-/
namespace Hec
set_option linter.unusedSimpArgs false
set_option linter.unusedVariables false
set_option synthInstance.maxSize 1000
set_option synthInstance.maxHeartbeats 200000
open _root_.Spec (Op Store Step Steps run runs Allowed AllAllowed Reachable GoodSizes create join SixParts stored oddHeaders
  IsInt MayStore Later Points headerOdd HeaderKept Ascii NoBlankEnd written shownIn)
open Hec.Spec (sameUpToCase)

variable {hdrSize maxHash binSize : Nat} {mul : Nat → Nat}

/-- C57.  In a file reached by any calls, a text of characters 1 to 127 that does not end with a blank is stored, and
whatever is called next about other records it is read into the memory of the caller: as much of it as there is room
for, with the status that says so; no other byte of the memory changes.  No other record changes.  Missing: texts with
other characters or with blanks at the end, which are false (see the violations). -/
theorem C57_text_partial (g : GoodSizes hdrSize maxHash binSize) {past : List Op} {s : Eng}
    (hs : Reachable (create hdrSize maxHash binSize mul).1 (create hdrSize maxHash binSize mul).2 past s) (e : WriteEnv)
    {ps : List Bytes} (k : Nat) (hp : SixParts ps) {text : Bytes} (ha : Ascii text) (hb : NoBlankEnd text) (h0 : text ≠ []) (hl : text.length < 2 ^ 31)
    (hw : MayStore (create hdrSize maxHash binSize mul).1 past s (join ps) 0)
    (ht : ∀ R, zread (create hdrSize maxHash binSize mul).1 s (join ps) = some (some R) → R.dataType = 300) :
    ∃ s', hecTextStore (create hdrSize maxHash binSize mul).1 s e (join ps ++ List.replicate k 32) text text.length = some (s', .ok) ∧
      (∀ q, q.length ≤ 392 → ¬ sameUpToCase (join ps) q →
        zread (create hdrSize maxHash binSize mul).1 s' q = zread (create hdrSize maxHash binSize mul).1 s q) ∧
      ∀ ops s'', Later (create hdrSize maxHash binSize mul).1 past s' (join ps) ops s'' →
        ∀ qs j, SixParts qs → sameUpToCase (join ps) (join qs) → ∀ (mem : Bytes) (size : Nat), size ≤ mem.length →
          hecTextRetrieve (create hdrSize maxHash binSize mul).1 s'' (join qs ++ List.replicate j 32) mem size =
            some (if text.length ≤ size then .ok else .tooSmall, written mem (text.take size)) := by
  have hcp := copy_same ha hb
  have hlp : 0 < text.length := by cases text with | nil => exact absurd rfl h0 | cons => simp
  obtain ⟨s', k1, k2, k3⟩ := C53_text_partial g hs e ⟨mallocAndCopyPath (join ps ++ List.replicate k 32), some (mallocAndCopy text ++ [0]), text.length, none, 0, none, 0, 0, 0, []⟩
    hp (name0 hp k) (x := text) (y := []) (z := []) (Or.inr ⟨by simp; omega, by simp; omega, [0], by rw [hcp], rfl⟩) (Or.inl ⟨by simp, rfl⟩) (Or.inl ⟨by simp, rfl⟩)
    (by simp; omega) (by unfold IsInt; simp) (by unfold IsInt; simp) (by simpa [headerOdd] using hw) (by simpa using ht)
  refine ⟨s', ?_, k2, fun ops s'' hlt qs j hqs hq mem size hm => ?_⟩
  · unfold hecTextStore
    simp only
    rw [if_pos (by rw [hcp]; simp; omega), k1]; rfl
  · obtain ⟨uh, _, h⟩ := k3 ops s'' hlt qs 0 hqs hq
    unfold hecTextRetrieve
    rw [name0 hqs j, h, Option.bind_some]
    simp only
    rw [if_neg (by omega), strncpyInto_eq _ _ _ (fun b hbt hz => by have := (ha b hbt).1; rw [hz] at this; exact absurd this (by decide)) (by omega) (by omega)]
    simp only [Option.map_some, Int.toNat_natCast]
    have : text.take (min size text.length) = text.take size := by
      by_cases h : size ≤ text.length
      · rw [Nat.min_eq_left h]
      · rw [Nat.min_eq_right (by omega), List.take_length, List.take_of_length_le (by omega)]
    rw [this]
    congr 2
    by_cases h : text.length ≤ size
    · rw [if_pos h, if_neg (by omega)]
    · rw [if_neg h, if_pos (by omega)]

/-- C57.  Arrays are stored, their lengths are told, and they are read into the memory of the caller, if this has the
lengths told; no other part of the memory changes.  No other record changes. -/
theorem C57_array_partial (g : GoodSizes hdrSize maxHash binSize) {past : List Op} {s : Eng}
    (hs : Reachable (create hdrSize maxHash binSize mul).1 (create hdrSize maxHash binSize mul).2 past s) (e : WriteEnv)
    {ps : List Bytes} (k : Nat) (hp : SixParts ps) {ints floats : Option (List UInt32)} {doubles : Option (List UInt64)} {nInts nFloats nDoubles : Int}
    {x y : List UInt32} {z : List UInt64} (hx : Points ints nInts x) (hy : Points floats nFloats y) (hz : Points doubles nDoubles z)
    (hw : MayStore (create hdrSize maxHash binSize mul).1 past s (join ps) 0)
    (ht : ∀ R, zread (create hdrSize maxHash binSize mul).1 s (join ps) = some (some R) → R.dataType = 90) :
    ∃ s', hecArrayStore (create hdrSize maxHash binSize mul).1 s e (join ps ++ List.replicate k 32) ints nInts floats nFloats doubles nDoubles = some (s', .ok) ∧
      (∀ q, q.length ≤ 392 → ¬ sameUpToCase (join ps) q →
        zread (create hdrSize maxHash binSize mul).1 s' q = zread (create hdrSize maxHash binSize mul).1 s q) ∧
      ∀ ops s'', Later (create hdrSize maxHash binSize mul).1 past s' (join ps) ops s'' →
        ∀ qs j, SixParts qs → sameUpToCase (join ps) (join qs) →
          hecArrayInfo (create hdrSize maxHash binSize mul).1 s'' (join qs ++ List.replicate j 32) = some (some (x.length, y.length, z.length)) ∧
          ∀ mi mf md, x.length ≤ mi.length → y.length ≤ mf.length → z.length ≤ md.length →
            hecArrayRetrieve (create hdrSize maxHash binSize mul).1 s'' (join qs ++ List.replicate j 32) mi x.length mf y.length md z.length =
              some (.ok, written mi x, written mf y, written md z) := by
  have hsv : ∀ {α : Type} {p : Option (List α)} {n : Int} {v : List α}, Points p n v → Points (someValues p n).1 (someValues p n).2 v := by
    intro α p n v h
    unfold someValues
    rcases h with ⟨h1, h2⟩ | ⟨h1, h2, rest, h3, h4⟩
    · rw [if_neg (by omega)]; exact Or.inl ⟨by simp, h2⟩
    · rw [if_pos h1, if_pos (by rw [h3]; rfl)]; exact Or.inr ⟨h1, h2, rest, h3, h4⟩
  obtain ⟨s', k1, k2, k3⟩ := C53_array_partial g hs e ⟨mallocAndCopyPath (join ps ++ List.replicate k 32), (someValues ints nInts).1, (someValues ints nInts).2,
    (someValues floats nFloats).1, (someValues floats nFloats).2, (someValues doubles nDoubles).1, (someValues doubles nDoubles).2, []⟩
    hp (name0 hp k) (hsv hx) (hsv hy) (hsv hz) (by simpa [headerOdd] using hw) (by simpa using ht)
  refine ⟨s', ?_, k2, fun ops s'' hlt qs j hqs hq => ?_⟩
  · unfold hecArrayStore
    simp only
    rw [k1]; rfl
  · obtain ⟨uh, _, h⟩ := k3 ops s'' hlt qs 0 hqs hq
    refine ⟨?_, fun mi mf md h1 h2 h3 => ?_⟩
    · unfold hecArrayInfo
      rw [name0 hqs j, h]; rfl
    · unfold hecArrayRetrieve
      rw [name0 hqs j, h, Option.bind_some]
      simp only [if_true]
      rw [copyArray_all _ _ h1, Option.bind_some, copyArray_all _ _ h2, Option.bind_some, copyArray_all _ _ h3]; rfl

theorem strncpy_within {buf src : Bytes} {n : Nat} (h : n ≤ buf.length) :
    ∃ m, strncpyInto buf src n = some m ∧ m.length = buf.length ∧ m.drop n = buf.drop n := by
  unfold strncpyInto
  simp only
  rw [if_pos h]
  have hl : ((cstr src).take n ++ List.replicate (n - ((cstr src).take n).length) 0).length = n := by simp; omega
  refine ⟨_, rfl, by rw [List.length_append, hl]; simp; omega, ?_⟩
  rw [List.drop_append, hl, List.drop_eq_nil_of_le (by omega)]; simp

theorem copyArray_within {α : Type} {dst src : List α} {n : Nat} (h : n ≤ dst.length) :
    ∃ m, copyArray dst n src = some m ∧ m.length = dst.length ∧ m.drop n = dst.drop n := by
  unfold copyArray
  split
  · exact ⟨_, rfl, rfl, rfl⟩
  · simp only [Int.toNat_natCast]
    rw [if_pos (by omega)]
    have hl : (src.take (min src.length n)).length = min src.length n := by simp
    refine ⟨_, rfl, by rw [List.length_append, hl]; simp; omega, ?_⟩
    rw [List.drop_append, hl, List.drop_eq_nil_of_le (by omega), List.nil_append, List.drop_drop]
    congr 1; omega

/-- C57.  Whatever is in the file, reading a text writes nothing behind the length the caller gives. -/
theorem C57_text_within (c : Cfg) (s : Eng) (path mem : Bytes) (size : Nat) (h : size ≤ mem.length) {r : Got TextOut}
    (hr : ztextRetrieve c s (mallocAndCopyPath path) = some r) :
    ∃ st mem', hecTextRetrieve c s path mem size = some (st, mem') ∧ mem'.length = mem.length ∧ mem'.drop size = mem.drop size := by
  unfold hecTextRetrieve
  rw [hr, Option.bind_some]
  cases r with
  | got t =>
    simp only
    rw [if_neg (by omega)]
    simp only [Int.toNat_natCast]
    obtain ⟨m, h1, h2, h3⟩ := strncpy_within (buf := mem) (src := t.text ++ [0]) (n := min size t.text.length) (by omega)
    rw [h1, Option.map_some]
    refine ⟨_, _, rfl, h2, ?_⟩
    have := congrArg (List.drop (size - min size t.text.length)) h3
    rwa [List.drop_drop, List.drop_drop, show min size t.text.length + (size - min size t.text.length) = size by omega] at this
  | notFound => exact ⟨_, _, rfl, rfl, rfl⟩
  | wrongType => exact ⟨_, _, rfl, rfl, rfl⟩
  | badHeader => exact ⟨_, _, rfl, rfl, rfl⟩

/-- C57.  Whatever is in the file, reading arrays writes nothing behind the lengths the caller gives. -/
theorem C57_array_within (c : Cfg) (s : Eng) (path : Bytes) (mi mf : List UInt32) (md : List UInt64) (ni nf nd : Nat)
    (hi : ni ≤ mi.length) (hf : nf ≤ mf.length) (hd : nd ≤ md.length) {r : Got ArrayOut} (hr : zarrayRetrieve c s (mallocAndCopyPath path) = some r) :
    ∃ st mi' mf' md', hecArrayRetrieve c s path mi ni mf nf md nd = some (st, mi', mf', md') ∧
      mi'.length = mi.length ∧ mi'.drop ni = mi.drop ni ∧ mf'.length = mf.length ∧ mf'.drop nf = mf.drop nf ∧
      md'.length = md.length ∧ md'.drop nd = md.drop nd := by
  have f : ∀ {α : Type} {dst src : List α} {n : Nat}, n ≤ dst.length →
      ∃ m, (if (n : Int) = src.length then copyArray dst n src else some dst) = some m ∧ m.length = dst.length ∧ m.drop n = dst.drop n := by
    intro α dst src n h
    split
    · exact copyArray_within h
    · exact ⟨_, rfl, rfl, rfl⟩
  unfold hecArrayRetrieve
  rw [hr, Option.bind_some]
  cases r with
  | got a =>
    obtain ⟨m1, a1, a2, a3⟩ := f (src := a.ints) hi
    obtain ⟨m2, b1, b2, b3⟩ := f (src := a.floats) hf
    obtain ⟨m3, c1, c2, c3⟩ := f (src := a.doubles) hd
    simp only [a1, b1, c1, Option.bind_some, Option.map_some]
    exact ⟨_, _, _, _, rfl, a2, a3, b2, b3, c2, c3⟩
  | notFound => exact ⟨_, _, _, _, rfl, rfl, rfl, rfl, rfl, rfl, rfl⟩
  | wrongType => exact ⟨_, _, _, _, rfl, rfl, rfl, rfl, rfl, rfl, rfl⟩
  | badHeader => exact ⟨_, _, _, _, rfl, rfl, rfl, rfl, rfl, rfl, rfl⟩

/-! ### Cases -/

/-- The conditions of C57_text_partial are met in a new file: "HI" is read into five bytes and into one. -/
example : ∃ s', hecTextStore tiny.1 tiny.2 anEnv (nA ++ [32]) [72, 73] 2 = some (s', .ok) ∧
    hecTextRetrieve tiny.1 s' na [7, 7, 7, 7, 7] 5 = some (.ok, [72, 73, 7, 7, 7]) ∧
    hecTextRetrieve tiny.1 s' na [7, 7, 7, 7, 7] 1 = some (.tooSmall, [72, 7, 7, 7, 7]) := by
  have hp : SixParts [[65], [], [], [], [], []] := ⟨rfl, by simp [_root_.Spec.IsPart]⟩
  have hq : SixParts [[97], [], [], [], [], []] := ⟨rfl, by simp [_root_.Spec.IsPart]⟩
  have hz : zread tiny.1 tiny.2 (join [[65], [], [], [], [], []]) = some none := by decide +kernel
  obtain ⟨s', h1, _, h3⟩ := C57_text_partial (mul := id) tiny_good (past := []) (s := tiny.2) ⟨trivial, [], rfl⟩ anEnv 1 hp (text := [72, 73])
    (by unfold Ascii; decide) (by unfold NoBlankEnd; decide) (by simp) (by decide)
    ⟨by decide, (fun R h => by rw [show (create 12 2 58 id) = tiny from rfl, hz] at h; cases h), fun _ d hd => by simp at hd⟩
    (fun R h => by rw [show (create 12 2 58 id) = tiny from rfl, hz] at h; cases h)
  have h := h3 [] s' ⟨trivial, ⟨[], rfl⟩, by simp⟩ _ 0 hq (by rw [same_iff]; decide) [7, 7, 7, 7, 7]
  exact ⟨s', h1, h 5 (by decide), h 1 (by decide)⟩

/-- Arrays through the interface, evaluated. -/
example : ((hecArrayStore tiny.1 tiny.2 anEnv nA (some [5, 6, 7]) 2 none 0 (some [3]) 1).bind fun p =>
    (hecArrayInfo tiny.1 p.1 na).bind fun i => (hecArrayRetrieve tiny.1 p.1 na [0, 0, 9] 2 [] 0 [0] 1).map fun r => (p.2, i, r)) =
      some (.ok, some (2, 0, 1), (.ok, [5, 6, 9], [], [3])) := by decide +kernel

/-- C57 fails: no zero byte is written behind the text. -/
theorem C57_unterminated_violation :
    ((hecTextStore tiny.1 tiny.2 anEnv nA [72, 73] 2).bind fun p => (hecTextRetrieve tiny.1 p.1 nA (List.replicate 10 77) 10).map fun r => (p.2, r)) =
      some (.ok, (.ok, [72, 73] ++ List.replicate 8 77)) := by decide +kernel

/-- C57 fails: a blank at the end of a text becomes a zero byte. -/
theorem C57_blank_end_violation :
    ((hecTextStore tiny.1 tiny.2 anEnv nA [72, 73, 32] 3).bind fun p => (hecTextRetrieve tiny.1 p.1 nA [7, 7, 7, 7] 4).map fun r => (p.2, r)) =
      some (.ok, (.ok, [72, 73, 0, 7])) := by decide +kernel

/-- C57 fails: of a text with a character outside of ASCII ("Müller" in UTF-8), or with two blanks at its end, only the
beginning is copied; then memory behind the copy is read. -/
theorem C57_utf8_violation :
    mallocAndCopy [77, 195, 188, 108, 108, 101, 114] = [77, 195] ∧
    hecTextStore tiny.1 tiny.2 anEnv nA [77, 195, 188, 108, 108, 101, 114] 7 = none ∧
    hecTextStore tiny.1 tiny.2 anEnv nA [72, 73, 32, 32] 4 = none := by decide +kernel

/-- C57 fails: with memory for more values than there are nothing is read, and the call succeeds. -/
theorem C57_length_violation :
    ((hecArrayStore tiny.1 tiny.2 anEnv nA (some [5, 6]) 2 none 0 none 0).bind fun p => (hecArrayRetrieve tiny.1 p.1 nA [0, 0, 0] 3 [] 0 [] 0).map fun r => (p.2, r)) =
      some (.ok, (.ok, [0, 0, 0], [], [])) := by decide +kernel

end Hec
