import Verif.Proofs.TextFile
import Verif.Props.Records
/-!
Text files (C83) and binary files (C82) as records.
-/
namespace Hec
set_option linter.unusedSimpArgs false
set_option linter.unusedVariables false
set_option synthInstance.maxSize 1000
set_option synthInstance.maxHeartbeats 200000
open _root_.Spec (Op Store Step Steps run runs Allowed AllAllowed Plain Reachable GoodSizes create join SixParts stored oddHeaders
  compatible Points IsInt MayStore Later headerString HeaderKept headerOdd)
open Hec.Spec (sameUpToCase)

section
variable {hdrSize maxHash binSize : Nat} {mul : Nat → Nat}

/-- What comes out of a stored file. -/
theorem file_kept (g : GoodSizes hdrSize maxHash binSize) {past : List Op} {s : Eng}
    (hs : Reachable (create hdrSize maxHash binSize mul).1 (create hdrSize maxHash binSize mul).2 past s) (e : WriteEnv) (fs : Files)
    {path filename content : Bytes} {ps : List Bytes} {k : Nat} (hp : SixParts ps) (hpath : path = join ps ++ List.replicate k 32)
    (hf : fs filename = some content) (hne : content ≠ []) (hsize : content.length < 2 ^ 30)
    (hw : MayStore (create hdrSize maxHash binSize mul).1 past s (join ps) 0)
    (ht : ∀ R, zread (create hdrSize maxHash binSize mul).1 s (join ps) = some (some R) → R.dataType = 300) :
    ∃ s', ztextStoreFromFile (create hdrSize maxHash binSize mul).1 s e fs path filename = some (s', .res .ok) ∧
      (∀ q, q.length ≤ 392 → ¬ sameUpToCase (join ps) q →
        zread (create hdrSize maxHash binSize mul).1 s' q = zread (create hdrSize maxHash binSize mul).1 s q) ∧
      ∀ ops s'', Later (create hdrSize maxHash binSize mul).1 past s' (join ps) ops s'' →
        ∀ qs j, SixParts qs → sameUpToCase (join ps) (join qs) → ∀ (fs' : Files) canWrite out, canWrite out = true →
        ztextRetrieveToFile (create hdrSize maxHash binSize mul).1 s'' fs' canWrite (join qs ++ List.replicate j 32) out =
          some (fs'.put out ((pieces content).flatMap upToZero), .ok) := by
  have hmal : mallocAndCopyPath path = join ps := by rw [hpath]; exact C50_trailing_blanks ps hp k
  have h1 := pieces_pos hne
  have h2 := pieces_length content
  have h3 : (fileTable content).length = ((pieces content).flatMap upToZero).length + (pieces content).length := table_length _
  have h4 := flatMap_le (pieces content)
  rw [pieces_flatten] at h4
  obtain ⟨s', k1, k2, k3⟩ := C53_text_partial g hs e (fileText path content) (k := 0) hp (by
      show mallocAndCopyPath path = _
      rw [hmal]; simp) (x := []) (y := fileTable content) (z := [])
    (Or.inl ⟨Int.le_refl 0, rfl⟩) (Or.inr ⟨by show (0 : Int) < ((fileTable content).length : Int); omega,
      by show ((fileTable content).length : Int) < 2 ^ 31; omega, [], by show some (fileTable content) = _; simp, rfl⟩) (Or.inl ⟨Int.le_refl 0, rfl⟩)
    (by show (1 : Int) ≤ ((fileTable content).length : Int) + 0; omega)
    (by
      show IsInt ((pieces content).length : Int)
      unfold IsInt; omega) (by show IsInt 1; unfold IsInt; decide) (by
      show MayStore _ past s (join ps) ((0 + 3) / 4 % 2 + headerOdd [])
      exact hw) (by
      show ∀ R : Rec, _ → R.dataType = if (1 : Int) > 1 then 310 else 300
      rw [if_neg (by decide)]
      exact ht)
  refine ⟨s', ?_, k2, fun ops s'' hl qs j hqs hq fs' cw out ho => ?_⟩
  · unfold ztextStoreFromFile
    rw [hf]
    simp only [k1, Option.map_some]
  · obtain ⟨uh, _, hr⟩ := k3 ops s'' hl qs 0 hqs hq
    unfold ztextRetrieveToFile
    rw [C50_trailing_blanks qs hqs j]
    rw [show join qs ++ List.replicate 0 32 = join qs from by simp] at hr
    rw [hr, Option.bind_some]
    simp only
    rw [if_pos ho]
    unfold writeText
    simp only
    rw [if_pos (by omega)]
    have h5 := writeRows_spec (pieces content) []
    rw [List.nil_append, List.length_nil] at h5
    show Option.map _ (Option.map _ (writeRows ((pieces content).length : Int).toNat (fileTable content) 0)) = _
    rw [Int.toNat_natCast]
    unfold fileTable
    rw [h5]
    rfl

/-- C83.  A text file that is not empty, has no zero byte and less than 2^30 bytes, stored under a pathname without record
or with a text, is stored; no other record changes; and whatever is called next about other records, it is written byte for
byte into any other file.  Missing: writes outside the conditions of MayStore, files with zero bytes, empty files. -/
theorem C83_text_file_partial (g : GoodSizes hdrSize maxHash binSize) {past : List Op} {s : Eng}
    (hs : Reachable (create hdrSize maxHash binSize mul).1 (create hdrSize maxHash binSize mul).2 past s) (e : WriteEnv) (fs : Files)
    {path filename content : Bytes} {ps : List Bytes} {k : Nat} (hp : SixParts ps) (hpath : path = join ps ++ List.replicate k 32)
    (hf : fs filename = some content) (hne : content ≠ []) (hsize : content.length < 2 ^ 30) (hzero : ∀ b ∈ content, b ≠ 0)
    (hw : MayStore (create hdrSize maxHash binSize mul).1 past s (join ps) 0)
    (ht : ∀ R, zread (create hdrSize maxHash binSize mul).1 s (join ps) = some (some R) → R.dataType = 300) :
    ∃ s', ztextStoreFromFile (create hdrSize maxHash binSize mul).1 s e fs path filename = some (s', .res .ok) ∧
      (∀ q, q.length ≤ 392 → ¬ sameUpToCase (join ps) q →
        zread (create hdrSize maxHash binSize mul).1 s' q = zread (create hdrSize maxHash binSize mul).1 s q) ∧
      ∀ ops s'', Later (create hdrSize maxHash binSize mul).1 past s' (join ps) ops s'' →
        ∀ qs j, SixParts qs → sameUpToCase (join ps) (join qs) → ∀ (fs' : Files) (canWrite : Bytes → Bool) (out : Bytes), canWrite out = true →
        ∃ after : Files, ztextRetrieveToFile (create hdrSize maxHash binSize mul).1 s'' fs' canWrite (join qs ++ List.replicate j 32) out =
            some (after, .ok) ∧ after out = some content ∧ ∀ f, f ≠ out → after f = fs' f := by
  obtain ⟨s', h1, h2, h3⟩ := file_kept g hs e fs hp hpath hf hne hsize hw ht
  refine ⟨s', h1, h2, fun ops s'' hl qs j hqs hq fs' cw out ho => ⟨_, h3 ops s'' hl qs j hqs hq fs' cw out ho, ?_, ?_⟩⟩
  · unfold Files.put
    rw [if_pos rfl, flatMap_self _ (by rw [pieces_flatten]; intro h0; exact hzero 0 h0 rfl), pieces_flatten]
  · intro f hf
    unfold Files.put
    rw [if_neg hf]

/-- C83 fails for every file with a zero byte: it is stored without complaint, and what is written later has no zero
byte. -/
theorem C83_zero_byte_violation (g : GoodSizes hdrSize maxHash binSize) {past : List Op} {s : Eng}
    (hs : Reachable (create hdrSize maxHash binSize mul).1 (create hdrSize maxHash binSize mul).2 past s) (e : WriteEnv) (fs : Files)
    {path filename content : Bytes} {ps : List Bytes} {k : Nat} (hp : SixParts ps) (hpath : path = join ps ++ List.replicate k 32)
    (hf : fs filename = some content) (hsize : content.length < 2 ^ 30) (hzero : 0 ∈ content)
    (hw : MayStore (create hdrSize maxHash binSize mul).1 past s (join ps) 0)
    (ht : ∀ R, zread (create hdrSize maxHash binSize mul).1 s (join ps) = some (some R) → R.dataType = 300) :
    ∃ s', ztextStoreFromFile (create hdrSize maxHash binSize mul).1 s e fs path filename = some (s', .res .ok) ∧
      ∀ (fs' : Files) (canWrite : Bytes → Bool) (out : Bytes), canWrite out = true →
        ∃ after b, ztextRetrieveToFile (create hdrSize maxHash binSize mul).1 s' fs' canWrite (join ps) out = some (after, .ok) ∧
          after out = some b ∧ 0 ∉ b ∧ b ≠ content := by
  obtain ⟨s', h1, h2, h3⟩ := file_kept g hs e fs hp hpath hf (by rintro rfl; cases hzero) hsize hw ht
  refine ⟨s', h1, fun fs' cw out ho => ⟨fs'.put out ((pieces content).flatMap upToZero), (pieces content).flatMap upToZero, ?_, by unfold Files.put; rw [if_pos rfl], flatMap_free _, ?_⟩⟩
  · have := h3 [] s' ⟨trivial, ⟨[], rfl⟩, fun op h => by cases h⟩ ps 0 hp (same_iff.mpr rfl) fs' cw out ho
    simpa using this
  · intro h
    exact flatMap_free (pieces content) (by rw [h]; exact hzero)

end

/-- C83.  A file that is empty, or cannot be read, is refused, and the DSS file is left as it is. -/
theorem C83_refused (c : Cfg) (s : Eng) (e : WriteEnv) (fs : Files) (path filename : Bytes)
    (h : fs filename = none ∨ fs filename = some []) :
    ∃ r, ztextStoreFromFile c s e fs path filename = some (s, r) ∧ ∀ x, r ≠ .res x := by
  unfold ztextStoreFromFile
  rcases h with h | h
  · rw [h]; exact ⟨_, rfl, fun x hx => by cases hx⟩
  · rw [h]
    simp only
    rw [C53_text_arguments c s e (fileText path []) (Or.inl (show (0 : Int) + 0 < 1 by decide))]
    exact ⟨_, rfl, fun x hx => by cases hx⟩

/-- C83.  A text record is written into a file as its text: up to the first zero byte, followed by its table, row after row.
Here: a text without table and without zero byte. -/
theorem C83_text_out (c : Cfg) (s : Eng) (fs : Files) (canWrite : Bytes → Bool) (path out : Bytes) {t : TextOut}
    (h : ztextRetrieve c s (mallocAndCopyPath path) = some (.got t)) (ht : t.table = []) (hz : ∀ b ∈ t.text, b ≠ 0) (ho : canWrite out = true) :
    ∃ after : Files, ztextRetrieveToFile c s fs canWrite path out = some (after, .ok) ∧ after out = some t.text ∧
      ∀ f, f ≠ out → after f = fs f := by
  refine ⟨fs.put out t.text, ?_, by unfold Files.put; rw [if_pos rfl], fun f hf => by unfold Files.put; rw [if_neg hf]⟩
  unfold ztextRetrieveToFile
  rw [h, Option.bind_some]
  simp only
  rw [if_pos ho]
  unfold writeText
  rw [ht, if_neg (by simp), upToZero_self (fun h0 => hz 0 h0 rfl)]
  rfl

/-- C83.  A record of another kind is refused, and no file is changed. -/
theorem C83_other_kind (c : Cfg) (s : Eng) (fs : Files) (canWrite : Bytes → Bool) (path out : Bytes)
    (h : ztextRetrieve c s (mallocAndCopyPath path) = some .wrongType) :
    ztextRetrieveToFile c s fs canWrite path out = some (fs, .wrongType) := by
  unfold ztextRetrieveToFile
  rw [h]; rfl

/-- C83 fails for every pathname without record: 0 is returned and the file is written with nothing in it, so that
what was in it is lost. -/
theorem C83_not_found_violation (c : Cfg) (s : Eng) (fs : Files) (canWrite : Bytes → Bool) (path out : Bytes)
    (h : ztextRetrieve c s (mallocAndCopyPath path) = some .notFound) (ho : canWrite out = true) :
    ∃ after : Files, ztextRetrieveToFile c s fs canWrite path out = some (after, .ok) ∧ after out = some [] := by
  refine ⟨fs.put out [], ?_, by unfold Files.put; rw [if_pos rfl]⟩
  unfold ztextRetrieveToFile
  rw [h, Option.bind_some]
  simp only
  rw [if_pos ho]

/-- C82 fails: no file can be stored as a binary record.  Whatever the file, it is reported that it cannot be read; the DSS
file is left as it is. -/
theorem C82_store_violation (c : Cfg) (s : Eng) (e : WriteEnv) (fs : Files) (fill path filename : Bytes) :
    zbinaryStoreFromFile c s e fs fill path filename = some (s, .noAccess) := by
  unfold zbinaryStoreFromFile
  cases fs filename with
  | none => rfl
  | some content => rfl

/-- C82 fails: no record is ever written into a file.  No file is changed, and unless the record says that it has -1 bytes,
the call reports an error. -/
theorem C82_retrieve_violation (c : Cfg) (s : Eng) (fs : Files) (path filename : Bytes) {fs' : Files} {r : Option Bool}
    (h : zbinaryRetrieveToFile c s fs path filename = some (fs', r)) :
    fs' = fs ∧ ∀ R, zread c s (mallocAndCopyPath path) = some (some R) → R.logicalNumber < 2 ^ 31 → r = some false := by
  unfold zbinaryRetrieveToFile at h
  obtain ⟨x, hx, h⟩ := Option.map_eq_some_iff.mp h
  cases x with
  | none =>
    simp only at h
    injection h with h1 h2
    refine ⟨h1.symm, fun R hR => ?_⟩
    rw [hx] at hR
    injection hR with hR
    cases hR
  | some R =>
    simp only [zopenDisk] at h
    cases hf : fs filename with
    | none =>
      rw [hf] at h
      simp only [show openFlags 0 / 64 % 2 = 0 from rfl, if_neg (show ¬ ((0 : Nat) = 1) from by decide)] at h
      injection h with h1 h2
      exact ⟨h1.symm, fun _ _ _ => h2.symm⟩
    | some b =>
      rw [hf] at h
      simp only [writeBytes, show openFlags 0 % 4 = 0 from rfl, if_true] at h
      injection h with h1 h2
      refine ⟨h1.symm, fun R' hR' hl => ?_⟩
      rw [hx] at hR'
      injection hR' with hR'
      injection hR' with hR'
      subst hR'
      have : ¬ ((-1 : Int) = toInt32 R.logicalNumber) := by
        rw [toInt32_small hl]
        omega
      rw [if_neg this] at h2
      exact h2.symm

/-! ### Cases -/

/-- A file of three lines, the last one without an end. -/
def notes : Bytes := [72, 105, 10, 10, 65, 66]

/-- One file on the computer. -/
def desk : Files := fun n => if n = [110] then some notes else none

/-- The file is stored, and written into another one, evaluated. -/
example : ((ztextStoreFromFile tiny.1 tiny.2 anEnv desk nA [110]).bind fun p =>
    (ztextRetrieveToFile tiny.1 p.1 desk (fun _ => true) na [111]).map fun r => (p.2, r.2, r.1 [111], r.1 [110])) =
      some (.res .ok, .ok, some notes, some notes) := by decide +kernel

/-- It is a table of three rows. -/
example : ((ztextStoreFromFile tiny.1 tiny.2 anEnv desk nA [110]).bind fun p => ztextRetrieve tiny.1 p.1 nA) =
    some (.got ⟨[], [72, 105, 10, 0, 10, 0, 65, 66, 0], [], 3, 1, []⟩) := by decide +kernel

/-- A line of 1200 characters is two rows, and comes back in one piece. -/
example : (pieces (List.replicate 1200 65 ++ [10])).map List.length = [999, 202] := by decide +kernel

/-- The conditions of C83 are met by the new file. -/
example : ∃ s', ztextStoreFromFile tiny.1 tiny.2 anEnv desk nA [110] = some (s', .res .ok) := by
  have hp : SixParts [[65], [], [], [], [], []] := ⟨rfl, by simp [_root_.Spec.IsPart]⟩
  have hz : zread tiny.1 tiny.2 (join [[65], [], [], [], [], []]) = some none := by decide +kernel
  obtain ⟨s', h, _⟩ := C83_text_file_partial tiny_good (mul := id) (past := []) (s := tiny.2) ⟨trivial, [], rfl⟩ anEnv desk
    (path := nA) (filename := [110]) (content := notes) (k := 0) hp (by simp [nA]) rfl (by decide) (by decide) (by decide)
    ⟨by decide, (fun R h => by rw [show (create 12 2 58 id) = tiny from rfl, hz] at h; cases h), fun _ d hd => by simp at hd⟩
    (fun R h => by rw [show (create 12 2 58 id) = tiny from rfl, hz] at h; cases h)
  exact ⟨s', h⟩

/-- The conditions of the violation with a zero byte are met too, evaluated: the byte after it is gone. -/
example : ((ztextStoreFromFile tiny.1 tiny.2 anEnv (fun _ => some [72, 0, 105, 10, 65]) nA [110]).bind fun p =>
    (ztextRetrieveToFile tiny.1 p.1 desk (fun _ => true) na [111]).map fun r => (p.2, r.2, r.1 [111])) =
      some (.res .ok, .ok, some [72, 65]) := by decide +kernel

/-- A pathname without record: the file with three lines is emptied. -/
example : ((ztextRetrieveToFile tiny.1 tiny.2 desk (fun _ => true) nA [110]).map fun r => (r.2, r.1 [110])) = some (.ok, some []) := by decide +kernel

end Hec
