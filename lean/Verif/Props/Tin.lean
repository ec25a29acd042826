import Verif.Proofs.Tin
import Verif.Props.Grid
/-!
Triangulated surfaces read back as they were stored (C93).
-/
namespace Hec
set_option linter.unusedSimpArgs false
set_option linter.unusedVariables false
set_option synthInstance.maxSize 1000
set_option synthInstance.maxHeartbeats 200000
open _root_.Spec (Op Store Step Steps run runs Allowed AllAllowed Reachable GoodSizes create join SixParts stored oddHeaders
  IsInt MayStore Later Ascii NoBlankEnd IsTin tinStrings tinOdd TinBack KeepsLabels)
open Hec.Spec (sameUpToCase)

variable {hdrSize maxHash binSize : Nat} {mul : Nat → Nat}

/-- What is read of a record that is a surface. -/
theorem read_tin {c : Cfg} {s : Eng} {t : TinIn} {x y value pointType connections table : List UInt32} {labels : Bytes}
    (h : IsTin t x y value pointType connections table labels) {path : Bytes} {R : Rec} (hz : zread c s (mallocAndCopyPath path) = some (some R))
    (h0 : R.dataType = 450) (h1 : R.ih = tinInternal t) (h2 : R.h2 = padInts (tinText t)) (h3 : R.uh = lengthened (padInts labels))
    (h4 : R.v1 = x ++ y ++ value) (h5 : R.v2 = pointType ++ List.replicate x.length 0 ++ connections) (h6 : R.v3 = table) (withData : Bool) :
    ∃ o, zspatialTinRetrieve c s path withData = some (.got o) ∧ TinBack t x y value pointType connections table labels withData o := by
  obtain ⟨p1, p2⟩ := h.points
  obtain ⟨e1, e2, e3, e4⟩ := h.same
  obtain ⟨t1, t2, _⟩ := h.table
  obtain ⟨l1, l2, _⟩ := h.names
  have hstr := tinText_read t h.strings
  have hlab := labels_read h.kept
  have ha := threeArrays_eq (n := x.length) rfl e1 e2
  have hb := threeArrays_eq (n := x.length) e3 (List.length_replicate (a := (0 : UInt32))) e4
  have hx : x.length ≠ 0 ↔ x ≠ [] := by rw [ne_eq, List.length_eq_zero_iff]
  unfold zspatialTinRetrieve
  rw [hz, Option.bind_some]
  simp only [h0, h1, tinInternal, h2, h3, h4, h5, h6, p1, t1, l1, toInt32_i32 h.srsType,
    toInt32_i32 (show IsInt (x.length : Int) by unfold IsInt; omega),
    toInt32_i32 (show IsInt (table.length : Int) by unfold IsInt; omega), toInt32_i32 (show IsInt (labels.length : Int) by unfold IsInt; omega)]
  rw [if_neg (by decide)]
  cases withData
  · simp only [Bool.false_eq_true, if_false]
    rw [show threeArrays [] (x.length : Int) = some (none, none, none) from rfl, Option.bind_some, Option.bind_some,
      show readTable [] (table.length : Int) = some none from rfl, Option.map_some]
    exact ⟨_, rfl, ⟨rfl, rfl, rfl, rfl⟩, rfl, hstr, by simp, by simp, by simp [readLabels]⟩
  · simp only [if_true]
    rw [ha, hb, readTable_eq, Option.bind_some, Option.bind_some, Option.map_some, hlab]
    refine ⟨_, rfl, ⟨rfl, rfl, rfl, rfl⟩, rfl, hstr, ?_, by simp, by simp⟩
    by_cases h7 : x = []
    · simp [h7]
    · simp [h7]

/-- The write a store comes to. -/
theorem tin_request {t : TinIn} {x y value pointType connections table : List UInt32} {labels : Bytes}
    (ht : IsTin t x y value pointType connections table labels) (e : WriteEnv) {ps : List Bytes} {k : Nat} (hp : SixParts ps)
    (hpath : t.path = join ps ++ List.replicate k 32) :
    ∃ r : Req, (∀ c s, zspatialTinStore c s e t = zwrite c s r) ∧ r.path = join ps ∧ oddHeaders r.ih r.h2 r.uh = tinOdd t labels ∧
      0 < r.path.length ∧ r.dataType = 450 := by
  obtain ⟨f1, f2⟩ := tin_sections ht
  have hrp : mallocAndCopyPath t.path = join ps := by rw [hpath]; exact C50_trailing_blanks ps hp k
  refine ⟨plainReq e t.path 450 (tinInternal t) (padInts (tinText t)) (lengthened (padInts labels)) (x ++ y ++ value)
    (pointType ++ List.replicate x.length 0 ++ connections) table 0, fun c s => ?_, hrp, ?_, ?_, rfl⟩
  · unfold zspatialTinStore
    rw [f1, Option.bind_some, f2, Option.bind_some]
    rfl
  · show (tinInternal t).length % 2 + (padInts (tinText t)).length % 2 + (lengthened (padInts labels)).length % 2 = _
    rw [padInts_length, tinText_length, labels_odd ht.kept]
    unfold tinOdd
    simp only [tinInternal, List.length_cons, List.length_nil]
    omega
  · show 0 < (mallocAndCopyPath t.path).length
    rw [hrp]
    have := hp.1
    cases ps with
    | nil => simp at this
    | cons a as => simp [join]

/-- C93.  In a file reached by any calls, a surface of any size is stored over no record or over another surface; and whatever is
called next about other records, it is read back by the same name in any letter case, with trailing blanks: all numbers and
strings, and with the data all arrays and labels.  No other record changes.  Missing: strings with blanks at the end or other
characters, labels with their first zero byte in the last int of an odd number, no labels at all (see the violations), writes
outside the conditions of MayStore. -/
theorem C93_tin_partial (gs : GoodSizes hdrSize maxHash binSize) {past : List Op} {s : Eng}
    (hs : Reachable (create hdrSize maxHash binSize mul).1 (create hdrSize maxHash binSize mul).2 past s) (e : WriteEnv)
    {t : TinIn} {x y value pointType connections table : List UInt32} {labels : Bytes} (ht : IsTin t x y value pointType connections table labels)
    {ps : List Bytes} {k : Nat} (hp : SixParts ps) (hpath : t.path = join ps ++ List.replicate k 32)
    (hw : MayStore (create hdrSize maxHash binSize mul).1 past s (join ps) (tinOdd t labels))
    (hty : ∀ R, zread (create hdrSize maxHash binSize mul).1 s (join ps) = some (some R) → R.dataType = 450) :
    ∃ s', zspatialTinStore (create hdrSize maxHash binSize mul).1 s e t = some (s', .ok) ∧
      (∀ q, q.length ≤ 392 → ¬ sameUpToCase (join ps) q →
        zread (create hdrSize maxHash binSize mul).1 s' q = zread (create hdrSize maxHash binSize mul).1 s q) ∧
      ∀ ops s'', Later (create hdrSize maxHash binSize mul).1 past s' (join ps) ops s'' →
        ∀ qs j, SixParts qs → sameUpToCase (join ps) (join qs) → ∀ withData : Bool,
        ∃ o, zspatialTinRetrieve (create hdrSize maxHash binSize mul).1 s'' (join qs ++ List.replicate j 32) withData = some (.got o) ∧
          TinBack t x y value pointType connections table labels withData o := by
  obtain ⟨f1, f2⟩ := tin_sections ht
  generalize hr : plainReq e t.path 450 (tinInternal t) (padInts (tinText t)) (lengthened (padInts labels)) (x ++ y ++ value)
    (pointType ++ List.replicate x.length 0 ++ connections) table 0 = r
  have hrp : r.path = join ps := by rw [← hr, ← C50_trailing_blanks ps hp k, ← hpath]; rfl
  have hodd : oddHeaders r.ih r.h2 r.uh = tinOdd t labels := by
    rw [← hr]
    show (tinInternal t).length % 2 + (padInts (tinText t)).length % 2 + (lengthened (padInts labels)).length % 2 = _
    rw [padInts_length, tinText_length, labels_odd ht.kept]
    unfold tinOdd
    simp only [tinInternal, List.length_cons, List.length_nil]
    omega
  have hne : 0 < r.path.length := by
    rw [hrp]
    have := hp.1
    cases ps with
    | nil => simp at this
    | cons a as => simp [join]
  obtain ⟨s', k1, k2, k3⟩ := stored_kept gs hs r (can_allowed hne (by rw [hrp, hodd]; exact hw)) (by
    rw [hrp]; intro R hR
    rw [hty R hR, ← hr]; rfl)
  rw [hrp] at k2 k3
  refine ⟨s', ?_, k2, fun ops s'' hlat qs j hqs hq withData => ?_⟩
  · unfold zspatialTinStore
    rw [f1, Option.bind_some, f2, Option.bind_some]
    unfold zwritePublic
    rw [← k1, ← hr]; rfl
  · obtain ⟨v, hv⟩ := k3 ops s'' hlat (join qs) hq
    exact read_tin ht (by rw [C50_trailing_blanks qs hqs j]; exact hv) (by rw [← hr]; rfl) (by rw [← hr]; rfl) (by rw [← hr]; rfl) (by rw [← hr]; rfl)
      (by rw [← hr]; rfl) (by rw [← hr]; rfl) (by rw [← hr]; rfl) withData

/-- C93.  Where there is no record, no surface is read; nor from a record of another type. -/
theorem C93_refused (c : Cfg) (s : Eng) {qs : List Bytes} (hq : SixParts qs) (j : Nat) (withData : Bool) :
    (zread c s (join qs) = some none → zspatialTinRetrieve c s (join qs ++ List.replicate j 32) withData = some .notFound) ∧
    ∀ R, zread c s (join qs) = some (some R) → R.dataType ≠ 450 → zspatialTinRetrieve c s (join qs ++ List.replicate j 32) withData = some .wrongType := by
  unfold zspatialTinRetrieve
  rw [C50_trailing_blanks qs hq j]
  refine ⟨fun h => by rw [h]; rfl, fun R h ht => ?_⟩
  rw [h, Option.bind_some]
  simp only
  rw [if_pos ht]

/-- C93.  A surface is refused where there is a record of another type, and every read is as before. -/
theorem C93_other_type_partial (gs : GoodSizes hdrSize maxHash binSize) {past : List Op} {s : Eng}
    (hs : Reachable (create hdrSize maxHash binSize mul).1 (create hdrSize maxHash binSize mul).2 past s) (e : WriteEnv)
    {t : TinIn} {x y value pointType connections table : List UInt32} {labels : Bytes} (ht : IsTin t x y value pointType connections table labels)
    {ps : List Bytes} {k : Nat} (hp : SixParts ps) (hpath : t.path = join ps ++ List.replicate k 32) {R : Rec}
    (hw : MayStore (create hdrSize maxHash binSize mul).1 past s (join ps) (tinOdd t labels))
    (hR : zread (create hdrSize maxHash binSize mul).1 s (join ps) = some (some R)) (hty : R.dataType ≠ 450) :
    ∃ s', zspatialTinStore (create hdrSize maxHash binSize mul).1 s e t = some (s', .differentType) ∧
      ∀ q, q.length ≤ 392 → zread (create hdrSize maxHash binSize mul).1 s' q = zread (create hdrSize maxHash binSize mul).1 s q := by
  obtain ⟨r, hr, hrp, hodd, hne, hd⟩ := tin_request ht e hp hpath
  obtain ⟨s', k1, k2⟩ := stored_refused gs hs r (can_allowed hne (by rw [hrp, hodd]; exact hw)) (R := R) (by rw [hrp]; exact hR) (by
    rw [hd]
    rintro (h | ⟨_, h2⟩ | ⟨_, h2⟩)
    · exact hty h
    · revert h2; decide
    · revert h2; decide)
  exact ⟨s', by rw [hr, k1], k2⟩

/-- C93, failing part: a surface without labels, as a new struct is made, is not stored: the program measures the string at the
null pointer. -/
theorem C93_no_labels_violation (c : Cfg) (s : Eng) (e : WriteEnv) (t : TinIn) (h : t.label = none) : zspatialTinStore c s e t = none := by
  unfold zspatialTinStore tinLabels
  rw [h]; rfl

/-- Three points, one of them in the table of connections, two labels with a zero byte between. -/
def hill : TinIn := ⟨join [[65], [66], [67], [68], [69], [70]], some [87], some [], none, some [102, 116], some [73], none, 0, 3, 2, 12,
  0x3f800000, 0, 0, 0x40000000, 0x40000000, 1, 2, 3, [1, 2, 3, 9], [4, 5, 6], [7, 8, 9], [0, 1, 2], [1, 1, 0], [2, 1],
  some [65, 66, 67, 0, 68, 69, 70, 0, 71, 72, 73, 0, 0]⟩

theorem hill_tin : IsTin hill [1, 2, 3] [4, 5, 6] [7, 8, 9] [0, 1, 2] [1, 1, 0] [2, 1] [65, 66, 67, 0, 68, 69, 70, 0, 71, 72, 73, 0] :=
  ⟨by decide, by decide, ⟨⟨[9], rfl⟩, ⟨[], rfl⟩, ⟨[], rfl⟩, ⟨[], rfl⟩, ⟨[], rfl⟩⟩, ⟨rfl, by decide, [], rfl⟩, ⟨rfl, by decide, [0], rfl⟩,
    Or.inr (Or.inl (by decide)), by unfold hill IsInt; decide, by
      intro s hs u hu
      subst hu
      simp only [tinStrings, hill, List.mem_cons, List.not_mem_nil, or_false, Option.some.injEq, reduceCtorEq, false_or] at hs
      rcases hs with rfl | rfl | rfl | rfl <;> exact ⟨by unfold Ascii; decide, by unfold NoBlankEnd; decide⟩⟩

/-- The conditions of C93_tin_partial are met in a new file. -/
example : ∃ s' o, zspatialTinStore tiny.1 tiny.2 anEnv hill = some (s', .ok) ∧
    zspatialTinRetrieve tiny.1 s' (join [[97], [98], [67], [68], [69], [70]]) true = some (.got o) ∧
    TinBack hill [1, 2, 3] [4, 5, 6] [7, 8, 9] [0, 1, 2] [1, 1, 0] [2, 1] [65, 66, 67, 0, 68, 69, 70, 0, 71, 72, 73, 0] true o := by
  have hp : SixParts [[65], [66], [67], [68], [69], [70]] := ⟨rfl, by simp [_root_.Spec.IsPart]⟩
  have hq : SixParts [[97], [98], [67], [68], [69], [70]] := ⟨rfl, by simp [_root_.Spec.IsPart]⟩
  have hz : zread tiny.1 tiny.2 (join [[65], [66], [67], [68], [69], [70]]) = some none := by decide +kernel
  obtain ⟨s', h1, _, h3⟩ := C93_tin_partial (mul := id) tiny_good (past := []) (s := tiny.2) ⟨trivial, [], rfl⟩ anEnv hill_tin
    (k := 0) hp (by simp [hill])
    ⟨by decide, (fun R h => by rw [show (create 12 2 58 id) = tiny from rfl, hz] at h; cases h), fun _ d hd => by simp at hd⟩
    (fun R h => by rw [show (create 12 2 58 id) = tiny from rfl, hz] at h; cases h)
  obtain ⟨o, h4, h5⟩ := h3 [] s' ⟨trivial, ⟨[], rfl⟩, by simp⟩ _ 0 hq (by rw [same_iff]; decide) true
  exact ⟨s', o, h1, by have := h4; rw [show List.replicate 0 (32 : UInt8) = [] from rfl, List.append_nil] at this; exact this, h5⟩

/-- C93, failing part: of labels of three letters with the zero byte behind them, the zero byte is read back as a blank. -/
theorem C93_label_end_violation :
    ((zspatialTinStore tiny.1 tiny.2 anEnv { hill with label := some [65, 66, 67, 0], labelLength := 4 }).bind fun p =>
      (zspatialTinRetrieve tiny.1 p.1 hill.path true).map fun r =>
        match r with | .got o => (p.2, o.label) | _ => (p.2, none)) = some (.ok, some [65, 66, 67, 32]) := by decide +kernel

/-- C93, failing part: two labels of one letter with a zero byte between: the second one is lost. -/
theorem C93_label_lost_violation :
    ((zspatialTinStore tiny.1 tiny.2 anEnv { hill with label := some [65, 0, 66], labelLength := 3 }).bind fun p =>
      (zspatialTinRetrieve tiny.1 p.1 hill.path true).map fun r =>
        match r with | .got o => (p.2, o.label) | _ => (p.2, none)) = some (.ok, some [65, 32, 32]) := by decide +kernel

/-- C93, failing part: after a string with a blank at its end the other strings are read one place too late. -/
theorem C93_blank_violation :
    ((zspatialTinStore tiny.1 tiny.2 anEnv { hill with units := some [102, 116, 32] }).bind fun p =>
      (zspatialTinRetrieve tiny.1 p.1 hill.path true).map fun r =>
        match r with | .got o => (p.2, o.strings) | _ => (p.2, [])) = some (.ok, [[87], [], [], [102, 116], [], [73]]) := by decide +kernel

end Hec
