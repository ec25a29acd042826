import Verif.Proofs.Headers
/-! Units, types and time zones in the headers of time series and paired data (C51). -/
namespace Hec
set_option linter.unusedSimpArgs false
set_option linter.unusedVariables false
open _root_.Spec (trim shown rtrim cells NoZero setField strings)

/-- C51.  Units, type and time zone of a time series are read back as they were stored, without blanks at the ends, if
together they need no more than 200 bytes.  The header is written inside its array, its first 17 ints are
unchanged, and reading depends only on the ints that are stored (`number`), whatever the local arrays contain before. -/
theorem C51_time_series_partial (t : TsStrings) (hz : ∀ s ∈ strings t, NoZero s) (hs : ((strings t).map cells).sum ≤ 200)
    (carray hdr ca : Bytes) (hc : carray.length = 300) (hh : 72 + ((strings t).map cells).sum ≤ hdr.length) (hca : ca.length = 200)
    (hp : intAt hdr 3 = 0 ↔ t.profile = false) :
    ∃ h number, ztsInternalHeaderPack t carray hdr = some (h, number) ∧ h.length = hdr.length ∧ h.take 68 = hdr.take 68 ∧
      4 * number = 72 + ((strings t).map cells).sum ∧
      ∀ h', h'.take (4 * number) = h.take (4 * number) → ∀ T : TsHead,
        ztsInternalHeaderUnpack T h' number ca = some
          { granularity := if intAt hdr 0 > 0 then intAt hdr 0 else T.granularity, precision := intAt hdr 1, offset := intAt hdr 2,
            units := if t.profile then T.units else setField T.units t.units,
            unitsDepths := if t.profile then setField T.unitsDepths t.unitsDepths else T.unitsDepths,
            unitsValues := if t.profile then setField T.unitsValues t.unitsValues else T.unitsValues,
            type := setField T.type t.type, zone := setField T.zone t.zone } := by
  have hev := text_even (strings t)
  have hlen := text_length (strings t)
  rw [← hlen] at hs hh ⊢
  have e := pack_text t carray hdr hz (by omega) hc hh
  have h68 : (hdr.take 68).length = 68 := by rw [List.length_take]; omega
  refine ⟨_, _, e, ?_, ?_, by omega, ?_⟩
  · simp only [List.length_append, List.length_replicate, List.length_drop, h68]; omega
  · rw [List.append_assoc, List.append_assoc, List.take_append_of_le_length (by omega), List.take_of_length_le (by omega)]
  intro h' hh' T
  rw [show 4 * ((text (strings t)).length / 4 + 18) = 72 + (text (strings t)).length by omega] at hh'
  have hT : (hdr.take 68 ++ List.replicate 4 (32 : UInt8) ++ text (strings t) ++ hdr.drop (72 + (text (strings t)).length)).take
      (72 + (text (strings t)).length) = hdr.take 68 ++ (List.replicate 4 32 ++ text (strings t)) := by
    rw [List.take_append_of_le_length (by simp only [List.length_append, List.length_replicate, h68]; omega), List.take_of_length_le
      (by simp only [List.length_append, List.length_replicate, h68]; omega), List.append_assoc]
  rw [hT] at hh'
  have hpre : h'.take 68 = hdr.take 68 := by
    have := congrArg (List.take 68) hh'
    rw [List.take_take, Nat.min_eq_left (by omega), List.take_left' h68] at this
    exact this
  have hmid : (h'.drop (4 * 17)).take (4 + (text (strings t)).length) = List.replicate 4 32 ++ text (strings t) := by
    have := congrArg (List.drop 68) hh'
    rw [List.drop_take, List.drop_left' h68] at this
    rw [← this]; congr 1; omega
  have hpos : 0 < (text (strings t)).length := by
    rw [hlen]
    have : ∀ s, 8 ≤ cells s := fun s => by unfold cells; omega
    unfold strings
    split
    · have := this t.zone; simp; omega
    · have := this t.zone; simp; omega
  have hch := headChars_new h' (text (strings t)) 17 ((text (strings t)).length / 4 + 18) ca (by omega) hpos hmid (by omega)
  unfold ztsInternalHeaderUnpack
  simp only [intAt_congr hpre (show 0 < 17 by omega), intAt_congr hpre (show 1 < 17 by omega), intAt_congr hpre (show 2 < 17 by omega), intAt_congr hpre (show 3 < 17 by omega)]
  rw [if_neg (by omega), hch, Option.bind_some]
  have h8 : ∀ s, 8 ≤ cells s := fun s => by unfold cells; omega
  generalize hr : ca.drop (text (strings t)).length = rest
  clear hr hch hmid hh' hT hpre e
  unfold strings at *
  by_cases hprof : t.profile = true
  · have h3 : ¬ intAt hdr 3 = 0 := by rw [hp]; simp [hprof]
    simp only [hprof, if_true] at *
    rw [if_neg h3]
    have etext : text [t.unitsDepths, t.unitsValues, t.type, t.zone] ++ rest =
        cell t.unitsDepths ++ (cell t.unitsValues ++ (cell t.type ++ (cell t.zone ++ rest))) := by simp [text]
    simp only [List.map_cons, List.map_nil, List.sum_cons, List.sum_nil] at hlen
    have := h8 t.unitsDepths; have := h8 t.unitsValues; have := h8 t.type; have := h8 t.zone
    rw [etext]
    have a1 := assign_cell T.unitsDepths [] t.unitsDepths (cell t.unitsValues ++ (cell t.type ++ (cell t.zone ++ rest))) (hz _ (by simp)) (by omega)
    have a2 := assign_cell T.unitsValues (cell t.unitsDepths) t.unitsValues (cell t.type ++ (cell t.zone ++ rest)) (hz _ (by simp)) (by omega)
    have a3 := assign_cell T.type (cell t.unitsDepths ++ cell t.unitsValues) t.type (cell t.zone ++ rest) (hz _ (by simp)) (by omega)
    have a4 := assign_cell T.zone (cell t.unitsDepths ++ cell t.unitsValues ++ cell t.type) t.zone rest (hz _ (by simp)) (by omega)
    simp only [List.nil_append, List.length_nil, Nat.zero_add, List.append_assoc, List.length_append, cell_length] at a1 a2 a3 a4
    rw [a1, Option.bind_some]
    simp only
    rw [a2, Option.map_some, Option.bind_some]
    simp only
    rw [a3, Option.bind_some]
    simp only
    rw [show cells t.unitsDepths + cells t.unitsValues + cells t.type = cells t.unitsDepths + (cells t.unitsValues + cells t.type) by omega, a4, Option.map_some]
  · have h3 : intAt hdr 3 = 0 := by rw [hp]; simpa using hprof
    simp only [hprof, if_false, Bool.false_eq_true] at *
    rw [if_pos h3]
    have etext : text [t.units, t.type, t.zone] ++ rest = cell t.units ++ (cell t.type ++ (cell t.zone ++ rest)) := by simp [text]
    simp only [List.map_cons, List.map_nil, List.sum_cons, List.sum_nil] at hlen
    have := h8 t.units; have := h8 t.type; have := h8 t.zone
    rw [etext]
    have a1 := assign_cell T.units [] t.units (cell t.type ++ (cell t.zone ++ rest)) (hz _ (by simp)) (by omega)
    have a3 := assign_cell T.type (cell t.units) t.type (cell t.zone ++ rest) (hz _ (by simp)) (by omega)
    have a4 := assign_cell T.zone (cell t.units ++ cell t.type) t.zone rest (hz _ (by simp)) (by omega)
    simp only [List.nil_append, List.length_nil, Nat.zero_add, List.append_assoc, List.length_append, cell_length] at a1 a3 a4
    rw [a1, Option.map_some, Option.bind_some]
    simp only
    rw [a3, Option.bind_some]
    simp only
    rw [a4, Option.map_some]

/-! ### Paired data -/

theorem appendAll_text (size : Nat) : ∀ (l : List (Option Bytes)) (b P : Bytes), (∀ s ∈ l, NoZero s) → b.take P.length = P →
    P.length + (text l).length < size → size ≤ b.length →
    ∃ b', appendAll b P.length size l = some (b', some (P ++ text l).length) ∧ b'.length = b.length ∧ b'.take (P ++ text l).length = P ++ text l := by
  intro l
  induction l with
  | nil =>
    intro b P _ hP _ _
    refine ⟨b, ?_, rfl, ?_⟩
    · simp [appendAll, text]
    · simpa [text] using hP
  | cons s l ih =>
    intro b P hz hP hlt hb
    have et : text (s :: l) = cell s ++ text l := rfl
    have hcl := cell_length s
    rw [et, List.length_append] at hlt
    obtain ⟨b1, e1, l1, t1⟩ := append_step s b P size (hz _ (by simp)) hP (by omega) hb
    obtain ⟨b2, e2, l2, t2⟩ := ih b1 (P ++ cell s) (fun x hx => hz x (by simp [hx])) t1 (by rw [List.length_append]; omega) (by omega)
    refine ⟨b2, ?_, by omega, ?_⟩
    · unfold appendAll
      rw [e1, Option.bind_some]
      simp only
      rw [if_neg (by rw [List.length_append]; omega), e2, et, List.append_assoc]
    · rw [et, ← List.append_assoc]; exact t2

/-- The string of a struct after reading `s`, whatever it was before (unless `s` is blank). -/
def setAlways (f : Field) (s : Option Bytes) : Field := match shown s with | some x => ⟨some x, true⟩ | none => f

theorem assignAll_text : ∀ (l : List (Option Bytes)) (fs : List Field) (P rest : Bytes), l.length = fs.length → (∀ s ∈ l, NoZero s) →
    assignAll (P ++ (text l ++ rest)) P.length fs = some (List.zipWith setAlways fs l) := by
  intro l
  induction l with
  | nil => intro fs P rest hl _; cases fs with | nil => rfl | cons => simp at hl
  | cons s l ih =>
    intro fs P rest hl hz
    cases fs with
    | nil => simp at hl
    | cons f fs =>
      have et : P ++ (text (s :: l) ++ rest) = P ++ (body s ++ 0 :: (text l ++ rest)) := by
        simp [text, cell_body]
      have et2 : P ++ (text (s :: l) ++ rest) = (P ++ cell s) ++ (text l ++ rest) := by simp [text]
      have hge := cells_ge s
      have hb := body_length s
      have h8 : 8 ≤ cells s := by unfold cells; omega
      unfold assignAll
      rw [et, strlenAt_eq P _ _ (body_zero (hz s (by simp))), Option.bind_some, if_neg (by omega), cstr_at P _ _ (body_zero (hz s (by simp)))]
      have := ih fs (P ++ cell s) rest (by simpa using hl) (fun x hx => hz x (by simp [hx]))
      rw [← et2, et, List.length_append, cell_length] at this
      rw [hb, show P.length + (cells s - 1) + 1 = P.length + cells s by omega, this]
      simp only [Option.map_some, List.zipWith_cons_cons]
      congr 2
      unfold setAlways shown
      rw [body_trim]
      by_cases hc : trim (s.getD []) = []
      · rw [if_neg (fun h => (body_trimLength s).mp h hc), if_pos hc]
      · rw [if_pos ((body_trimLength s).mpr hc), if_neg hc]

/-- C51.  The units, types and the time zone of paired data are read back as they were stored, without blanks at the ends,
if together they need less than 398 bytes. -/
theorem C51_paired_data_partial (l : List (Option Bytes)) (hz : ∀ s ∈ l, NoZero s) (h5 : l.length = 5) (hs : (l.map cells).sum < 398)
    (carray hdr ca : Bytes) (dim : Nat) (hc : carray.length = 400) (hh : 4 * dim ≤ hdr.length) (hd : 24 + (l.map cells).sum ≤ 4 * dim) (hca : ca.length = 400) :
    ∃ h number, zpdUnitsToHead l carray hdr dim = some (h, number) ∧ h.length = hdr.length ∧ h.take 20 = hdr.take 20 ∧
      4 * number = 24 + (l.map cells).sum ∧
      ∀ h', h'.take (4 * number) = h.take (4 * number) → ∀ fs : List Field, fs.length = 5 →
        zpdHeadToUnits fs h' number ca = some (List.zipWith setAlways fs l) := by
  have hev := text_even l
  have hlen := text_length l
  rw [← hlen] at hs hd ⊢
  have hpos : 0 < (text l).length := by
    rw [hlen]
    match l, h5 with
    | a :: _, _ => have : 8 ≤ cells a := by unfold cells; omega
                   simp only [List.map_cons, List.sum_cons]; omega
  obtain ⟨b, e, lb, tb⟩ := appendAll_text 398 l carray [] hz rfl (by simpa using hs) (by omega)
  rw [List.nil_append] at e tb
  have h20 : (hdr.take 20).length = 20 := by rw [List.length_take]; omega
  have hl24 : (hdr.take 20 ++ List.replicate 4 BLANK).length = 24 := by rw [List.length_append, List.length_replicate, h20]
  have hpack : zpdUnitsToHead l carray hdr dim =
      some (hdr.take 20 ++ (List.replicate 4 32 ++ text l) ++ hdr.drop (24 + (text l).length), (text l).length / 4 + 6) := by
    unfold zpdUnitsToHead
    simp only
    rw [show appendAll carray 0 398 l = _ from e, Option.bind_some]
    simp only
    rw [if_neg (by omega), putBytes_eq _ _ _ (by rw [List.length_replicate]; omega), Option.bind_some, tb,
      putBytes_eq _ _ _ (by rw [List.length_append, hl24, List.length_drop, List.length_replicate]; omega), Option.map_some]
    congr 2
    · rw [List.take_left' hl24, List.drop_append, List.drop_of_length_le (by omega), hl24, List.drop_drop, List.length_replicate, List.nil_append,
        show 20 + 4 + (24 + (text l).length - 24) = 24 + (text l).length by omega]
      simp [BLANK]
    · unfold nIntsB; omega
  refine ⟨_, _, hpack, ?_, ?_, by omega, ?_⟩
  · simp only [List.length_append, List.length_replicate, List.length_drop, h20]; omega
  · rw [List.append_assoc, List.take_left' h20]
  intro h' hh' fs hfs
  rw [show 4 * ((text l).length / 4 + 6) = 24 + (text l).length by omega,
    List.take_left' (by simp only [List.length_append, List.length_replicate, h20]; omega)] at hh'
  have hmid : (h'.drop (4 * 5)).take (4 + (text l).length) = List.replicate 4 32 ++ text l := by
    have := congrArg (List.drop 20) hh'
    rw [List.drop_take, List.drop_left' h20] at this
    rw [← this]; congr 1; omega
  have hch := headChars_new h' (text l) 5 ((text l).length / 4 + 6) ca (by omega) hpos hmid (by omega)
  unfold zpdHeadToUnits
  rw [if_neg (by omega), hch, Option.bind_some]
  have := assignAll_text l fs [] (ca.drop (text l).length) (by omega) hz
  simpa using this

/-! ### Headers written by older versions -/

theorem padding_old (h : Bytes) (pos : Nat) (hw : (h.drop (4 * pos)).take 4 ≠ List.replicate 4 0)
    (hw2 : (h.drop (4 * pos)).take 4 ≠ List.replicate 4 32) : unitsHavePadding h pos = false := by
  unfold unitsHavePadding
  apply decide_eq_false
  intro hh
  rcases hh with hh | hh
  · exact hw hh
  · exact hw2 hh

theorem headChars_old (h x : Bytes) (pos number : Nat) (ca : Bytes) (hw : (h.drop (4 * pos)).take 4 ≠ List.replicate 4 0)
    (hw2 : (h.drop (4 * pos)).take 4 ≠ List.replicate 4 32) (h1 : (h.drop (4 * pos)).take ((number - pos) * 4) = x) (hc : x.length ≤ ca.length) :
    headChars h pos number ca = some (x ++ ca.drop x.length) := by
  unfold headChars
  have hu : unitsHavePadding h pos = false := padding_old h pos hw hw2
  rw [if_pos hu, h1, List.take_of_length_le hc,
    putBytes_eq _ _ _ (by omega)]
  simp

/-- C51.  In headers of older versions the strings begin at int 17, one behind the other, each with a zero behind it.
They are read as they were written, if they lie in the first 200 bytes. -/
theorem C51_old_header (units type zone pad : Bytes) (hz : ∀ s ∈ [units, type, zone], ∀ c ∈ s, c ≠ 0)
    (hdr ca : Bytes) (number : Nat) (hn : 18 < number) (hca : ca.length = 200) (h3 : intAt hdr 3 = 0)
    (hx : (hdr.drop 68).take ((number - 17) * 4) = units ++ 0 :: (type ++ 0 :: (zone ++ 0 :: pad)))
    (hlen : (units ++ 0 :: (type ++ 0 :: (zone ++ 0 :: pad))).length ≤ 200)
    (hw : (hdr.drop 68).take 4 ≠ List.replicate 4 0) (hw2 : (hdr.drop 68).take 4 ≠ List.replicate 4 32) (T : TsHead) :
    ztsInternalHeaderUnpack T hdr number ca = some
      { granularity := if intAt hdr 0 > 0 then intAt hdr 0 else T.granularity, precision := intAt hdr 1, offset := intAt hdr 2,
        units := setField T.units (some units), unitsDepths := T.unitsDepths, unitsValues := T.unitsValues,
        type := setField T.type (some type), zone := setField T.zone (some zone) } := by
  have hch := headChars_old hdr _ 17 number ca hw hw2 hx (by omega)
  unfold ztsInternalHeaderUnpack
  simp only
  rw [if_neg (by omega), hch, Option.bind_some, if_pos h3]
  simp only [List.length_append, List.length_cons] at hlen
  generalize ca.drop (units ++ 0 :: (type ++ 0 :: (zone ++ 0 :: pad))).length = rest
  have a1 := assign_text T.units [] units (type ++ 0 :: (zone ++ 0 :: (pad ++ rest))) (hz _ (by simp)) (by omega)
  have a2 := assign_text T.type (units ++ [0]) type (zone ++ 0 :: (pad ++ rest)) (hz _ (by simp)) (by omega)
  have a3 := assign_text T.zone (units ++ 0 :: (type ++ [0])) zone (pad ++ rest) (hz _ (by simp)) (by omega)
  simp only [List.nil_append, List.length_nil, Nat.zero_add, List.append_assoc, List.length_append, List.cons_append, List.length_cons] at a1 a2 a3
  have eL : units ++ 0 :: (type ++ 0 :: (zone ++ 0 :: pad)) ++ rest = units ++ 0 :: (type ++ 0 :: (zone ++ 0 :: (pad ++ rest))) := by simp
  rw [eL, a1, Option.map_some, Option.bind_some]
  simp only
  rw [a2, Option.bind_some]
  simp only
  rw [show units.length + 1 + type.length + 1 = units.length + (type.length + 1 + 1) by omega] at *
  rw [show units.length + (type.length + 1 + 1) = units.length + (type.length + (0 + 1) + 1) by omega] at *
  rw [a3, Option.map_some]

/-! ### Copying records with old headers -/

theorem trim_trim (s : Bytes) : trim (trim s) = trim s := by
  have h : ∀ x : Bytes, (x.dropWhile (· = 32)).dropWhile (· = 32) = x.dropWhile (· = 32) := by
    intro x
    induction x with
    | nil => rfl
    | cons c cs ih =>
      by_cases hc : c = 32
      · rw [List.dropWhile_cons_of_pos (by simpa using hc)]; exact ih
      · rw [List.dropWhile_cons_of_neg (by simpa using hc), List.dropWhile_cons_of_neg (by simpa using hc)]
  have e : trim s = (rtrim s).dropWhile (· = 32) := trim_rtrim s
  have e2 : rtrim (trim s) = trim s := by rw [e, rtrim_ltrim, rtrim_rtrim]
  rw [trim_rtrim (trim s), e2, e, h]

theorem shown_shown (s : Option Bytes) : shown (shown s) = shown s := by
  unfold shown
  by_cases h : trim (s.getD []) = []
  · rw [if_pos h]; simp [trim]
  · rw [if_neg h, Option.getD_some, trim_trim, if_neg h]

theorem setField_shown (f : Field) (s : Option Bytes) : setField f (shown s) = setField f s := by
  unfold setField; rw [shown_shown]

theorem noZero_shown (s : Bytes) (h : ∀ c ∈ s, c ≠ 0) : NoZero (shown (some s)) := by
  unfold NoZero shown
  intro c hc
  split at hc
  · cases hc
  · simp only [Option.getD_some] at hc
    rw [trim_rtrim] at hc
    have := (List.dropWhile_sublist _).mem hc
    rw [← rtrim_prefix] at this
    exact h c (List.mem_of_mem_take this)

theorem readString_eq (pre t rest : Bytes) (h : ∀ c ∈ t, c ≠ 0) (hne : t ≠ []) :
    readStringFromHeader (pre ++ (t ++ 0 :: rest)) pre.length = some (shown (some t), pre.length + t.length + 1) := by
  unfold readStringFromHeader
  rw [if_neg (by simp only [List.length_append, List.length_cons]; omega), strlenAt_eq pre t rest h, Option.map_some,
    if_neg (by simpa using hne), cstr_at pre t rest h]
  simp only [mallocAndCopyTrim_eq]
  unfold shown
  rw [Option.getD_some]
  by_cases hz : trim t = []
  · rw [if_neg (by rw [trimLength_eq]; simp [(trim_nil_iff t).mp hz]), if_pos hz]
  · rw [if_pos (by rw [trimLength_eq]; simpa using fun h => hz ((trim_nil_iff t).mpr h)), if_neg hz]

/-- C51.  A time series with a header of an older version can be copied: the copy has a header of the new form, and its
units, type and time zone, its precision and its other properties are read like those of the original, if none of the
three strings is empty and they fit. -/
theorem C51_copied_old_header_partial (units type zone pad : Bytes) (hz : ∀ s ∈ [units, type, zone], ∀ c ∈ s, c ≠ 0)
    (hne : ∀ s ∈ [units, type, zone], s ≠ []) (dataType : Int) (hdt : 100 ≤ dataType ∧ dataType ≤ 119)
    (hdr ca : Bytes) (number : Nat) (hn : 18 < number) (hca : ca.length = 200) (h3 : intAt hdr 3 = 0)
    (hx : (hdr.drop 68).take ((number - 17) * 4) = units ++ 0 :: (type ++ 0 :: (zone ++ 0 :: pad)))
    (hlen : (units ++ 0 :: (type ++ 0 :: (zone ++ 0 :: pad))).length ≤ 200)
    (hfit : (([units, type, zone].map fun s => cells (shown (some s)))).sum ≤ 200)
    (hw : (hdr.drop 68).take 4 ≠ List.replicate 4 0) (hw2 : (hdr.drop 68).take 4 ≠ List.replicate 4 32) :
    ∃ h n, convertHeader dataType hdr number ca = some (h, n) ∧ h.length = 4 * n ∧ h.take 68 = hdr.take 68 ∧ unitsHavePadding h 17 = true ∧
      ∀ (T : TsHead) (c : Bytes), c.length = 200 → ztsInternalHeaderUnpack T h n c = ztsInternalHeaderUnpack T hdr number c := by
  have hl68 : 68 ≤ hdr.length := by
    have := congrArg List.length hx
    simp only [List.length_take, List.length_drop, List.length_append, List.length_cons] at this
    omega
  have h68 : (hdr.take 68).length = 68 := by rw [List.length_take]; omega
  let t : TsStrings := ⟨false, shown (some units), none, none, shown (some type), shown (some zone)⟩
  have hst : strings t = [shown (some units), shown (some type), shown (some zone)] := rfl
  have hzt : ∀ s ∈ strings t, NoZero s := by
    rw [hst]
    intro s hs
    simp only [List.mem_cons, List.not_mem_nil, or_false] at hs
    rcases hs with rfl | rfl | rfl
    · exact noZero_shown _ (hz _ (by simp))
    · exact noZero_shown _ (hz _ (by simp))
    · exact noZero_shown _ (hz _ (by simp))
  have hsum : ((strings t).map cells).sum ≤ 200 := by rw [hst]; simpa using hfit
  have hlt := text_length (strings t)
  have hev := text_even (strings t)
  -- the header that is made
  let hdr' : Bytes := hdr.take 68 ++ List.replicate (4 + (text (strings t)).length) 0
  have hl' : hdr'.length = 72 + (text (strings t)).length := by simp only [hdr', List.length_append, h68, List.length_replicate]; omega
  have ht' : hdr'.take 68 = hdr.take 68 := List.take_left' h68
  have hp := pack_text t (List.replicate 300 0) hdr' hzt (by omega) (List.length_replicate ..) (by omega)
  obtain ⟨h, n, e1, el, et, en, hread⟩ := C51_time_series_partial t hzt hsum (List.replicate 300 0) hdr' (List.replicate 200 0) (List.length_replicate ..) (by omega) (List.length_replicate ..)
    (by rw [intAt_congr ht' (by omega)]; simp [h3, t])
  rw [hp] at e1
  simp only [Option.some.injEq, Prod.mk.injEq] at e1
  obtain ⟨eh, en'⟩ := e1
  rw [List.drop_of_length_le (by omega), List.append_nil, ht'] at eh
  refine ⟨h, n, ?_, by omega, by rw [et, ht'], ?_, ?_⟩
  · -- the conversion
    have hu : unitsHavePadding hdr 17 = false := padding_old hdr 17 hw hw2
    unfold convertHeader
    rw [if_pos ⟨hdt.1, hdt.2, hn, hu⟩, hx, List.take_of_length_le (by omega), putBytes_eq _ _ _ (by omega), Option.bind_some]
    simp only [List.take_zero, List.nil_append, Nat.zero_add]
    generalize hca' : (units ++ 0 :: (type ++ 0 :: (zone ++ 0 :: pad))) ++ ca.drop (units ++ 0 :: (type ++ 0 :: (zone ++ 0 :: pad))).length = ca'
    have hcl' : ca'.length = 200 := by rw [← hca', List.length_append, List.length_drop]; omega
    have a1 := readString_eq [] units (type ++ 0 :: (zone ++ 0 :: (pad ++ ca.drop (units ++ 0 :: (type ++ 0 :: (zone ++ 0 :: pad))).length))) (hz _ (by simp)) (hne _ (by simp))
    have a2 := readString_eq (units ++ [0]) type (zone ++ 0 :: (pad ++ ca.drop (units ++ 0 :: (type ++ 0 :: (zone ++ 0 :: pad))).length)) (hz _ (by simp)) (hne _ (by simp))
    have a3 := readString_eq (units ++ 0 :: (type ++ [0])) zone (pad ++ ca.drop (units ++ 0 :: (type ++ 0 :: (zone ++ 0 :: pad))).length) (hz _ (by simp)) (hne _ (by simp))
    have eL : units ++ 0 :: (type ++ 0 :: (zone ++ 0 :: (pad ++ ca.drop (units ++ 0 :: (type ++ 0 :: (zone ++ 0 :: pad))).length))) = ca' := by rw [← hca']; simp
    simp only [List.nil_append, List.length_nil, Nat.zero_add, List.append_assoc, List.cons_append, List.length_append, List.length_cons] at a1 a2 a3
    simp only [List.length_append, List.length_cons] at eL
    rw [eL] at a1 a2 a3
    rw [a1, Option.bind_some]
    simp only
    rw [a2, Option.bind_some]
    simp only
    rw [show units.length + 1 + type.length + 1 = units.length + (type.length + 1 + 1) by omega] at *
    rw [a3, Option.bind_some, hca]
    simp only
    rw [hst] at hzt hlt hev hsum
    simp only [List.map_cons, List.map_nil, List.sum_cons, List.sum_nil] at hsum
    have c1 := cell_length (shown (some units)); have c2 := cell_length (shown (some type)); have c3 := cell_length (shown (some zone))
    obtain ⟨b1, f1, l1, t1⟩ := append_step (shown (some units)) ca' [] 200 (hzt _ (by simp)) rfl (by simp; omega) (by omega)
    obtain ⟨b2, f2, l2, t2⟩ := append_step (shown (some type)) b1 _ 200 (hzt _ (by simp)) t1 (by simp only [List.length_append, List.nil_append]; omega) (by omega)
    obtain ⟨b3, f3, l3, t3⟩ := append_step (shown (some zone)) b2 _ 200 (hzt _ (by simp)) t2 (by simp only [List.length_append, List.nil_append]; omega) (by omega)
    rw [show appendStringToHeader (shown (some units)) ca' 0 200 = _ from f1, Option.bind_some]
    simp only
    rw [f2, Option.bind_some]
    simp only
    rw [f3, Option.bind_some]
    simp only
    have etx : [] ++ cell (shown (some units)) ++ cell (shown (some type)) ++ cell (shown (some zone)) = text (strings t) := by rw [hst]; simp [text]
    rw [etx] at t3 ⊢
    have hnn : nIntsB (text (strings t)).length + 18 = n := by
      rw [← hst] at hev; unfold nIntsB; omega
    rw [hnn, t3, show (n - 17) * 4 = 4 + (text (strings t)).length by rw [← hst] at hev; omega,
      putBytes_eq _ _ _ (by simp only [List.length_append, List.length_replicate]; omega), Option.bind_some,
      if_pos (by rw [← hst] at hlt; rw [l3, l2, l1, hlt, hst]; simp only [List.map_cons, List.map_nil, List.sum_cons, List.sum_nil]; omega),
      putBytes_eq _ _ _ (by simp only [List.length_append, List.length_take, List.length_replicate, List.length_drop]; omega), Option.map_some]
    congr 2
    rw [List.take_left' h68, ← eh]
    have h72 : (hdr.take 68 ++ List.replicate 4 BLANK).length = 72 := by rw [List.length_append, h68, List.length_replicate]
    rw [List.take_left' h72, List.drop_of_length_le (l := _ ++ _ ++ _) (by simp only [List.length_append, List.length_drop, List.length_replicate]; omega),
      List.append_nil]
    rfl
  · have : (h.drop (4 * 17)).take 4 = List.replicate 4 32 := by
      rw [← eh, List.append_assoc, show 4 * 17 = 68 from rfl, List.drop_left' h68, List.take_left' (by simp)]
    unfold unitsHavePadding
    simp only [this]
    rfl
  · intro T c hc
    rw [C51_old_header units type zone pad hz hdr c number hn hc h3 hx hlen hw hw2 T]
    have := C51_time_series_partial t hzt (by rw [hst]; simpa using hfit) (List.replicate 300 0) hdr' c (List.length_replicate ..) (by rw [← hlt]; omega) hc
      (by rw [intAt_congr ht' (by omega)]; simp [h3, t])
    obtain ⟨h2, n2, e1, -, -, -, hread2⟩ := this
    rw [hp] at e1
    simp only [Option.some.injEq, Prod.mk.injEq] at e1
    obtain ⟨eh2, en2⟩ := e1
    rw [List.drop_of_length_le (by omega), List.append_nil, ht', eh] at eh2
    subst eh2
    have en3 : n2 = n := by omega
    subst en3
    rw [hread2 h rfl T]
    simp only [intAt_congr ht' (show 0 < 17 by omega), intAt_congr ht' (show 1 < 17 by omega), intAt_congr ht' (show 2 < 17 by omega), t,
      setField_shown, Bool.false_eq_true, if_false]

end Hec
