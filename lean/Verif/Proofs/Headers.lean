import Verif.Model.Headers
import Verif.Spec.Headers
import Verif.Proofs.Strings
/-! Lemmas about the strings in headers. -/
namespace Hec
set_option linter.unusedSimpArgs false
set_option linter.unusedVariables false
open _root_.Spec (trim shown rtrim cells NoZero Holds setField strings)

theorem copyIn_eq (src b : Bytes) (pos : Nat) (h : pos + src.length ≤ b.length) :
    copyIn b (pos : Int) src = some (b.take pos ++ src ++ b.drop (pos + src.length)) := by
  obtain ⟨b', e1, e2, e3⟩ := copyIn_spec src b pos h
  rw [e1]
  congr 1
  apply List.ext_getElem?
  intro k
  rw [e3 k, List.append_assoc]
  rcases Nat.lt_trichotomy k pos with hk | hk | hk
  · rw [if_neg (by omega), List.getElem?_append_left (by rw [List.length_take]; omega), List.getElem?_take, if_pos hk]
  · subst hk
    rw [List.getElem?_append_right (by rw [List.length_take]; omega), List.length_take, Nat.min_eq_left (by omega), Nat.sub_self]
    cases src with
    | nil => simp
    | cons c cs => simp
  · rw [List.getElem?_append_right (by rw [List.length_take]; omega), List.length_take, Nat.min_eq_left (by omega)]
    split
    · rw [List.getElem?_append_left (by omega)]
    · rw [List.getElem?_append_right (by omega), List.getElem?_drop]
      congr 1; omega

theorem putBytes_eq (src b : Bytes) (pos : Nat) (h : pos + src.length ≤ b.length) :
    putBytes b pos src = some (b.take pos ++ src ++ b.drop (pos + src.length)) := copyIn_eq src b pos h

theorem wr_split (b : Bytes) (pos : Nat) (c : UInt8) (h : pos < b.length) :
    wr b (pos : Int) c = some (b.take pos ++ c :: b.drop (pos + 1)) := by
  unfold wr
  rw [if_pos (by omega)]
  congr 1
  rw [Int.toNat_natCast, List.set_eq_take_append_cons_drop, if_pos h]

/-- stringCopy when everything fits. -/
theorem stringCopy_eq (dst src : Bytes) (n : Nat) (h1 : n ≤ src.length) (h2 : n < dst.length) :
    stringCopy dst src n = some (src.take n ++ 0 :: dst.drop (n + 1), n) := by
  unfold stringCopy
  by_cases h0 : n = 0
  · subst h0
    rw [if_pos rfl, if_pos (by omega)]
    have := wr_split dst 0 0 h2
    rw [show wr dst 0 0 = _ from this]; rfl
  · rw [if_neg h0, if_neg (by omega)]
    simp only
    have e1 : (if n < dst.length - 1 then n else dst.length - 1) = n := by split <;> omega
    rw [e1]
    have e2 : (if src.length < n then src.length else n) = n := by split <;> omega
    rw [e2]
    have hl : (src.take n).length = n := by rw [List.length_take]; omega
    have := copyIn_eq (src.take n) dst 0 (by omega)
    rw [show ((0 : Nat) : Int) = 0 from rfl, hl] at this
    rw [this, Option.bind_some]
    simp only [List.take_zero, List.nil_append, Nat.zero_add]
    rw [wr_split _ n 0 (by simp; omega), Option.map_some]
    congr 2
    rw [List.take_append_of_le_length (by omega), List.take_of_length_le (by omega), List.drop_append, List.drop_of_length_le (by omega)]
    simp only [List.nil_append, hl, List.drop_drop]
    congr 3; omega

theorem stringCopyAt_eq (b src : Bytes) (pos size n : Nat) (h1 : n ≤ src.length) (h2 : pos + n < size) (h3 : size ≤ b.length) :
    stringCopyAt b pos ((size : Int) - pos) src n = some (b.take pos ++ (src.take n ++ 0 :: b.drop (pos + n + 1))) := by
  unfold stringCopyAt
  rw [if_pos (by omega), if_pos (by omega), stringCopy_eq _ _ _ h1 (by rw [List.length_take, List.length_drop]; omega), Option.map_some]
  congr 1
  have : ((size : Int) - pos).toNat = size - pos := by omega
  rw [this]
  simp only [List.append_assoc, List.cons_append]
  congr 3
  rw [List.drop_take, List.drop_drop]
  rw [show pos + (size - pos) = size by omega]
  have e := List.take_append_drop (size - pos - (n + 1)) (b.drop (pos + (n + 1)))
  rw [List.drop_drop, show pos + (n + 1) + (size - pos - (n + 1)) = size by omega] at e
  rw [show pos + n + 1 = pos + (n + 1) by omega]
  simpa using e

theorem trimLength_loop (r : Bytes) : trimLengthLoop r = (r.dropWhile (· = 32)).length := by
  induction r with
  | nil => rfl
  | cons c cs ih =>
    unfold trimLengthLoop
    by_cases h : c = 32
    · rw [if_neg (by simp [h, BLANK]), ih]; simp [h]
    · rw [if_pos (by simpa [BLANK] using h)]; simp [h]

theorem trimLength_eq (s : Bytes) : trimLength s = (rtrim s).length := by
  unfold trimLength rtrim; rw [trimLength_loop, List.length_reverse]

theorem rtrim_prefix (s : Bytes) : s.take (rtrim s).length = rtrim s := by
  unfold rtrim
  have e := List.takeWhile_append_dropWhile (p := fun c : UInt8 => decide (c = 32)) (l := s.reverse)
  have e2 : s = (s.reverse.dropWhile (fun c : UInt8 => decide (c = 32))).reverse ++ (s.reverse.takeWhile (fun c : UInt8 => decide (c = 32))).reverse := by
    rw [← List.reverse_append, e, List.reverse_reverse]
  generalize (s.reverse.dropWhile (fun c : UInt8 => decide (c = 32))).reverse = x at *
  rw [e2, List.take_append_of_le_length (Nat.le_refl _), List.take_length]

theorem rtrim_le (s : Bytes) : (rtrim s).length ≤ s.length := by
  have := congrArg List.length (rtrim_prefix s)
  rw [List.length_take] at this
  omega

/-- What a string becomes in a header. -/
def cell (s : Option Bytes) : Bytes :=
  rtrim (s.getD []) ++ List.replicate (cells s - 1 - (rtrim (s.getD [])).length) 32 ++ [0]

theorem cells_ge (s : Option Bytes) : (rtrim (s.getD [])).length + 1 ≤ cells s := by unfold cells; omega

theorem cell_length (s : Option Bytes) : (cell s).length = cells s := by
  have := cells_ge s
  unfold cell
  simp only [List.length_append, List.length_replicate, List.length_singleton]
  omega

theorem rtrim_blanks (n : Nat) : rtrim (List.replicate n 32) = [] := by
  unfold rtrim
  rw [List.reverse_replicate]
  have : (List.replicate n (32 : UInt8)).dropWhile (fun c => decide (c = 32)) = [] := by
    induction n with
    | zero => rfl
    | succ n ih => simp [List.replicate_succ, ih]
  rw [this]; rfl

theorem zcharTo8Byte_eq (b : Bytes) (s : Bytes) (ipos size : Nat) (hz : ∀ c ∈ s, c ≠ 0) (h : ipos + cells (some s) ≤ size) (hb : size ≤ b.length) :
    zcharTo8Byte b s ipos size = some (b.take ipos ++ cell (some s) ++ b.drop (ipos + cells (some s)), ipos + cells (some s) - 1) := by
  have hge := cells_ge (some s)
  have hj : (trimLength s + 1 + 7) / 8 * 8 = cells (some s) := by
    rw [trimLength_eq]; unfold cells; simp only [Option.getD_some]; omega
  have hle := rtrim_le s
  have hp := rtrim_prefix s
  unfold zcharTo8Byte
  simp only [hj]
  simp only [Option.getD_some] at hge
  have hc : cell (some s) = rtrim s ++ List.replicate (cells (some s) - 1 - (rtrim s).length) 32 ++ [0] := rfl
  split
  · next e =>
    rw [trimLength_eq] at e
    rw [trimLength_eq, stringCopyAt_eq b s ipos size _ hle (by omega) hb, Option.map_some, hp, hc]
    rw [show cells (some s) - 1 - (rtrim s).length = 0 by omega]
    simp only [List.replicate_zero, List.append_nil, List.append_assoc, List.cons_append, List.nil_append]
    congr 2
    · rw [show ipos + cells (some s) = ipos + (rtrim s).length + 1 by omega]
    · omega
  · next e =>
    rw [trimLength_eq] at e ⊢
    rw [stringCopy_eq _ _ _ hle (by rw [List.length_replicate]; omega), Option.bind_some]
    simp only [hp]
    have e1 : (rtrim s ++ 0 :: (List.replicate (cells (some s)) (0 : UInt8)).drop ((rtrim s).length + 1)).take (rtrim s).length = rtrim s := by
      rw [List.take_append_of_le_length (Nat.le_refl _), List.take_length]
    have e2 : (rtrim s ++ 0 :: (List.replicate (cells (some s)) (0 : UInt8)).drop ((rtrim s).length + 1)).drop (cells (some s) - 1) = [0] := by
      rw [List.drop_append, List.drop_of_length_le (by omega), List.nil_append, List.drop_replicate,
        show (0 : UInt8) :: List.replicate (cells (some s) - ((rtrim s).length + 1)) 0 = List.replicate (cells (some s) - ((rtrim s).length + 1) + 1) 0 from rfl,
        List.drop_replicate, show cells (some s) - ((rtrim s).length + 1) + 1 - (cells (some s) - 1 - (rtrim s).length) = 1 by omega]
      rfl
    rw [e1, e2]
    have hcs : cstr (rtrim s ++ List.replicate (cells (some s) - 1 - (rtrim s).length) BLANK ++ [0]) =
        rtrim s ++ List.replicate (cells (some s) - 1 - (rtrim s).length) 32 := by
      apply cstr_holds ⟨[], rfl⟩
      intro c hcm
      rcases List.mem_append.mp hcm with h1 | h1
      · rw [← hp] at h1; exact hz c (List.mem_of_mem_take h1)
      · rw [List.eq_of_mem_replicate h1]; decide
    rw [hcs]
    have hl : (rtrim s ++ List.replicate (cells (some s) - 1 - (rtrim s).length) (32 : UInt8)).length = cells (some s) - 1 := by
      rw [List.length_append, List.length_replicate]; omega
    rw [stringCopyAt_eq b _ ipos size _ (Nat.le_of_eq hl.symm) (by omega) hb, Option.map_some, List.take_of_length_le (Nat.le_of_eq hl), hc]
    simp only [List.append_assoc, List.cons_append, List.nil_append]
    congr 2

theorem append_eq (s : Option Bytes) (b : Bytes) (ipos size : Nat) (hz : NoZero s) (h : ipos + cells s ≤ size) (hb : size ≤ b.length) :
    appendStringToHeader s b ipos size = some (b.take ipos ++ cell s ++ b.drop (ipos + cells s), ipos + cells s) := by
  have key : ∀ t : Bytes, (∀ c ∈ t, c ≠ 0) → cells (some t) = cells s → cell (some t) = cell s →
      (zcharTo8Byte b t ipos size).bind (fun r => if (r.2 : Int) < (size : Int) - 1 then (wr r.1 r.2 0).map fun d => (d, r.2 + 1) else some (r.1, r.2 + 1)) =
      some (b.take ipos ++ cell s ++ b.drop (ipos + cells s), ipos + cells s) := by
    intro t ht h1 h2
    rw [zcharTo8Byte_eq b t ipos size ht (by omega) hb, Option.bind_some, h1, h2]
    simp only
    have hge := cells_ge s
    have hcl := cell_length s
    have e : ipos + cells s - 1 + 1 = ipos + cells s := by omega
    split
    · rw [wr_split _ _ _ (by simp only [List.length_append, List.length_take, List.length_drop, hcl]; omega), Option.map_some, e]
      congr 2
      have e0 : cell s = (cell s).take (cells s - 1) ++ [0] := by
        unfold cell
        rw [List.take_append_of_le_length (by simp only [List.length_append, List.length_replicate]; omega), List.take_of_length_le]
        simp only [List.length_append, List.length_replicate]; omega
      have hm : (b.take ipos).length = ipos := by rw [List.length_take]; omega
      rw [List.append_assoc, List.take_append, List.take_of_length_le (by omega), hm, show ipos + cells s - 1 - ipos = cells s - 1 by omega,
        List.take_append_of_le_length (by omega), List.drop_append, List.drop_of_length_le (by omega), hm,
        show ipos + cells s - ipos = cells s by omega, List.drop_append, List.drop_of_length_le (by omega), hcl, Nat.sub_self]
      simp only [List.nil_append, List.drop_zero]
      conv => rhs; rw [e0]
      simp
    · rw [e]
  unfold appendStringToHeader
  cases s with
  | some t => exact key t hz rfl rfl
  | none =>
    refine key _ (by intro c hc; rw [Option.getD_none] at hc; rw [List.eq_of_mem_replicate hc]; decide) ?_ ?_
    · unfold cells
      simp only [Option.getD_none, Option.getD_some]
      rw [show List.replicate 7 BLANK = List.replicate 7 32 from rfl, rtrim_blanks]; rfl
    · unfold cell cells
      simp only [Option.getD_none, Option.getD_some]
      rw [show List.replicate 7 BLANK = List.replicate 7 32 from rfl, rtrim_blanks]; rfl

/-! ### Reading -/

theorem rtrim_cons (c : UInt8) (cs : Bytes) : rtrim (c :: cs) = if rtrim cs = [] ∧ c = 32 then [] else c :: rtrim cs := by
  unfold rtrim
  rw [List.reverse_cons, List.dropWhile_append]
  by_cases h : cs.reverse.dropWhile (fun c => decide (c = 32)) = []
  · rw [h]
    by_cases hc : c = 32
    · simp [hc]
    · simp [hc]
  · rw [if_neg (by simpa [List.isEmpty_iff] using h), if_neg (by simp [h]), List.reverse_append]; rfl

theorem rtrim_ltrim (s : Bytes) : rtrim (s.dropWhile (· = 32)) = (rtrim s).dropWhile (· = 32) := by
  induction s with
  | nil => rfl
  | cons c cs ih =>
    by_cases hc : c = 32
    · subst hc
      rw [List.dropWhile_cons_of_pos (by simp), ih, rtrim_cons]
      by_cases h : rtrim cs = []
      · simp [h]
      · rw [if_neg (by simp [h]), List.dropWhile_cons_of_pos (by simp)]
    · rw [List.dropWhile_cons_of_neg (by simpa using hc), rtrim_cons, if_neg (by simp [hc]), List.dropWhile_cons_of_neg (by simpa using hc)]

theorem trim_rtrim (s : Bytes) : trim s = (rtrim s).dropWhile (· = 32) := by
  rw [← rtrim_ltrim]; rfl

theorem rtrim_append_blanks (s : Bytes) (n : Nat) : rtrim (s ++ List.replicate n 32) = rtrim s := by
  unfold rtrim
  rw [List.reverse_append, List.reverse_replicate, List.dropWhile_append]
  have : (List.replicate n (32 : UInt8)).dropWhile (fun c => decide (c = 32)) = [] := by
    induction n with
    | zero => rfl
    | succ n ih => simp [List.replicate_succ, ih]
  rw [this]; rfl

theorem rtrim_rtrim (s : Bytes) : rtrim (rtrim s) = rtrim s := by
  unfold rtrim
  rw [List.reverse_reverse]
  congr 1
  cases h : s.reverse.dropWhile (fun c => decide (c = 32)) with
  | nil => rfl
  | cons c cs =>
    have := List.head_dropWhile_not (p := fun c : UInt8 => decide (c = 32)) (l := s.reverse) (by rw [h]; simp)
    simp only [h, List.head_cons] at this
    rw [List.dropWhile_cons_of_neg (by simpa using this)]

theorem dropWhile_eq_nil (s : Bytes) (h : s.dropWhile (· = 32) = []) : s = List.replicate s.length 32 := by
  induction s with
  | nil => rfl
  | cons c cs ih =>
    by_cases hc : c = 32
    · subst hc
      rw [List.dropWhile_cons_of_pos (by simp)] at h
      rw [List.length_cons, List.replicate_succ, ← ih h]
    · rw [List.dropWhile_cons_of_neg (by simpa using hc)] at h; cases h

theorem trim_nil_iff (s : Bytes) : trim s = [] ↔ rtrim s = [] := by
  rw [trim_rtrim]
  constructor
  · intro h
    have := dropWhile_eq_nil _ h
    rw [← rtrim_rtrim, this, rtrim_blanks]
  · intro h; rw [h]; rfl

theorem mallocAndCopyTrim_eq (s : Bytes) : mallocAndCopyTrim s = trim s := trimmed_eq s

/-- The characters of a cell. -/
def body (s : Option Bytes) : Bytes := rtrim (s.getD []) ++ List.replicate (cells s - 1 - (rtrim (s.getD [])).length) 32

theorem body_length (s : Option Bytes) : (body s).length = cells s - 1 := by
  have := cells_ge s
  unfold body; rw [List.length_append, List.length_replicate]; omega

theorem body_zero {s : Option Bytes} (h : NoZero s) : ∀ c ∈ body s, c ≠ 0 := by
  intro c hc
  rcases List.mem_append.mp hc with h1 | h1
  · rw [← rtrim_prefix] at h1; exact h c (List.mem_of_mem_take h1)
  · rw [List.eq_of_mem_replicate h1]; decide

theorem body_trimLength (s : Option Bytes) : (trimLength (body s) ≠ 0) ↔ trim (s.getD []) ≠ [] := by
  rw [trimLength_eq]
  unfold body
  rw [rtrim_append_blanks, rtrim_rtrim, ne_eq, ne_eq, trim_nil_iff, List.length_eq_zero_iff]

theorem body_trim (s : Option Bytes) : mallocAndCopyTrim (body s) = trim (s.getD []) := by
  rw [mallocAndCopyTrim_eq, trim_rtrim]
  unfold body
  rw [rtrim_append_blanks, rtrim_rtrim, ← trim_rtrim]

/-- A text, followed by a zero, in an array. -/
theorem strlenAt_eq (pre t rest : Bytes) (h : ∀ c ∈ t, c ≠ 0) : strlenAt (pre ++ (t ++ 0 :: rest)) pre.length = some t.length := by
  unfold strlenAt
  simp only [List.drop_left]
  rw [if_pos (by simp), cstr_holds ⟨rest, rfl⟩ h]

theorem cstr_at (pre t rest : Bytes) (h : ∀ c ∈ t, c ≠ 0) : cstr ((pre ++ (t ++ 0 :: rest)).drop pre.length) = t := by
  rw [List.drop_left]; exact cstr_holds ⟨rest, rfl⟩ h

theorem strnlenAt_eq (pre t rest : Bytes) (h : ∀ c ∈ t, c ≠ 0) (max : Nat) (hm : t.length < max) :
    strnlenAt (pre ++ (t ++ 0 :: rest)) pre.length max = some t.length := by
  unfold strnlenAt
  simp only [List.drop_left]
  rw [if_pos, cstr_holds ⟨rest, rfl⟩ h]
  rw [List.take_append, List.mem_append]
  right
  rw [show max - t.length = (max - t.length - 1) + 1 by omega, List.take_succ_cons]
  simp

theorem assign_text (f : Field) (pre t rest : Bytes) (h : ∀ c ∈ t, c ≠ 0) (hm : t.length < 199) :
    mallocAndAssignString f (pre ++ (t ++ 0 :: rest)) pre.length = some (setField f (some t), pre.length + t.length + 1) := by
  unfold mallocAndAssignString
  rw [strnlenAt_eq pre t rest h _ hm, Option.bind_some]
  unfold setField shown
  simp only [Option.getD_some]
  by_cases ha : f.allocated = true
  · rw [if_neg (by simp [ha]), if_pos ha]
  · simp only [ha, Bool.false_eq_true, if_false]
    by_cases ht : t = []
    · subst ht; simp [trim]
    · have : t.length > 0 := List.length_pos_iff.mpr ht
      rw [if_pos ⟨by simp, this⟩, strlenAt_eq pre t rest h, Option.map_some, cstr_at pre t rest h]
      rw [mallocAndCopyTrim_eq]
      by_cases hz : trim t = []
      · rw [if_neg (by rw [trimLength_eq]; simp [(trim_nil_iff t).mp hz]), if_pos hz]
      · rw [if_pos (by rw [trimLength_eq]; simpa using fun h => hz ((trim_nil_iff t).mpr h)), if_neg hz]

theorem setField_body (f : Field) (s : Option Bytes) : setField f (some (body s)) = setField f s := by
  unfold setField shown
  have : trim ((some (body s)).getD []) = trim (s.getD []) := by rw [Option.getD_some, ← mallocAndCopyTrim_eq, body_trim]
  rw [this]

theorem cell_body (s : Option Bytes) : cell s = body s ++ [0] := rfl

theorem assign_cell (f : Field) (pre : Bytes) (s : Option Bytes) (rest : Bytes) (h : NoZero s) (hm : cells s < 200) :
    mallocAndAssignString f (pre ++ (cell s ++ rest)) pre.length = some (setField f s, pre.length + cells s) := by
  have := cells_ge s
  have e := assign_text f pre (body s) rest (body_zero h) (by rw [body_length]; omega)
  rw [setField_body, body_length] at e
  rw [cell_body, List.append_assoc, List.singleton_append, e]
  congr 2

theorem append_step (s : Option Bytes) (b P : Bytes) (size : Nat) (hz : NoZero s) (hP : b.take P.length = P) (h : P.length + cells s ≤ size)
    (hb : size ≤ b.length) : ∃ b', appendStringToHeader s b P.length size = some (b', (P ++ cell s).length) ∧ b'.length = b.length ∧
      b'.take (P ++ cell s).length = P ++ cell s := by
  have hcl := cell_length s
  have e := append_eq s b P.length size hz h hb
  rw [hP] at e
  refine ⟨_, by rw [e, List.length_append, hcl], ?_, ?_⟩
  · simp only [List.length_append, List.length_drop, hcl]; omega
  · rw [List.take_append_of_le_length (Nat.le_refl _), List.take_length]

/-- All strings, one after the other. -/
def text (l : List (Option Bytes)) : Bytes := l.flatMap cell

theorem text_length (l : List (Option Bytes)) : (text l).length = (l.map cells).sum := by
  induction l with
  | nil => rfl
  | cons a l ih => simp only [text, List.flatMap_cons, List.length_append, List.map_cons, List.sum_cons] at *; rw [ih, cell_length]

theorem text_even (l : List (Option Bytes)) : (text l).length % 8 = 0 := by
  rw [text_length]
  induction l with
  | nil => rfl
  | cons a l ih =>
    simp only [List.map_cons, List.sum_cons]
    have : cells a % 8 = 0 := by unfold cells; omega
    omega

theorem pack_text (t : TsStrings) (carray hdr : Bytes) (hz : ∀ s ∈ strings t, NoZero s) (hs : (text (strings t)).length ≤ 296) (hc : carray.length = 300)
    (hh : 72 + (text (strings t)).length ≤ hdr.length) :
    ztsInternalHeaderPack t carray hdr = some (hdr.take 68 ++ List.replicate 4 32 ++ text (strings t) ++ hdr.drop (72 + (text (strings t)).length),
      (text (strings t)).length / 4 + 18) := by
  have hev := text_even (strings t)
  have hput : ∀ b : Bytes, b.take (text (strings t)).length = text (strings t) →
      ((putBytes hdr 68 (List.replicate 4 BLANK)).bind fun h => (putBytes h 72 (b.take (text (strings t)).length)).map fun h => (h, nIntsB (text (strings t)).length + 18)) =
      some (hdr.take 68 ++ List.replicate 4 32 ++ text (strings t) ++ hdr.drop (72 + (text (strings t)).length), (text (strings t)).length / 4 + 18) := by
    intro b hb
    rw [hb, putBytes_eq _ _ _ (by rw [List.length_replicate]; omega), Option.bind_some]
    have hl : (hdr.take 68 ++ List.replicate 4 BLANK).length = 72 := by rw [List.length_append, List.length_take, List.length_replicate]; omega
    rw [putBytes_eq _ _ _ (by rw [List.length_append, hl, List.length_drop, List.length_replicate]; omega), Option.map_some]
    congr 2
    · rw [List.take_append_of_le_length (by omega), List.take_of_length_le (by omega), List.drop_append, List.drop_of_length_le (by omega), hl,
        List.drop_drop, List.length_replicate, List.nil_append]
      congr 2; omega
    · unfold nIntsB; omega
  unfold ztsInternalHeaderPack
  simp only
  unfold strings at *
  by_cases hp : t.profile = true
  · rw [if_pos hp] at hput hz hs hh hev ⊢
    simp only [hp, if_true] at *
    simp only [text, List.flatMap_cons, List.flatMap_nil, List.append_nil, List.length_append] at hs
    obtain ⟨b1, e1, l1, t1⟩ := append_step t.unitsDepths carray [] 298 (hz _ (by simp)) rfl (by have := cell_length t.unitsDepths; simp; omega) (by omega)
    obtain ⟨b2, e2, l2, t2⟩ := append_step t.unitsValues b1 _ 298 (hz _ (by simp)) t1
      (by have := cell_length t.unitsValues; simp only [List.length_append, List.nil_append]; omega) (by omega)
    obtain ⟨b3, e3, l3, t3⟩ := append_step t.type b2 _ 298 (hz _ (by simp)) t2
      (by have := cell_length t.type; simp only [List.length_append, List.nil_append]; omega) (by omega)
    obtain ⟨b4, e4, l4, t4⟩ := append_step t.zone b3 _ 298 (hz _ (by simp)) t3
      (by have := cell_length t.zone; simp only [List.length_append, List.nil_append]; omega) (by omega)
    rw [show appendStringToHeader t.unitsDepths carray 0 298 = _ from e1, Option.bind_some, e2, Option.bind_some]
    simp only
    rw [if_neg (by simp only [List.length_append, List.nil_append]; omega), e3, Option.bind_some]
    simp only
    rw [if_neg (by simp only [List.length_append, List.nil_append]; omega), e4, Option.bind_some]
    simp only
    rw [if_neg (by simp only [List.length_append, List.nil_append]; omega)]
    have et : [] ++ cell t.unitsDepths ++ cell t.unitsValues ++ cell t.type ++ cell t.zone = text [t.unitsDepths, t.unitsValues, t.type, t.zone] := by
      simp [text]
    rw [et] at t4 ⊢
    exact hput b4 t4
  · rw [if_neg hp] at hput hz hs hh hev ⊢
    simp only [hp, if_false] at *
    simp only [text, List.flatMap_cons, List.flatMap_nil, List.append_nil, List.length_append] at hs
    obtain ⟨b1, e1, l1, t1⟩ := append_step t.units carray [] 298 (hz _ (by simp)) rfl (by have := cell_length t.units; simp; omega) (by omega)
    obtain ⟨b3, e3, l3, t3⟩ := append_step t.type b1 _ 298 (hz _ (by simp)) t1
      (by have := cell_length t.type; simp only [List.length_append, List.nil_append]; omega) (by omega)
    obtain ⟨b4, e4, l4, t4⟩ := append_step t.zone b3 _ 298 (hz _ (by simp)) t3
      (by have := cell_length t.zone; simp only [List.length_append, List.nil_append]; omega) (by omega)
    rw [show appendStringToHeader t.units carray 0 298 = _ from e1]
    simp only [Option.bind_some, Bool.false_eq_true, if_false]
    rw [if_neg (by simp only [List.length_append, List.nil_append]; omega), e3, Option.bind_some]
    simp only
    rw [if_neg (by simp only [List.length_append, List.nil_append]; omega), e4, Option.bind_some]
    simp only
    rw [if_neg (by simp only [List.length_append, List.nil_append]; omega)]
    have et : [] ++ cell t.units ++ cell t.type ++ cell t.zone = text [t.units, t.type, t.zone] := by
      simp [text]
    rw [et] at t4 ⊢
    exact hput b4 t4

/-- Reading the characters of a header that begins like the one that was written. -/
theorem headChars_new (h x : Bytes) (pos number : Nat) (ca : Bytes) (hn : 4 * number = 4 * (pos + 1) + x.length) (hx : 0 < x.length)
    (h1 : (h.drop (4 * pos)).take (4 + x.length) = List.replicate 4 32 ++ x) (hc : x.length ≤ ca.length) :
    headChars h pos number ca = some (x ++ ca.drop x.length) := by
  have e1 : (h.drop (4 * pos)).take 4 = List.replicate 4 32 := by
    have := congrArg (List.take 4) h1
    rw [List.take_take, Nat.min_eq_left (by omega)] at this
    rw [this]; rfl
  have e2 : (h.drop (4 * (pos + 1))).take x.length = x := by
    have := congrArg (List.drop 4) h1
    rw [List.drop_take, List.drop_drop] at this
    rw [show 4 * (pos + 1) = 4 * pos + 4 by omega, show x.length = 4 + x.length - 4 by omega, this]; rfl
  unfold headChars
  rw [if_neg (by unfold unitsHavePadding; rw [e1]; simp [BLANK]), if_neg (by omega), show (number - pos - 1) * 4 = x.length by omega, e2,
    List.take_of_length_le hc, putBytes_eq _ _ _ (by omega)]
  simp

theorem intAt_congr {a b : Bytes} {i : Nat} (h : a.take 68 = b.take 68) (hi : i < 17) : intAt a i = intAt b i := by
  unfold intAt
  have : ∀ x : Bytes, (x.drop (4 * i)).take 4 = ((x.take 68).drop (4 * i)).take 4 := by
    intro x; rw [List.drop_take, List.take_take, Nat.min_eq_left (by omega)]
  rw [this a, this b, h]

end Hec
