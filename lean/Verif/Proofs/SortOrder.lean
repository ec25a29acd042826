import Verif.Proofs.SortCat
import Verif.Spec.SortCat
import Verif.Proofs.Strings
/-! The order of the sorted lines. -/
namespace Hec
set_option linter.unusedSimpArgs false
set_option linter.unusedVariables false
open _root_.Spec (join SixParts PlainPart SeriesBlock)

theorem memLe_refl (a : Bytes) : memLe a a = true := by
  induction a with
  | nil => rfl
  | cons x a ih => simp [memLe, ih]

theorem memLe_trans : ∀ (a b c : Bytes), memLe a b = true → memLe b c = true → memLe a c = true := by
  intro a
  induction a with
  | nil => intros; simp [memLe]
  | cons x a ih =>
    intro b c h1 h2
    cases b with
    | nil => simp [memLe] at h1
    | cons y b =>
      cases c with
      | nil => simp [memLe] at h2
      | cons z c =>
        simp only [memLe] at h1 h2 ⊢
        by_cases hxy : x = y
        · subst hxy
          by_cases hxz : x = z
          · subst hxz; simp only [if_true] at *; exact ih b c h1 h2
          · simp only [if_true, if_neg hxz] at *; exact h2
        · by_cases hyz : y = z
          · subst hyz; simp only [if_true, if_neg hxy] at *; exact h1
          · simp only [if_neg hxy, if_neg hyz, decide_eq_true_eq] at h1 h2
            have hxz : x ≠ z := by rintro rfl; omega
            rw [if_neg hxz, decide_eq_true_eq]; omega

theorem memLe_total : ∀ (a b : Bytes), (memLe a b || memLe b a) = true := by
  intro a
  induction a with
  | nil => intros; simp [memLe]
  | cons x a ih =>
    intro b
    cases b with
    | nil => simp [memLe]
    | cons y b =>
      simp only [memLe]
      by_cases hxy : x = y
      · subst hxy; simp only [if_true]; exact ih b
      · have hne : x.toNat ≠ y.toNat := fun h => hxy (UInt8.toNat_inj.mp h)
        simp only [if_neg hxy, if_neg (Ne.symm hxy), Bool.or_eq_true, decide_eq_true_eq]
        omega

theorem signed_inj {x y : UInt8} (h : signedByte x = signedByte y) : x = y := by
  have h1 := x.toNat_lt
  have h2 := y.toNat_lt
  unfold signedByte at h
  apply UInt8.toNat_inj.mp
  split at h <;> split at h <;> omega

theorem lineLe_trans (a b c : Bytes) (h1 : lineLe a b = true) (h2 : lineLe b c = true) : lineLe a c = true := by
  cases a with
  | nil => rfl
  | cons x a =>
    cases b with
    | nil => simp [lineLe] at h1
    | cons y b =>
      cases c with
      | nil => simp [lineLe] at h2
      | cons z c =>
        simp only [lineLe] at h1 h2 ⊢
        by_cases hxy : x = y
        · subst hxy
          by_cases hxz : x = z
          · subst hxz; simp only [if_true] at *; exact memLe_trans a b c h1 h2
          · simp only [if_true, if_neg hxz] at *; exact h2
        · by_cases hyz : y = z
          · subst hyz; simp only [if_true, if_neg hxy] at *; exact h1
          · simp only [if_neg hxy, if_neg hyz, decide_eq_true_eq] at h1 h2
            have hxz : x ≠ z := by rintro rfl; omega
            rw [if_neg hxz, decide_eq_true_eq]; omega

theorem lineLe_total (a b : Bytes) : (lineLe a b || lineLe b a) = true := by
  cases a with
  | nil => simp [lineLe]
  | cons x a =>
    cases b with
    | nil => simp [lineLe]
    | cons y b =>
      simp only [lineLe]
      by_cases hxy : x = y
      · subst hxy; simp only [if_true]; exact memLe_total a b
      · have hne : signedByte x ≠ signedByte y := fun h => hxy (signed_inj h)
        simp only [if_neg hxy, if_neg (Ne.symm hxy), Bool.or_eq_true, decide_eq_true_eq]
        omega

/-- A line for a row, under some property of the widths. -/
def LineOf (e : SortEnv) (P : (Nat → Nat) → Prop) (l : Bytes) (r : CatRow) : Prop := ∃ (w : Nat → Nat) (n : Nat), P w ∧ l = (sortText e w r n).1

theorem texts_lines (e : SortEnv) (P : (Nat → Nat) → Prop) (rows : List CatRow) : ∀ (w : Nat → Nat) (index : Nat),
    (∀ r ∈ rows, ∀ v n, P v → P (sortText e v r n).2) → P w → ∀ (i : Nat) (l : Bytes), (sortTexts e w index rows)[i]? = some l → ∃ r, rows[i]? = some r ∧ LineOf e P l r := by
  induction rows with
  | nil => intro w index _ _ i l h; simp [sortTexts] at h
  | cons r rows ih =>
    intro w index hP hw i l h
    cases i with
    | zero =>
      simp only [sortTexts, List.getElem?_cons_zero, Option.some.injEq] at h
      exact ⟨r, by simp, w, index, hw, h.symm⟩
    | succ i =>
      simp only [sortTexts, List.getElem?_cons_succ] at h ⊢
      exact ih _ _ (fun x hx => hP x (by simp [hx])) (hP r (by simp) w index hw) i l h

theorem sortFully_order (s : Eng) (h : SortHdr) (e : SortEnv) (rows : List CatRow) (hr : ∀ r ∈ rows, Sortable r.path) (hw : lineWidth e.width ≤ 380)
    (hn : rows.length ≤ 10 ^ 10) (P : (Nat → Nat) → Prop) (hP : ∀ r ∈ rows, ∀ v n, P v → P (sortText e v r n).2) (hP0 : P e.width) {out : List CatRow}
    (ho : (sortFully s h e rows).rows = out.map some) :
    out.Pairwise fun r r' => r ∈ rows ∧ r' ∈ rows ∧ ∃ l l', LineOf e P l r ∧ LineOf e P l' r' ∧ lineLe l l' = true := by
  obtain ⟨h1, h2, h3⟩ := sortTexts_ok e rows e.width 0 hr hw (by omega)
  let T := sortTexts e e.width 0 rows
  let S := T.mergeSort lineLe
  have hp : S.Perm T := List.mergeSort_perm _ _
  have hs : sortfiles (linesFile T) = linesFile S := by
    unfold sortfiles
    rw [splitLines_file T (fun l hl => (h1 l hl).1)]
  have hrd := readSequence_file S (fun l hl => h1 l (hp.mem_iff.mp hl))
  rw [hp.length_eq, h3] at hrd
  have hout : out.map some = S.map fun l => rowNumber rows (getLastInt (upToZero (l ++ [10]))) := by
    rw [← ho]
    unfold sortFully
    rw [hs, hrd]
    simp only [List.map_map]
    rfl
  have hline : ∀ l ∈ S, ∃ r, rowNumber rows (getLastInt (upToZero (l ++ [10]))) = some r ∧ r ∈ rows ∧ LineOf e P l r := by
    intro l hl
    have hl' := hp.mem_iff.mp hl
    obtain ⟨i, hi, hil⟩ := List.getElem_of_mem hl'
    have hi' : T[i]? = some l := by rw [List.getElem?_eq_getElem hi, hil]
    obtain ⟨r, hr1, hr2⟩ := texts_lines e P rows e.width 0 hP hP0 i l hi'
    have hnum : getLastInt (upToZero (l ++ [10])) = (i : Int) := by
      have := congrArg (fun x : List Int => x[i]?) h2
      simp only [List.getElem?_map] at this
      rw [show (sortTexts e e.width 0 rows)[i]? = some l from hi'] at this
      have hi2 : i < rows.length := by rw [← h3]; exact hi
      rw [List.getElem?_range' (by omega)] at this
      simpa using this
    refine ⟨r, ?_, List.mem_of_getElem? hr1, hr2⟩
    rw [hnum]
    unfold rowNumber
    rw [if_pos (by omega)]
    simpa using hr1
  have hsorted : S.Pairwise (fun a b => lineLe a b = true) := List.pairwise_mergeSort lineLe_trans lineLe_total T
  have key : (out.map some).Pairwise fun x y => ∃ r r', x = some r ∧ y = some r' ∧ r ∈ rows ∧ r' ∈ rows ∧
      ∃ l l', LineOf e P l r ∧ LineOf e P l' r' ∧ lineLe l l' = true := by
    rw [hout, List.pairwise_map]
    refine List.Pairwise.imp_of_mem ?_ hsorted
    intro a b ha hb hab
    obtain ⟨r, r1, r2, r3⟩ := hline a ha
    obtain ⟨r', r1', r2', r3'⟩ := hline b hb
    exact ⟨r, r', r1, r1', r2, r2', a, b, r3, r3', hab⟩
  rw [List.pairwise_map] at key
  refine key.imp ?_
  rintro a b ⟨r, r', e1, e2, k⟩
  simp only [Option.some.injEq] at e1 e2
  subst e1; subst e2
  exact k

/-! ### Columns -/

/-- A text in a column of `w` characters. -/
def inColumn (w : Nat) (f : Bytes) : Bytes := f.take w ++ List.replicate (w - f.length) 32

theorem inColumn_length (w : Nat) (f : Bytes) : (inColumn w f).length = w := by
  unfold inColumn; simp; omega

theorem layFields_columns (fs : List (Bytes × Nat)) : ∀ (col : Nat) (acc : Bytes), acc.length ≤ col →
    layFields fs col acc = acc ++ List.replicate (col - acc.length) 32 ++ fs.flatMap fun f => inColumn f.2 f.1 := by
  induction fs with
  | nil => intro col acc _; simp [layFields]
  | cons f fs ih =>
    obtain ⟨f, w⟩ := f
    intro col acc h
    simp only [layFields]
    rw [ih]
    · simp only [List.flatMap_cons, inColumn, List.append_assoc, List.length_append, List.length_replicate, List.length_take]
      rw [show col + w - (acc.length + (col - acc.length + min w f.length)) = w - f.length by omega]
    · simp only [List.length_append, List.length_replicate, List.length_take]; omega

theorem memLe_split {x y : Bytes} (h : x.length = y.length) : ∀ {r t : Bytes}, memLe (x ++ r) (y ++ t) = true →
    (x = y ∧ memLe r t = true) ∨ (x ≠ y ∧ memLe x y = true) := by
  induction x generalizing y with
  | nil =>
    intro r t hm
    cases y with
    | nil => exact Or.inl ⟨rfl, hm⟩
    | cons _ _ => simp at h
  | cons a x ih =>
    intro r t hm
    cases y with
    | nil => simp at h
    | cons b y =>
      simp only [List.length_cons, Nat.add_right_cancel_iff] at h
      simp only [List.cons_append, memLe] at hm ⊢
      by_cases hab : a = b
      · subst hab
        simp only [if_true] at hm ⊢
        rcases ih h hm with ⟨e1, e2⟩ | ⟨e1, e2⟩
        · exact Or.inl ⟨by rw [e1], e2⟩
        · exact Or.inr ⟨fun h => e1 (List.cons.inj h).2, e2⟩
      · simp only [if_neg hab] at hm ⊢
        exact Or.inr ⟨fun h => hab (List.cons.inj h).1, hm⟩

/-- Texts of characters from the blank on, that do not end with a blank. -/
def Wordy (f : Bytes) : Prop := (∀ b ∈ f, 32 ≤ b.toNat) ∧ ∀ g : Bytes, f ≠ g ++ [32]

theorem Wordy.tail {b : UInt8} {f : Bytes} (h : Wordy (b :: f)) : Wordy f :=
  ⟨fun x hx => h.1 x (by simp [hx]), fun g hg => h.2 (b :: g) (by rw [hg]; rfl)⟩

theorem not_blanks {f : Bytes} (h : Wordy f) : ∀ n, f ≠ List.replicate (n + 1) 32 := by
  intro n he
  exact h.2 (List.replicate n 32) (by rw [he, List.replicate_succ'])

theorem column_blank {w : Nat} : ∀ {x : Bytes}, Wordy x → x.length ≤ w → inColumn w x = List.replicate w 32 → x = [] := by
  intro x hx hl h
  cases hx0 : x with
  | nil => rfl
  | cons b f =>
    exfalso
    have : x = List.replicate x.length 32 := by
      unfold inColumn at h
      rw [List.take_of_length_le hl] at h
      have := congrArg (List.take x.length) h
      rw [List.take_append_of_le_length (by omega), List.take_of_length_le (by omega), List.take_replicate] at this
      rw [this]; simp
    exact not_blanks hx f.length (by rw [this, hx0]; simp)

theorem column_inj {w : Nat} : ∀ {x y : Bytes}, Wordy x → Wordy y → x.length ≤ w → y.length ≤ w → inColumn w x = inColumn w y → x = y := by
  induction w with
  | zero => intro x y _ _ h1 h2 _; rw [List.length_eq_zero_iff.mp (by omega : x.length = 0), List.length_eq_zero_iff.mp (by omega : y.length = 0)]
  | succ w ih =>
    intro x y hx hy h1 h2 h
    cases x with
    | nil =>
      have : inColumn (w + 1) y = List.replicate (w + 1) 32 := by rw [← h]; simp [inColumn]
      exact (column_blank hy h2 this).symm
    | cons a x =>
      cases y with
      | nil =>
        have : inColumn (w + 1) (a :: x) = List.replicate (w + 1) 32 := by rw [h]; simp [inColumn]
        exact column_blank hx h1 this
      | cons b y =>
        simp only [inColumn, List.take_succ_cons, List.length_cons, Nat.add_sub_add_right, List.cons_append, List.cons.injEq] at h
        simp only [List.length_cons, Nat.add_le_add_iff_right] at h1 h2
        rw [h.1, ih hx.tail hy.tail h1 h2 h.2]

theorem lt_cons_iff {a b : UInt8} {x y : Bytes} : (a :: x < b :: y) ↔ a < b ∨ a = b ∧ x < y := List.cons_lt_cons_iff

theorem column_lt {w : Nat} : ∀ {x y : Bytes}, (∀ b ∈ x, 32 ≤ b.toNat) → x.length ≤ w → y.length ≤ w → inColumn w x ≠ inColumn w y →
    memLe (inColumn w x) (inColumn w y) = true → x < y := by
  induction w with
  | zero => intro x y _ h1 h2 hne _; exact absurd (by rw [List.length_eq_zero_iff.mp (by omega : x.length = 0), List.length_eq_zero_iff.mp (by omega : y.length = 0)]) hne
  | succ w ih =>
    intro x y hx h1 h2 hne h
    cases x with
    | nil =>
      cases y with
      | nil => exact absurd rfl hne
      | cons b y => exact List.Lex.nil
    | cons a x =>
      have ha := hx a (by simp)
      cases y with
      | nil =>
        simp only [inColumn, List.take_succ_cons, List.length_cons, Nat.add_sub_add_right, List.cons_append, List.take_nil, List.nil_append, List.length_nil,
          Nat.sub_zero, List.replicate_succ, memLe] at h
        by_cases ha32 : a = 32
        · subst ha32
          simp only [if_true] at h
          exfalso
          have hne' : inColumn w x ≠ inColumn w [] := by
            intro he
            apply hne
            simp only [inColumn, List.take_succ_cons, List.length_cons, Nat.add_sub_add_right, List.cons_append, List.take_nil, List.nil_append, List.length_nil,
              Nat.sub_zero, List.replicate_succ] at he ⊢
            rw [he]
          have := ih (x := x) (y := []) (fun b hb => hx b (by simp [hb])) (by simpa using h1) (by simp) hne' (by simpa [inColumn] using h)
          exact absurd this (List.not_lt_nil _)
        · simp only [if_neg ha32, decide_eq_true_eq] at h
          simp at h
          omega
      | cons b y =>
        simp only [inColumn, List.take_succ_cons, List.length_cons, Nat.add_sub_add_right, List.cons_append, memLe] at h hne
        simp only [List.length_cons, Nat.add_le_add_iff_right] at h1 h2
        rw [lt_cons_iff]
        by_cases hab : a = b
        · subst hab
          simp only [if_true] at h
          exact Or.inr ⟨rfl, ih (fun b hb => hx b (by simp [hb])) h1 h2 (fun he => hne (congrArg (a :: ·) he)) h⟩
        · simp only [if_neg hab, decide_eq_true_eq] at h
          exact Or.inl (by rw [UInt8.lt_iff_toNat_lt]; exact h)

theorem digits_lt : ∀ {x y : Bytes} (a b : Nat), AllDigits x → AllDigits y → x.length = y.length → a ≤ b → x < y ∨ a < b →
    x.foldl (fun a c => a * 10 + (c.toNat - 48)) a < y.foldl (fun a c => a * 10 + (c.toNat - 48)) b := by
  intro x
  induction x with
  | nil =>
    intro y a b _ _ hl hab h
    cases y with
    | nil => rcases h with h | h; exact absurd h (List.not_lt_nil _); simpa using h
    | cons _ _ => simp at hl
  | cons c x ih =>
    intro y a b hx hy hl hab h
    cases y with
    | nil => simp at hl
    | cons d y =>
      simp only [List.length_cons, Nat.add_right_cancel_iff] at hl
      simp only [List.foldl_cons]
      have hc := hx c (by simp)
      have hd := hy d (by simp)
      unfold isDigit at hc hd
      simp only [decide_eq_true_eq, UInt8.le_iff_toNat_le] at hc hd
      have hc' : 48 ≤ c.toNat ∧ c.toNat ≤ 57 := hc
      have hd' : 48 ≤ d.toNat ∧ d.toNat ≤ 57 := hd
      have tx : AllDigits x := fun z hz => hx z (by simp [hz])
      have ty : AllDigits y := fun z hz => hy z (by simp [hz])
      rcases h with h | h
      · rcases lt_cons_iff.mp h with h | ⟨rfl, h3⟩
        · rw [UInt8.lt_iff_toNat_lt] at h
          exact ih _ _ tx ty hl (by omega) (Or.inr (by omega))
        · exact ih _ _ tx ty hl (by omega) (Or.inl h3)
      · exact ih _ _ tx ty hl (by omega) (Or.inr (by omega))

theorem tenDigits_lt {n m : Nat} (hn : n < 10 ^ 10) (hm : m < 10 ^ 10) (h : tenDigits (n : Int) < tenDigits (m : Int)) : n < m := by
  have h1 : digitsValue (tenDigits (n : Int)) = n := by rw [tenDigits_nat, zeroPad_value, decimal_value n hn]
  have h2 : digitsValue (tenDigits (m : Int)) = m := by rw [tenDigits_nat, zeroPad_value, decimal_value m hm]
  have d : ∀ k : Nat, AllDigits (tenDigits (k : Int)) := fun k => by rw [tenDigits_nat]; exact zeroPad_digits _ _ (decimal_digits k)
  have := digits_lt 0 0 (d n) (d m) (by rw [tenDigits_length, tenDigits_length]) (Nat.le_refl 0) (Or.inl h)
  rw [← h1, ← h2]
  exact this

theorem tenDigits_inj {n m : Nat} (hn : n < 10 ^ 10) (hm : m < 10 ^ 10) (h : tenDigits (n : Int) = tenDigits (m : Int)) : n = m := by
  have h1 : digitsValue (tenDigits (n : Int)) = n := by rw [tenDigits_nat, zeroPad_value, decimal_value n hn]
  have h2 : digitsValue (tenDigits (m : Int)) = m := by rw [tenDigits_nat, zeroPad_value, decimal_value m hm]
  rw [← h1, ← h2, h]

/-- A blank and ten digits. -/
theorem number_wordy (n : Nat) : Wordy (32 :: tenDigits (n : Int)) := by
  have d : AllDigits (tenDigits (n : Int)) := by rw [tenDigits_nat]; exact zeroPad_digits _ _ (decimal_digits n)
  have hl := tenDigits_length n
  constructor
  · intro b hb
    rcases List.mem_cons.mp hb with rfl | hb
    · decide
    · have := d b hb
      unfold isDigit at this
      simp only [decide_eq_true_eq, UInt8.le_iff_toNat_le] at this
      have h2 : 48 ≤ b.toNat := this.1
      omega
  · intro g hg
    have hne : tenDigits (n : Int) ≠ [] := fun h => by rw [h] at hl; simp at hl
    have h1 := congrArg List.getLast? hg
    rw [List.getLast?_append] at h1
    simp only [List.getLast?_singleton, Option.some_or] at h1
    rw [List.getLast?_cons_of_ne_nil hne] at h1
    have := d 32 (List.mem_of_getLast? h1)
    exact absurd this (by decide)

theorem plain_wordy {p : Bytes} (h : PlainPart p) : Wordy p :=
  ⟨fun b hb => (h.1 b hb).1, fun g hg => h.2 (by rw [hg, List.getLast?_append]; rfl)⟩

/-! ### The lines of rows -/

theorem sortPart_join {ps : List Bytes} (h6 : SixParts ps) (junk : Int) (k : Nat) (hk : k < 6) :
    sortPart (join ps) (zpathnamePartPositions (join ps) junk) k = ps.getD k [] := by
  obtain ⟨hl, hp⟩ := h6
  have hil : k < ps.length := by omega
  have hns : ∀ p ∈ ps, ∀ c ∈ p, c ≠ 47 := fun p h c hc => (hp p h c hc).1
  unfold sortPart
  rw [positions_join ps hl hns junk _ (by omega), positions_join ps hl hns junk _ (by omega)]
  simp only [Option.getD_some]
  have hs := partStart_succ hil
  generalize hA : partStart ps k = A at hs
  generalize hB : partStart ps (k + 1) = B at hs
  have hlen : (B : Int) - A - 1 = (ps[k]'hil).length := by omega
  rw [hlen]
  have hdrop : (join ps).drop A = ps[k]'hil ++ 47 :: (ps.drop (k + 1)).flatMap (· ++ [47]) := by
    conv => lhs; rw [join_split ps k hil, List.append_assoc]
    have := join_take_length ps k (by omega)
    rw [List.drop_append, this, hA, List.drop_of_length_le (by omega)]
    simp
  rw [show (A : Int).toNat = A by omega, hdrop, show (((ps[k]'hil).length : Nat) : Int).toNat = (ps[k]'hil).length by omega, List.take_append_of_le_length (by omega)]
  rw [List.take_of_length_le (by omega), List.getD_eq_getElem?_getD, List.getElem?_eq_getElem hil]
  rfl

theorem six_sortable {ps : List Bytes} (h6 : SixParts ps) : sixParts (join ps) = true := by
  have hp' : ∀ q ∈ ps, ∀ b ∈ q, b ≠ 47 := fun q hq b hb => (h6.2 q hq b hb).1
  unfold sixParts zpathnamePartLengths join
  simp only [List.drop_succ_cons, List.drop_zero, show ¬ ((6 : Nat) > 6) from by omega, if_false]
  have h2 := partLengths_join ps hp' 1 [] 6 (by simp; have := h6.1; omega)
  simp only [List.nil_append] at h2
  rw [show (1 : Int) - 1 = 0 from rfl] at h2
  rw [h2]
  simp [h6.1]

/-- The columns of a line; the line is not cut. -/
theorem fixedLine_columns {w : Nat → Nat} {k : (Nat → Bytes) × List Nat × (Nat → Nat)} (hk : KeyOK w k) (hw : lineWidth w ≤ 380) (n : Nat) :
    fixedLine k.1 k.2.1 k.2.2 n = (k.2.1.flatMap fun i => inColumn (k.2.2 i + 1) (k.1 i)) ++ (32 :: tenDigits (n : Int) ++ [0]) := by
  obtain ⟨K, k1, k2, k3, k4⟩ := fixedLine_ok hk hw n
  have hcut : ∀ K' : Bytes, (K' ++ 32 :: tenDigits (n : Int)).take 788 ++ [0] = K ++ 32 :: tenDigits (n : Int) ++ [0] → K.length ≤ 386 → K' = K := by
    intro K' h hK
    have h1 : (K' ++ 32 :: tenDigits (n : Int)).take 788 = K ++ 32 :: tenDigits (n : Int) := List.append_cancel_right h
    have hlen := congrArg List.length h1
    have ht := tenDigits_length n
    simp only [List.length_take, List.length_append, List.length_cons, ht] at hlen
    rw [List.take_of_length_le (by simp only [List.length_append, List.length_cons, ht]; omega)] at h1
    exact List.append_cancel_right h1
  have h := k4
  unfold fixedLine at h
  simp only at h
  have e := hcut _ h k2
  rw [k4, ← e, layFields_columns _ 0 [] (by simp)]
  simp [List.flatMap_map, List.append_assoc]

theorem sortKey_abc (e : SortEnv) (w : Nat → Nat) (path : Bytes) (t : Nat) :
    ∃ tail, (sortKey e w path t).2.1 = 0 :: 1 :: 2 :: tail ∧ ∀ k, k < 3 →
      (sortKey e w path t).1 k = sortPart path (zpathnamePartPositions path e.junk) k ∧ (sortKey e w path t).2.2 k = w k := by
  unfold sortKey
  simp only
  split
  · split
    · refine ⟨[5, 4, 3], rfl, fun k hk => ⟨?_, rfl⟩⟩
      simp only; rw [if_neg (by omega)]
    · refine ⟨[5, 4, 3], rfl, fun k hk => ⟨?_, ?_⟩⟩
      · simp only; rw [if_neg (by omega), if_neg (by omega)]
      · simp only; rw [if_neg (by omega)]
  · split
    · refine ⟨[3, 5, 4], rfl, fun k hk => ⟨?_, rfl⟩⟩
      simp only; rw [if_neg (by omega)]
    · exact ⟨[3, 4, 5], rfl, fun k hk => ⟨rfl, rfl⟩⟩

/-- The widths that may be in use: only the one for the E part is ever changed. -/
def WidthsFrom (w0 w : Nat → Nat) : Prop := (∀ k, k ≠ 4 → w k = w0 k) ∧ lineWidth w ≤ 380

theorem widths_kept {e : SortEnv} {w0 : Nat → Nat} {row : CatRow} (hs : Sortable row.path) (v : Nat → Nat) (n : Nat) (h : WidthsFrom w0 v) :
    WidthsFrom w0 (sortText e v row n).2 := by
  have hk := sortKey_ok e v hs.letters row.dataType
  obtain ⟨h1, hw⟩ := h
  unfold sortText
  rw [if_pos hs.six]
  simp only
  refine ⟨fun k hk4 => by rw [hk.width k hk4, h1 k hk4], ?_⟩
  have h3 := hk.four
  unfold lineWidth at hw ⊢
  rw [hk.width 0 (by decide), hk.width 1 (by decide), hk.width 2 (by decide), hk.width 3 (by decide), hk.width 5 (by decide)]
  omega

theorem line_abc {e : SortEnv} {row : CatRow} {ps : List Bytes} {l : Bytes} (h6 : SixParts ps) (hp : row.path = join ps) (hs : Sortable row.path)
    {P : (Nat → Nat) → Prop} (hP : ∀ w, P w → WidthsFrom e.width w) (hl : LineOf e P l row) :
    ∃ rest, l = inColumn (e.width 0 + 1) (ps.getD 0 []) ++ (inColumn (e.width 1 + 1) (ps.getD 1 []) ++ (inColumn (e.width 2 + 1) (ps.getD 2 []) ++ rest)) := by
  obtain ⟨w, n, hw, rfl⟩ := hl
  obtain ⟨hw1, hw2⟩ := hP w hw
  have hk := sortKey_ok e w hs.letters row.dataType
  unfold sortText
  rw [if_pos hs.six]
  simp only
  rw [fixedLine_columns hk hw2 n]
  obtain ⟨tail, t1, t2⟩ := sortKey_abc e w row.path row.dataType
  rw [t1]
  simp only [List.flatMap_cons, List.append_assoc]
  rw [(t2 0 (by omega)).1, (t2 0 (by omega)).2, (t2 1 (by omega)).1, (t2 1 (by omega)).2, (t2 2 (by omega)).1, (t2 2 (by omega)).2,
    hw1 0 (by decide), hw1 1 (by decide), hw1 2 (by decide), hp, sortPart_join h6 _ 0 (by omega), sortPart_join h6 _ 1 (by omega), sortPart_join h6 _ 2 (by omega)]
  exact ⟨_, rfl⟩

theorem lineLe_mem {a b : UInt8} {x y : Bytes} (ha : a.toNat < 128) (hb : b.toNat < 128) : lineLe (a :: x) (b :: y) = memLe (a :: x) (b :: y) := by
  simp only [lineLe, memLe]
  have h1 : signedByte a = a.toNat := by unfold signedByte; rw [if_pos ha]
  have h2 : signedByte b = b.toNat := by unfold signedByte; rw [if_pos hb]
  rw [h1, h2]
  simp

theorem column_head {w : Nat} {p rest : Bytes} (h : ∀ b ∈ p, b.toNat ≤ 127) : ∃ (a : UInt8) (x : Bytes), inColumn (w + 1) p ++ rest = a :: x ∧ a.toNat < 128 := by
  cases p with
  | nil => exact ⟨32, List.replicate w 32 ++ rest, by simp only [inColumn, List.take_nil, List.nil_append, List.length_nil, Nat.sub_zero, List.replicate_succ, List.cons_append], by decide⟩
  | cons a p => exact ⟨a, (List.take w p ++ List.replicate (w + 1 - (a :: p).length) 32 ++ rest), by simp only [inColumn, List.take_succ_cons, List.cons_append], by have := h a (by simp); omega⟩

/-- Columns with the same texts, or the first text comes first. -/
theorem column_step {w : Nat} {x y r t : Bytes} (hx : Wordy x) (hy : Wordy y) (h1 : x.length ≤ w) (h2 : y.length ≤ w)
    (h : memLe (inColumn w x ++ r) (inColumn w y ++ t) = true) : x < y ∨ (x = y ∧ memLe r t = true) := by
  rcases memLe_split (by rw [inColumn_length, inColumn_length]) h with ⟨k1, k2⟩ | ⟨k1, k2⟩
  · exact Or.inr ⟨column_inj hx hy h1 h2 k1, k2⟩
  · exact Or.inl (column_lt hx.1 h1 h2 k1 k2)

theorem lists_lt {x y : Bytes} {r t : List Bytes} : (x :: r < y :: t) ↔ x < y ∨ x = y ∧ r < t := List.cons_lt_cons_iff

end Hec
