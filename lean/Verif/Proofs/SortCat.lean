import Verif.Model.SortCat
import Verif.Proofs.Dates
import Verif.Proofs.TextFile
/-! The file of keys of the sorted catalog: every line is read back with its number. -/
namespace Hec
set_option linter.unusedSimpArgs false
set_option linter.unusedVariables false

theorem layFields_length (fs : List (Bytes × Nat)) : ∀ (col : Nat) (acc : Bytes), acc.length ≤ col →
    (layFields fs col acc).length = col + (fs.map (·.2)).sum := by
  induction fs with
  | nil => intro col acc h; simp [layFields]; omega
  | cons f fs ih =>
    intro col acc h
    obtain ⟨f, w⟩ := f
    simp only [layFields]
    rw [ih _ _ (by simp; omega)]
    simp; omega

/-- The bytes of the fields, and blanks. -/
theorem layFields_mem (P : UInt8 → Prop) (h32 : P 32) (fs : List (Bytes × Nat)) : ∀ (col : Nat) (acc : Bytes),
    (∀ b ∈ acc, P b) → (∀ f ∈ fs, ∀ b ∈ f.1, P b) → ∀ b ∈ layFields fs col acc, P b := by
  induction fs with
  | nil =>
    intro col acc ha _ b hb
    simp only [layFields, List.mem_append, List.mem_replicate] at hb
    rcases hb with hb | ⟨_, rfl⟩
    · exact ha b hb
    · exact h32
  | cons f fs ih =>
    intro col acc ha hf
    obtain ⟨f, w⟩ := f
    simp only [layFields]
    apply ih
    · intro b hb
      simp only [List.mem_append, List.mem_replicate] at hb
      rcases hb with (hb | ⟨_, rfl⟩) | hb
      · exact ha b hb
      · exact h32
      · exact hf (f, w) (by simp) b (List.mem_of_mem_take hb)
    · intro g hg; exact hf g (by simp [hg])

theorem splitLines_append (l : Bytes) (hl : ∀ b ∈ l, b ≠ 10) (rest : Bytes) : splitLines (l ++ 10 :: rest) = l :: splitLines rest := by
  induction l with
  | nil => simp [splitLines]
  | cons b l ih =>
    simp only [List.cons_append, splitLines]
    rw [if_neg (hl b (by simp)), ih (fun x hx => hl x (by simp [hx]))]

theorem splitLines_file (ls : List Bytes) (h : ∀ l ∈ ls, ∀ b ∈ l, b ≠ 10) : splitLines (linesFile ls) = ls := by
  induction ls with
  | nil => rfl
  | cons l ls ih =>
    have : linesFile (l :: ls) = l ++ 10 :: linesFile ls := by simp [linesFile]
    rw [this, splitLines_append l (h l (by simp)), ih (fun x hx => h x (by simp [hx]))]

theorem fgets_line (l : Bytes) (hl : ∀ b ∈ l, b ≠ 10) (rest : Bytes) : ∀ n, l.length < n → fgets n (l ++ 10 :: rest) = (l ++ [10], rest) := by
  induction l with
  | nil => intro n hn; cases n with
    | zero => simp at hn
    | succ n => simp [fgets]
  | cons b l ih =>
    intro n hn
    cases n with
    | zero => simp at hn
    | succ n =>
      simp only [List.cons_append, fgets]
      rw [if_neg (hl b (by simp)), ih (fun x hx => hl x (by simp [hx])) n (by simp at hn; omega)]

theorem readSequence_file (ls : List Bytes) (h : ∀ l ∈ ls, (∀ b ∈ l, b ≠ 10) ∧ l.length < 399) :
    readSequence ls.length (linesFile ls) = some (ls.map fun l => getLastInt (upToZero (l ++ [10]))) := by
  induction ls with
  | nil => rfl
  | cons l ls ih =>
    have e : linesFile (l :: ls) = l ++ 10 :: linesFile ls := by simp [linesFile]
    have h1 := h l (by simp)
    have hf := fgets_line l h1.1 (linesFile ls) 399 h1.2
    have : ∀ x : Bytes, x = l ++ 10 :: linesFile ls → readSequence (ls.length + 1) x =
        (readSequence ls.length (fgets 399 x).2).map (getLastInt (upToZero (fgets 399 x).1) :: ·) := by
      intro x hx
      cases x with
      | nil => simp at hx
      | cons b s => rfl
    rw [List.length_cons, this _ e, e, hf, ih (fun x hx => h x (by simp [hx]))]
    simp

/-! ### The number at the end of a line -/

theorem decimal_le (n : Nat) : (decimal n).length ≤ 10 := by
  unfold decimal
  simp only [List.length_reverse, List.length_map]
  have : ∀ f n, (digitsRev f n).length ≤ f := by
    intro f
    induction f with
    | zero => intro n; simp [digitsRev]
    | succ f ih =>
      intro n
      simp only [digitsRev]
      split
      · simp
      · have := ih (n / 10); simp; omega
  exact this 10 n

theorem tenDigits_nat (n : Nat) : tenDigits (n : Int) = zeroPad 10 (decimal n) := by
  unfold tenDigits
  rw [if_neg (by omega)]; simp

theorem tenDigits_length (n : Nat) : (tenDigits (n : Int)).length = 10 := by
  rw [tenDigits_nat, zeroPad_length _ _ (decimal_le n)]

theorem tenDigits_le (n : Int) : (tenDigits n).length ≤ 11 := by
  unfold tenDigits
  split
  · rw [List.length_cons, zeroPad_length _ _ (decimal_le _)]; omega
  · rw [zeroPad_length _ _ (decimal_le _)]; omega

theorem scanDown_digits (K D : Bytes) (hD : ∀ b ∈ D, b ≠ 32) (i : Nat) (hi : i ≤ K.length + D.length) (hK : 0 < K.length) (hge : K.length ≤ i) :
    scanDown (· == 32) (K ++ 32 :: D) i = some K.length := by
  induction i with
  | zero => omega
  | succ i ih =>
    simp only [scanDown]
    by_cases h : K.length = i + 1
    · have : (K ++ 32 :: D).getD (i + 1) 0 = 32 := by
        rw [List.getD_eq_getElem?_getD, List.getElem?_append_right (by omega), h]; simp
      rw [this]; simp [h]
    · have hlt : i + 1 - K.length - 1 < D.length := by omega
      have : (K ++ 32 :: D).getD (i + 1) 0 = D[i + 1 - K.length - 1] := by
        rw [List.getD_eq_getElem?_getD, List.getElem?_append_right (by omega)]
        obtain ⟨m, hm⟩ : ∃ m, i + 1 - K.length = m + 1 := ⟨i + 1 - K.length - 1, by omega⟩
        simp only [hm, List.getElem?_cons_succ, Nat.add_sub_cancel]
        rw [List.getElem?_eq_getElem (by omega)]; rfl
      rw [this]
      have hne := hD _ (List.getElem_mem hlt)
      rw [if_neg (by simpa using hne), ih (by omega) (by omega)]

theorem findInt_digits (D : Bytes) (hD : AllDigits D) (h0 : D ≠ []) : (findInt D).1 = digitsValue D := by
  unfold findInt
  cases D with
  | nil => exact absurd rfl h0
  | cons d D =>
    have hd : isDigit d = true := hD d (by simp)
    simp only [List.findIdx?_cons, hd, if_true]
    have : (d :: D).takeWhile isDigit = d :: D := takeWhile_all _ _ hD
    simp [this]

/-- The text ends with a blank and ten digits. -/
theorem getLastInt_line (K : Bytes) (hK : 0 < K.length) (n : Nat) (hn : n < 10 ^ 10) : getLastInt (K ++ 32 :: tenDigits (n : Int)) = n := by
  have hdig : AllDigits (tenDigits (n : Int)) := by rw [tenDigits_nat]; exact zeroPad_digits _ _ (decimal_digits n)
  have hlen := tenDigits_length n
  have hval : digitsValue (tenDigits (n : Int)) = n := by rw [tenDigits_nat, zeroPad_value, decimal_value n hn]
  generalize tenDigits (n : Int) = D at *
  have hb : ∀ b ∈ D, b ≠ 32 := fun b hb he => by have := hdig b hb; rw [he] at this; exact absurd this (by decide)
  have hne : D ≠ [] := fun h => by rw [h] at hlen; simp at hlen
  have hL : (K ++ 32 :: D).length = K.length + 11 := by simp; omega
  have hlast : (K ++ 32 :: D).getD ((K ++ 32 :: D).length - 1) 0 ≠ 32 := by
    rw [List.getD_eq_getElem?_getD, hL, List.getElem?_append_right (by omega), show K.length + 11 - 1 - K.length = 9 + 1 by omega, List.getElem?_cons_succ,
      List.getElem?_eq_getElem (by omega)]
    exact hb _ (List.getElem_mem _)
  have hstop : lastStop (K ++ 32 :: D) = (K.length : Int) + 10 := by
    unfold lastStop
    rw [if_neg hlast, hL]; omega
  unfold getLastInt
  rw [if_neg (by omega), hstop, if_neg (by omega)]
  have hstart : lastStart (K ++ 32 :: D) ((K.length : Int) + 10) = (K.length : Int) + 1 := by
    unfold lastStart
    rw [show ((K.length : Int) + 10 - 1).toNat = K.length + 9 by omega, scanDown_digits K D hb (K.length + 9) (by omega) hK (by omega)]
    simp only
    rw [if_neg (by omega)]
  rw [hstart, show ((K.length : Int) + 1).toNat = K.length + 1 by omega]
  have : (K ++ 32 :: D).drop (K.length + 1) = D := by
    rw [List.drop_append, List.drop_eq_nil_of_le (by omega)]; simp
  rw [this, findInt_digits D hdig hne, hval]

theorem upToZero_line (l : Bytes) (h : ∀ b ∈ l, b ≠ 0) (rest : Bytes) : upToZero (l ++ 0 :: rest) = l := by
  unfold upToZero
  induction l with
  | nil => simp
  | cons b l ih =>
    rw [List.cons_append, List.takeWhile_cons, if_pos (by simpa using h b (by simp)), ih (fun x hx => h x (by simp [hx]))]

/-! ### The lines -/

/-- The bytes a pathname may have. -/
def Lettered (p : Bytes) : Prop := ∀ b ∈ p, b ≠ 0 ∧ b ≠ 10

theorem digits_lettered {D : Bytes} (h : AllDigits D) : Lettered D := fun b hb => by
  have h1 := h b hb
  constructor
  · rintro rfl; exact absurd h1 (by decide)
  · rintro rfl; exact absurd h1 (by decide)

theorem tenDigits_lettered (n : Int) : Lettered (tenDigits n) := by
  unfold tenDigits
  have h := digits_lettered (zeroPad_digits 10 _ (decimal_digits n.natAbs))
  split
  · intro b hb
    rcases List.mem_cons.mp hb with rfl | hb
    · decide
    · exact h b hb
  · exact h

/-- The widths of the columns, with room for the number of seconds of an interval. -/
def lineWidth (w : Nat → Nat) : Nat := w 0 + w 1 + w 2 + w 3 + max (w 4) 12 + w 5

theorem sortPart_lettered {path : Bytes} (h : Lettered path) (pos : List Int) (k : Nat) : Lettered (sortPart path pos k) :=
  fun b hb => h b (List.mem_of_mem_drop (List.mem_of_mem_take hb))

structure KeyOK (w : Nat → Nat) (k : (Nat → Bytes) × List Nat × (Nat → Nat)) : Prop where
  letters : ∀ i, Lettered (k.1 i)
  order : k.2.1.Perm [0, 1, 2, 3, 4, 5]
  width : ∀ i, i ≠ 4 → k.2.2 i = w i
  four : k.2.2 4 ≤ max (w 4) 12

theorem cons_lettered {b : UInt8} {D : Bytes} (hb : b ≠ 0 ∧ b ≠ 10) (h : Lettered D) : Lettered (b :: D) := fun x hx => by
  rcases List.mem_cons.mp hx with rfl | hx
  · exact hb
  · exact h x hx

theorem perm_ts : ([0, 1, 2, 5, 4, 3] : List Nat).Perm [0, 1, 2, 3, 4, 5] := by decide
theorem perm_grid : ([0, 1, 2, 3, 5, 4] : List Nat).Perm [0, 1, 2, 3, 4, 5] := by decide

theorem sortKey_ok (e : SortEnv) (w : Nat → Nat) {path : Bytes} (h : Lettered path) (t : Nat) : KeyOK w (sortKey e w path t) := by
  have hp := sortPart_lettered h (zpathnamePartPositions path e.junk)
  unfold sortKey
  simp only
  split
  · have hd : Lettered (if dateToJulian ((sortPart path (zpathnamePartPositions path e.junk) 3).take 128) ≠ UNDEFINED_TIME then
        32 :: tenDigits (dateToJulian ((sortPart path (zpathnamePartPositions path e.junk) 3).take 128) + 10000000)
        else sortPart path (zpathnamePartPositions path e.junk) 3) := by
      split
      · exact cons_lettered (by decide) (tenDigits_lettered _)
      · exact hp 3
    split
    · refine ⟨fun i => ?_, perm_ts, fun _ _ => rfl, by simp only; omega⟩
      simp only
      split
      · exact hd
      · exact hp i
    · next x _ =>
      refine ⟨fun i => ?_, perm_ts, fun i hi => ?_, ?_⟩
      · simp only
        split
        · exact hd
        split
        · exact cons_lettered (by decide) (tenDigits_lettered _)
        · exact hp i
      · simp only
        rw [if_neg (by simp [hi])]
      · simp only
        have := tenDigits_le x.2.1
        split
        · simp; omega
        · omega
  split
  · refine ⟨fun i => ?_, perm_grid, fun _ _ => rfl, by simp only; omega⟩
    simp only
    split
    · split
      · intro b hb
        simp only [List.cons_append, List.mem_cons, List.mem_append] at hb
        rcases hb with rfl | hb | rfl | hb
        · decide
        · exact tenDigits_lettered _ b hb
        · decide
        · exact digits_lettered (decimal_digits _) b hb
      · exact hp 3
    · exact hp i
  · exact ⟨hp, List.Perm.refl _, fun _ _ => rfl, by simp only; omega⟩

/-- A line: some text, a blank, the number, a zero byte. -/
theorem fixedLine_ok {w : Nat → Nat} {k : (Nat → Bytes) × List Nat × (Nat → Nat)} (hk : KeyOK w k) (hw : lineWidth w ≤ 380) (n : Nat) :
    ∃ K : Bytes, 0 < K.length ∧ K.length ≤ 386 ∧ Lettered K ∧ fixedLine k.1 k.2.1 k.2.2 n = K ++ 32 :: tenDigits (n : Int) ++ [0] := by
  let K := layFields (k.2.1.map fun i => (k.1 i, k.2.2 i + 1)) 0 []
  have h1 : K.length = (([0, 1, 2, 3, 4, 5] : List Nat).map fun i => k.2.2 i + 1).sum := by
    have := layFields_length (k.2.1.map fun i => (k.1 i, k.2.2 i + 1)) 0 [] (by simp)
    rw [List.map_map] at this
    rw [← (hk.order.map fun i => k.2.2 i + 1).sum_nat]
    simpa [K, Function.comp_def] using this
  have h2 : K.length = k.2.2 0 + k.2.2 1 + k.2.2 2 + k.2.2 3 + k.2.2 4 + k.2.2 5 + 6 := by
    rw [h1]; simp; omega
  have h3 := hk.four
  rw [hk.width 0 (by decide), hk.width 1 (by decide), hk.width 2 (by decide), hk.width 3 (by decide), hk.width 5 (by decide)] at h2
  unfold lineWidth at hw
  refine ⟨K, by omega, by omega, ?_, ?_⟩
  · intro b hb
    have hl := layFields_mem (fun b => b ≠ 0 ∧ b ≠ 10) (by decide) (k.2.1.map fun i => (k.1 i, k.2.2 i + 1)) 0 [] (by simp) (by
      intro f hf
      obtain ⟨i, _, rfl⟩ := List.mem_map.mp hf
      exact hk.letters i) b hb
    exact hl
  · unfold fixedLine
    simp only
    rw [List.take_of_length_le]
    have := tenDigits_length n
    simp only [List.length_append, List.length_cons, this]
    show K.length + _ ≤ _
    omega

/-- A pathname that can be sorted. -/
structure Sortable (p : Bytes) : Prop where
  six : sixParts p = true
  letters : Lettered p

theorem sortTexts_ok (e : SortEnv) (rows : List CatRow) : ∀ (w : Nat → Nat) (index : Nat), (∀ r ∈ rows, Sortable r.path) → lineWidth w ≤ 380 →
    index + rows.length ≤ 10 ^ 10 →
    (∀ l ∈ sortTexts e w index rows, (∀ b ∈ l, b ≠ 10) ∧ l.length < 399) ∧
    (sortTexts e w index rows).map (fun l => getLastInt (upToZero (l ++ [10]))) = (List.range' index rows.length).map (fun n : Nat => (n : Int)) ∧
    (sortTexts e w index rows).length = rows.length := by
  induction rows with
  | nil => intro w index _ _ _; simp [sortTexts]
  | cons r rows ih =>
    intro w index hr hw hi
    have h1 := hr r (by simp)
    have hk := sortKey_ok e w h1.letters r.dataType
    have hw' : lineWidth (sortText e w r index).2 ≤ 380 := by
      unfold sortText
      rw [if_pos h1.six]
      simp only
      have h3 := hk.four
      unfold lineWidth at hw ⊢
      rw [hk.width 0 (by decide), hk.width 1 (by decide), hk.width 2 (by decide), hk.width 3 (by decide), hk.width 5 (by decide)]
      omega
    simp only [List.length_cons] at hi
    obtain ⟨i1, i2, i3⟩ := ih (sortText e w r index).2 (index + 1) (fun x hx => hr x (by simp [hx])) hw' (by omega)
    obtain ⟨K, k1, k2, k3, k4⟩ := fixedLine_ok hk hw index
    have ht : (sortText e w r index).1 = K ++ 32 :: tenDigits (index : Int) ++ [0] := by
      unfold sortText
      rw [if_pos h1.six]
      exact k4
    have hlet : Lettered (K ++ 32 :: tenDigits (index : Int)) := by
      intro b hb
      rcases List.mem_append.mp hb with hb | hb
      · exact k3 b hb
      · exact cons_lettered (by decide) (tenDigits_lettered _) b hb
    refine ⟨?_, ?_, ?_⟩
    · intro l hl
      simp only [sortTexts, List.mem_cons] at hl
      rcases hl with rfl | hl
      · rw [ht]
        refine ⟨fun b hb => ?_, ?_⟩
        · rcases List.mem_append.mp hb with hb | hb
          · exact (hlet b hb).2
          · rw [List.mem_singleton.mp hb]; decide
        · have := tenDigits_length index
          simp only [List.length_append, List.length_cons, this, List.length_nil]
          omega
      · exact i1 l hl
    · simp only [sortTexts, List.map_cons, List.length_cons, List.range'_succ]
      rw [i2, ht, List.append_assoc, List.singleton_append, upToZero_line _ (fun b hb => (hlet b hb).1), getLastInt_line K k1 index (by omega)]
    · simp [sortTexts, i3]

/-- The rows come back, in another order. -/
theorem sortFully_perm (s : Eng) (h : SortHdr) (e : SortEnv) (rows : List CatRow) (hr : ∀ r ∈ rows, Sortable r.path) (hw : lineWidth e.width ≤ 380)
    (hn : rows.length ≤ 10 ^ 10) :
    ∃ out : List CatRow, out.Perm rows ∧ sortFully s h e rows = ⟨rows.length, out.map some,
      if e.save = true ∧ rows.length = s.hdr.numberRecords then ⟨1, out.map (·.address)⟩ else h⟩ := by
  obtain ⟨h1, h2, h3⟩ := sortTexts_ok e rows e.width 0 hr hw (by omega)
  let T := sortTexts e e.width 0 rows
  let S := T.mergeSort lineLe
  have hp : S.Perm T := List.mergeSort_perm _ _
  have hs : sortfiles (linesFile T) = linesFile S := by
    unfold sortfiles
    rw [splitLines_file T (fun l hl => (h1 l hl).1)]
  have hrd := readSequence_file S (fun l hl => h1 l (hp.mem_iff.mp hl))
  rw [hp.length_eq, h3] at hrd
  have hq : (S.map fun l => getLastInt (upToZero (l ++ [10]))).Perm ((List.range rows.length).map (fun n : Nat => (n : Int))) := by
    rw [List.range_eq_range', ← h2]
    exact hp.map _
  let seqs := S.map fun l => getLastInt (upToZero (l ++ [10]))
  have hall : ((List.range rows.length).map (fun n : Nat => (n : Int))).map (rowNumber rows) = rows.map some := by
    rw [List.map_map]
    apply List.ext_getElem
    · simp
    · intro i hi1 hi2
      simp at hi1
      simp [rowNumber, hi1]
      omega
  have ho : (seqs.map (rowNumber rows)).Perm (rows.map some) := by
    rw [← hall]; exact hq.map _
  refine ⟨(seqs.map (rowNumber rows)).filterMap id, ?_, ?_⟩
  · have := ho.filterMap id
    simpa using this
  · have hmap : seqs.map (rowNumber rows) = ((seqs.map (rowNumber rows)).filterMap id).map some := by
      have hsome : ∀ x ∈ seqs.map (rowNumber rows), x.isSome := by
        intro x hx
        obtain ⟨r, _, rfl⟩ := List.mem_map.mp (ho.mem_iff.mp hx)
        rfl
      generalize seqs.map (rowNumber rows) = l at hsome
      induction l with
      | nil => rfl
      | cons x l ih =>
        cases x with
        | none => exact absurd (hsome none (by simp)) (by simp)
        | some r =>
          simp only [List.filterMap_cons, id, List.map_cons]
          rw [← ih (fun y hy => hsome y (by simp [hy]))]
    unfold sortFully
    rw [hs, hrd]
    simp only
    rw [show (S.map fun l => getLastInt (upToZero (l ++ [10]))).map (rowNumber rows) = seqs.map (rowNumber rows) from rfl, hmap]
    simp [Function.comp_def]

end Hec
