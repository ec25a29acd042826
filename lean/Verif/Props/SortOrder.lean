import Verif.Proofs.SortOrder
import Verif.Props.SortCat
/-!
C87: the order of a sorted catalog.
-/
namespace Hec
set_option linter.unusedSimpArgs false
set_option linter.unusedVariables false
open _root_.Spec (Op Allowed run runs join create GoodSizes SixParts SortName ShortLines SortHistory PlainPart ColumnsFit NotBehind SeriesBlock cutF)

theorem take_three {ps : List Bytes} (h : SixParts ps) : ps.take 3 = [ps.getD 0 [], ps.getD 1 [], ps.getD 2 []] := by
  obtain ⟨hl, _⟩ := h
  match ps, hl with
  | [a, b, c, d, e, f], _ => rfl

theorem plain_getD {e : SortEnv} {rows : List CatRow} (hf : ColumnsFit e rows) {row : CatRow} (hr : row ∈ rows) {ps : List Bytes} (h6 : SixParts ps)
    (hp : row.path = join ps) (k : Nat) (hk : k < 3) : PlainPart (ps.getD k []) ∧ (ps.getD k []).length ≤ e.width k := by
  have hlt : k < ps.length := by have := h6.1; omega
  have := hf row hr ps h6 hp k hlt hk
  rw [List.getD_eq_getElem?_getD, List.getElem?_eq_getElem hlt]
  exact this

/-- From the order of the lines to the order of the first three parts; and what follows in the lines when these are equal. -/
theorem abc_order {e : SortEnv} {rows : List CatRow} (hf : ColumnsFit e rows) {r r' : CatRow} (hr : r ∈ rows) (hr' : r' ∈ rows) {ps ps' : List Bytes}
    (h6 : SixParts ps) (h6' : SixParts ps') (hp : r.path = join ps) (hp' : r'.path = join ps') {rest rest' : Bytes}
    (hle : lineLe (inColumn (e.width 0 + 1) (ps.getD 0 []) ++ (inColumn (e.width 1 + 1) (ps.getD 1 []) ++ (inColumn (e.width 2 + 1) (ps.getD 2 []) ++ rest)))
      (inColumn (e.width 0 + 1) (ps'.getD 0 []) ++ (inColumn (e.width 1 + 1) (ps'.getD 1 []) ++ (inColumn (e.width 2 + 1) (ps'.getD 2 []) ++ rest'))) = true) :
    ps.take 3 < ps'.take 3 ∨ (ps.take 3 = ps'.take 3 ∧ memLe rest rest' = true) := by
  have a := fun k hk => plain_getD hf hr h6 hp k hk
  have b := fun k hk => plain_getD hf hr' h6' hp' k hk
  obtain ⟨c1, x1, hx1, hc1⟩ := column_head (w := e.width 0) (p := ps.getD 0 [])
    (rest := inColumn (e.width 1 + 1) (ps.getD 1 []) ++ (inColumn (e.width 2 + 1) (ps.getD 2 []) ++ rest)) (fun b hb => ((a 0 (by omega)).1.1 b hb).2)
  obtain ⟨c2, x2, hx2, hc2⟩ := column_head (w := e.width 0) (p := ps'.getD 0 [])
    (rest := inColumn (e.width 1 + 1) (ps'.getD 1 []) ++ (inColumn (e.width 2 + 1) (ps'.getD 2 []) ++ rest')) (fun c hc => ((b 0 (by omega)).1.1 c hc).2)
  rw [hx1, hx2, lineLe_mem hc1 hc2, ← hx1, ← hx2] at hle
  rw [take_three h6, take_three h6', lists_lt, lists_lt, lists_lt]
  rcases column_step (plain_wordy (a 0 (by omega)).1) (plain_wordy (b 0 (by omega)).1) (by have := (a 0 (by omega)).2; omega) (by have := (b 0 (by omega)).2; omega) hle with h | ⟨e0, h⟩
  · exact Or.inl (Or.inl h)
  rcases column_step (plain_wordy (a 1 (by omega)).1) (plain_wordy (b 1 (by omega)).1) (by have := (a 1 (by omega)).2; omega) (by have := (b 1 (by omega)).2; omega) h with h | ⟨e1, h⟩
  · exact Or.inl (Or.inr ⟨e0, Or.inl h⟩)
  rcases column_step (plain_wordy (a 2 (by omega)).1) (plain_wordy (b 2 (by omega)).1) (by have := (a 2 (by omega)).2; omega) (by have := (b 2 (by omega)).2; omega) h with h | ⟨e2, h⟩
  · exact Or.inl (Or.inr ⟨e0, Or.inr ⟨e1, Or.inl h⟩⟩)
  · exact Or.inr ⟨by rw [e0, e1, e2], h⟩

theorem sorted_abc (s : Eng) (h : SortHdr) (e : SortEnv) (rows : List CatRow) (hw : ShortLines e.width) (hn : rows.length ≤ 10 ^ 10)
    (hr : ∀ row ∈ rows, SortName row.path) (hf : ColumnsFit e rows) (out : List CatRow) (ho : (sortFully s h e rows).rows = out.map some) :
    out.Pairwise fun r r' => NotBehind r.path r'.path := by
  have hs : ∀ r ∈ rows, Sortable r.path := fun r hr' => name_sortable (hr r hr')
  have := sortFully_order s h e rows hs hw hn (WidthsFrom e.width) (fun r hr' v n => widths_kept (hs r hr') v n) ⟨fun _ _ => rfl, hw⟩ ho
  refine this.imp ?_
  rintro a b ⟨ha, hb, l, l', hl, hl', hle⟩ ps ps' h6 h6' hp hp'
  obtain ⟨rest, k1⟩ := line_abc h6 hp (hs a ha) (fun _ h => h) hl
  obtain ⟨rest', k2⟩ := line_abc h6' hp' (hs b hb) (fun _ h => h) hl'
  rw [k1, k2] at hle
  rcases abc_order hf ha hb h6 h6' hp hp' hle with h | ⟨h, _⟩
  · exact Or.inr h
  · exact Or.inl h

variable {hdrSize maxHash binSize : Nat} {mul : Nat → Nat}

/-- C87.  In a sorted catalog, of any file used in any way (also when the stored list is used), the pathnames are in the
order of their A parts, those with the same A part in the order of their B parts, those with the same A and B parts in the order of
their C parts.  Conditions: those of `C86_same_records_partial`; and in this and all earlier sorted catalogs the A, B and C
parts are made of plain characters, and the columns are as wide as the longest ones. -/
theorem C87_order_partial (g : GoodSizes hdrSize maxHash binSize) {past : List Op} {s : Eng} {h : SortHdr}
    (R : SortHistory ColumnsFit (create hdrSize maxHash binSize mul).1 (create hdrSize maxHash binSize mul).2 past s h) (e : SortEnv) (q : SortReq)
    (hq : q.statusWanted = REC_STATUS_VALID) (hu : q.useList = true → ∀ p, q.wild p = true) (hw : ShortLines e.width)
    (hn : ∀ rows, zcatalog (create hdrSize maxHash binSize mul).1 s q.inner = some rows →
      rows.length ≤ 10 ^ 10 ∧ (∀ row ∈ rows, SortName row.path) ∧ ColumnsFit e rows) :
    ∃ (out : List CatRow) (n : Int) (h' : SortHdr), zcatInternalSort (create hdrSize maxHash binSize mul).1 s h e q = some ⟨n, out.map some, h'⟩ ∧
      out.Pairwise fun r r' => NotBehind r.path r'.path := by
  obtain ⟨R1, R2⟩ := sort_history g (fun s h e rows hw hn hr hf => sorted_abc s h e rows hw hn hr hf) R
  obtain ⟨G, H⟩ := reach g R1
  obtain ⟨rows, out, h', k1, k2, k3, k4, _⟩ := sorted_rows (create_OK (mul := mul) g) H R2 e q hq hu hw (fun rows hr => ⟨(hn rows hr).1, (hn rows hr).2.1⟩)
    (fun rows hr => sorted_abc s h e rows hw (hn rows hr).1 (hn rows hr).2.1 (hn rows hr).2.2)
  exact ⟨out, _, h', k2, k4⟩

/-! ### Series -/

/-- The line of a block of a series. -/
theorem line_series {e : SortEnv} {row : CatRow} {ps : List Bytes} {secs day m : Nat} {l : Bytes} (hm : (day : Int) + 10000000 = (m : Int)) (hb : SeriesBlock e row ps secs day) (hs : Sortable row.path)
    (hl : LineOf e (fun w => WidthsFrom e.width w ∧ (w 4 = e.width 4 ∨ w 4 = max 11 (e.width 4))) l row) :
    ∃ rest, l = inColumn (e.width 0 + 1) (ps.getD 0 []) ++ (inColumn (e.width 1 + 1) (ps.getD 1 []) ++ (inColumn (e.width 2 + 1) (ps.getD 2 []) ++
      (inColumn (e.width 5 + 1) (cutF e ps) ++ (inColumn (max 11 (e.width 4) + 1) (32 :: tenDigits (secs : Int)) ++
        (inColumn (e.width 3 + 1) (32 :: tenDigits (m : Int)) ++ rest))))) := by
  obtain ⟨w, n, ⟨⟨hw1, hw2⟩, hw4⟩, rfl⟩ := hl
  have hk := sortKey_ok e w hs.letters row.dataType
  unfold sortText
  rw [if_pos hs.six]
  simp only
  rw [fixedLine_columns hk hw2 n]
  obtain ⟨st, name, hE⟩ := hb.interval
  have hD := hb.date
  have hj : ((day : Nat) : Int) ≠ UNDEFINED_TIME := by unfold UNDEFINED_TIME; omega
  have hkey : sortKey e w row.path row.dataType = (fun k => if k = 3 then 32 :: tenDigits (m : Int) else if k = 4 then 32 :: tenDigits (secs : Int) else
      sortPart row.path (zpathnamePartPositions row.path e.junk) k, [0, 1, 2, 5, 4, 3], fun k => if k = 4 ∧ 11 > w 4 then 11 else w k) := by
    unfold sortKey
    simp only
    rw [if_pos hb.kind, hb.path, sortPart_join hb.six _ 3 (by omega), sortPart_join hb.six _ 4 (by omega), List.take_of_length_le hb.short.1, List.take_of_length_le hb.short.2, hE, hD]
    simp only
    rw [if_pos hj, hm]
    simp only [List.length_cons, tenDigits_length]
  rw [hkey]
  have h4 : (if True ∧ 11 > w 4 then 11 else w 4) = max 11 (e.width 4) := by
    split
    · rcases hw4 with h | h <;> omega
    · rename_i h0
      have : ¬ (11 > w 4) := fun h => h0 ⟨trivial, h⟩
      rcases hw4 with h | h <;> omega
  simp only [List.flatMap_cons, List.append_assoc, if_true, hb.path, sortPart_join hb.six _ 0 (by omega), sortPart_join hb.six _ 1 (by omega), sortPart_join hb.six _ 2 (by omega),
    sortPart_join hb.six _ 5 (by omega), hw1 0 (by decide), hw1 1 (by decide), hw1 2 (by decide), hw1 3 (by decide), hw1 5 (by decide), reduceCtorEq, false_and, if_false,
    show ((0 : Nat) = 3) = False by simp, show ((0 : Nat) = 4) = False by simp, show ((1 : Nat) = 3) = False by simp, show ((1 : Nat) = 4) = False by simp,
    show ((2 : Nat) = 3) = False by simp, show ((2 : Nat) = 4) = False by simp, show ((5 : Nat) = 3) = False by simp, show ((5 : Nat) = 4) = False by simp,
    show ((4 : Nat) = 3) = False by simp, show ((3 : Nat) = 4) = False by simp]
  rw [h4]
  have h5 : inColumn (e.width 5 + 1) (ps.getD 5 []) = inColumn (e.width 5 + 1) (cutF e ps) := by
    unfold inColumn cutF
    rw [List.take_take, Nat.min_self, List.length_take]
    congr 2
    omega
  rw [h5]
  exact ⟨_, rfl⟩

/-- C87 for series.  Sorting a catalog whose time series are regular, all with valid E and D parts, puts the blocks of a file into this
order: A part, B part, C part, F part, interval, date.  The F parts are looked at only up to one character more than the longest D part has,
and the condition for the rest is that the longest F part has 10 characters at least: the columns of the D and the F parts have each
other's width.  See `C87_date_violation`, `C87_F_violation`, `C87_interval_violation`. -/
theorem C87_series_order_partial (s : Eng) (h : SortHdr) (e : SortEnv) (rows : List CatRow) (hw : ShortLines e.width) (hn : rows.length ≤ 10 ^ 10)
    (hr : ∀ row ∈ rows, SortName row.path) (hf : ColumnsFit e rows) (h3 : 10 ≤ e.width 3)
    (hts : ∀ row ∈ rows, 100 ≤ row.dataType ∧ row.dataType < 200 → ∃ ps secs day, SeriesBlock e row ps secs day) :
    ∃ out : List CatRow, (sortFully s h e rows).number = rows.length ∧ (sortFully s h e rows).rows = out.map some ∧ out.Perm rows ∧
      out.Pairwise fun r r' => ∀ ps secs day ps' secs' day', SeriesBlock e r ps secs day → SeriesBlock e r' ps' secs' day' →
        ps.take 3 < ps'.take 3 ∨ (ps.take 3 = ps'.take 3 ∧ (cutF e ps < cutF e ps' ∨ (cutF e ps = cutF e ps' ∧
          (secs < secs' ∨ (secs = secs' ∧ day ≤ day'))))) := by
  have hs : ∀ r ∈ rows, Sortable r.path := fun r hr' => name_sortable (hr r hr')
  obtain ⟨out, hp, ho⟩ := sortFully_perm s h e rows hs hw hn
  refine ⟨out, by rw [ho], by rw [ho], hp, ?_⟩
  have hkept : ∀ r ∈ rows, ∀ v n, (WidthsFrom e.width v ∧ (v 4 = e.width 4 ∨ v 4 = max 11 (e.width 4))) →
      (WidthsFrom e.width (sortText e v r n).2 ∧ ((sortText e v r n).2 4 = e.width 4 ∨ (sortText e v r n).2 4 = max 11 (e.width 4))) := by
    intro r hr' v n hv
    refine ⟨widths_kept (hs r hr') v n hv.1, ?_⟩
    unfold sortText
    rw [if_pos (hs r hr').six]
    simp only
    unfold sortKey
    simp only
    by_cases ht : 100 ≤ r.dataType ∧ r.dataType < 200
    · rw [if_pos ht]
      obtain ⟨ps, secs, day, hb⟩ := hts r hr' ht
      obtain ⟨st, name, hE⟩ := hb.interval
      rw [hb.path, sortPart_join hb.six _ 4 (by omega), List.take_of_length_le hb.short.2, hE]
      simp only [true_and, List.length_cons, tenDigits_length]
      have := hv.2
      split
      · right; rcases this with h | h <;> omega
      · exact this
    · rw [if_neg ht]
      split <;> exact hv.2
  have := sortFully_order s h e rows hs hw hn _ hkept ⟨⟨fun _ _ => rfl, hw⟩, Or.inl rfl⟩ (by rw [ho])
  refine this.imp ?_
  rintro a b ⟨ha, hb, l, l', hl, hl', hle⟩ ps secs day ps' secs' day' Ba Bb
  obtain ⟨m, hm, hm1⟩ : ∃ m : Nat, (day : Int) + 10000000 = (m : Int) ∧ m = day + 10 ^ 7 := ⟨day + 10 ^ 7, by omega, rfl⟩
  obtain ⟨m', hm', hm1'⟩ : ∃ m : Nat, (day' : Int) + 10000000 = (m : Int) ∧ m = day' + 10 ^ 7 := ⟨day' + 10 ^ 7, by omega, rfl⟩
  obtain ⟨rest, k1⟩ := line_series hm Ba (hs a ha) hl
  obtain ⟨rest', k2⟩ := line_series hm' Bb (hs b hb) hl'
  rw [k1, k2] at hle
  rcases abc_order hf ha hb Ba.six Bb.six Ba.path Bb.path hle with h | ⟨h, hrest⟩
  · exact Or.inl h
  refine Or.inr ⟨h, ?_⟩
  rcases column_step (plain_wordy Ba.plain) (plain_wordy Bb.plain) (by unfold cutF; rw [List.length_take]; omega) (by unfold cutF; rw [List.length_take]; omega) hrest with h | ⟨e5, hrest⟩
  · exact Or.inl h
  refine Or.inr ⟨e5, ?_⟩
  rcases column_step (number_wordy secs) (number_wordy secs') (by simp [tenDigits_length]; omega) (by simp [tenDigits_length]; omega) hrest with h | ⟨e4, hrest⟩
  · refine Or.inl (tenDigits_lt Ba.small.1 Bb.small.1 ?_)
    rcases lt_cons_iff.mp h with h | ⟨_, h⟩
    · exact absurd h (by decide)
    · exact h
  refine Or.inr ⟨tenDigits_inj Ba.small.1 Bb.small.1 (List.cons.inj e4).2, ?_⟩
  have s1 : m < 10 ^ 10 := by rw [hm1]; exact Ba.small.2
  have s2 : m' < 10 ^ 10 := by rw [hm1']; exact Bb.small.2
  have hlen : ∀ k : Nat, (32 :: tenDigits (k : Int)).length ≤ e.width 3 + 1 := fun k => by rw [List.length_cons, tenDigits_length]; omega
  have hnum : m ≤ m' := by
    rcases column_step (number_wordy m) (number_wordy m') (hlen m) (hlen m') hrest with h | ⟨e3, _⟩
    · rcases lt_cons_iff.mp h with h | ⟨_, h⟩
      · exact absurd h (by decide)
      · exact Nat.le_of_lt (tenDigits_lt s1 s2 h)
    · exact Nat.le_of_eq (tenDigits_inj s1 s2 (List.cons.inj e3).2)
  clear hrest hlen s1 s2
  omega

end Hec
