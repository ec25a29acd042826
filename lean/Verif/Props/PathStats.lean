import Verif.Proofs.PathStats
import Verif.Props.SortOrder
import Verif.Props.RenameCases
import Verif.Props.SortCases
/-!
C100: the lengths of the longest pathname and of the longest parts, in the header of the file.
-/
namespace Hec
set_option linter.unusedSimpArgs false
set_option linter.unusedVariables false
open _root_.Spec (Op Store Step Steps run runs Allowed AllAllowed Plain Reachable GoodSizes create join keepDates renamed SixParts IsPart Set DropOne
  statsAfter statsRuns HasRoom FromOne PlainNames StatHistory SortHistory SortName ShortLines ColumnsFit NotBehind PlainPart stored)
open Hec.Spec (sameUpToCase)

variable {hdrSize maxHash binSize : Nat} {mul : Nat → Nat}

theorem stats_reach (g : GoodSizes hdrSize maxHash binSize) {past : List Op} {s : Eng}
    (R : Reachable (create hdrSize maxHash binSize mul).1 (create hdrSize maxHash binSize mul).2 past s) :
    ∃ G st, statsRuns (create hdrSize maxHash binSize mul).1 (create hdrSize maxHash binSize mul).2 noPathStats past = some st ∧
      HInv (create hdrSize maxHash binSize mul).1 G s past ∧ StatsInv (abs (create hdrSize maxHash binSize mul).1 G s.disk) past st := by
  obtain ⟨ha, ress, hr⟩ := R
  have H0 : HInv (create hdrSize maxHash binSize mul).1 _ _ [] := newFile_inv (by have := g.bin; omega)
  obtain ⟨G, st, h1, h2, h3⟩ := stats_runs (create_OK g) past H0 (by rw [newFile_abs]; exact empty_stats _) ha hr
  exact ⟨G, st, h1, by simpa using h2, by simpa using h3⟩

theorem room_of {S : Store} {past : List Op} {st : PathStats} (V : StatsInv S past st) {q : Bytes} {R : Rec} (h : S.live q = some R) : HasRoom st q := by
  have f := V.fits q (Or.inl (by rw [h]; simp))
  refine ⟨f.1, fun ps h6 hp k hk => ?_⟩
  have := f.2 k
  rwa [hp, lens_join h6] at this

/-- C100.  In every file in use, the numbers of the header have room for every record that can be read: its pathname is
not longer than the longest pathname, none of its parts longer than the longest part. -/
theorem C100_room_partial (g : GoodSizes hdrSize maxHash binSize) {past : List Op} {s : Eng}
    (R : Reachable (create hdrSize maxHash binSize mul).1 (create hdrSize maxHash binSize mul).2 past s) :
    ∃ st, statsRuns (create hdrSize maxHash binSize mul).1 (create hdrSize maxHash binSize mul).2 noPathStats past = some st ∧
      ∀ (q : Bytes) (rec : Rec), q.length ≤ 392 → zread (create hdrSize maxHash binSize mul).1 s q = some (some rec) → HasRoom st q := by
  obtain ⟨G, st, h1, H, V⟩ := stats_reach g R
  refine ⟨st, h1, fun q rec hq hz => ?_⟩
  rw [zread_abs (create_OK (mul := mul) g) H.inv hq] at hz
  injection hz with hz
  exact room_of V hz

/-- C100.  And the numbers are no larger than that: if all calls were about pathnames of six parts, each is the length of
a part of one of them, or zero.  zmaxPart gives these numbers. -/
theorem C100_exact_partial (g : GoodSizes hdrSize maxHash binSize) {past : List Op} {s : Eng}
    (R : Reachable (create hdrSize maxHash binSize mul).1 (create hdrSize maxHash binSize mul).2 past s)
    (h6 : ∀ p ∈ past.flatMap Op.paths, ∃ ps, SixParts ps ∧ p = join ps) {st : PathStats}
    (hs : statsRuns (create hdrSize maxHash binSize mul).1 (create hdrSize maxHash binSize mul).2 noPathStats past = some st) :
    (∀ k, k < 6 → FromOne (past.flatMap Op.paths) k (st.part k)) ∧ zmaxPart7 st = (List.range 6).map st.part := by
  obtain ⟨G, st', h1, H, V⟩ := stats_reach g R
  have : st' = st := Option.some.inj (h1.symm.trans hs)
  subst this
  refine ⟨fun k hk => ?_, ?_⟩
  · rcases V.one k with h | ⟨p, hp, h⟩
    · exact Or.inl h
    · obtain ⟨ps, k6, rfl⟩ := h6 p hp
      exact Or.inr ⟨_, hp, ps, k6, rfl, by rw [h, lens_join k6]⟩
  · unfold zmaxPart7
    apply List.map_congr_left
    intro k _
    obtain ⟨a, b⟩ := V.small k
    unfold statInt
    rw [toInt32_small (by omega)]
    omega

/-! ### The columns of sorted catalogs -/

theorem width_of {S : Store} {past : List Op} {st : PathStats} (V : StatsInv S past st) {k : Nat} (hk : k < 3) : (columnWidths st k : Int) = st.part k := by
  obtain ⟨a, b⟩ := V.small k
  unfold columnWidths statInt
  rw [if_neg (by omega), if_neg (by omega), toInt32_small (by omega)]
  omega

/-- The columns are wide enough for the rows of a catalog. -/
theorem columns_fit (g : GoodSizes hdrSize maxHash binSize) {past : List Op} {s : Eng}
    (R : Reachable (create hdrSize maxHash binSize mul).1 (create hdrSize maxHash binSize mul).2 past s) {G : Ghost}
    (H : HInv (create hdrSize maxHash binSize mul).1 G s past) {st : PathStats} (V : StatsInv (abs (create hdrSize maxHash binSize mul).1 G s.disk) past st)
    {e : SortEnv} (he : e.width = columnWidths st) {q : CatReq} (hq : q.statusWanted = REC_STATUS_VALID) {rows : List CatRow}
    (hr : zcatalog (create hdrSize maxHash binSize mul).1 s q = some rows) (hp : PlainNames rows) : ColumnsFit e rows := by
  obtain ⟨all, sel, z1, z2, _, _, z5⟩ := C48_selection_partial g R q hq
  obtain ⟨all', y1, _, _, y4, _⟩ := C48_catalog_partial g R
  have ea : all' = all := Option.some.inj (y1.symm.trans z1)
  subst ea
  intro row hrow ps h6 hj k hk h3
  refine ⟨hp row hrow ps h6 hj k hk h3, ?_⟩
  have hin : row ∈ all' := by
    have : rows = (if q.numberWanted = 0 then sel else sel.take q.numberWanted) := Option.some.inj (hr.symm.trans z5)
    rw [this] at hrow
    apply z2.subset
    split at hrow
    · exact hrow
    · exact List.mem_of_mem_take hrow
  obtain ⟨hl, rec, hrec, _⟩ := y4 row hin
  rw [zread_abs (create_OK (mul := mul) g) H.inv hl] at hrec
  injection hrec with hrec
  have := (room_of V hrec).2 ps h6 hj k (by have := h6.1; omega)
  have hw := width_of V h3
  rw [he]
  rw [List.getD_eq_getElem?_getD, List.getElem?_eq_getElem hk, Option.getD_some] at this
  omega

theorem stat_history (g : GoodSizes hdrSize maxHash binSize) {past : List Op} {s : Eng} {h : SortHdr} {st : PathStats}
    (R : StatHistory (create hdrSize maxHash binSize mul).1 (create hdrSize maxHash binSize mul).2 past s h st) :
    SortHistory ColumnsFit (create hdrSize maxHash binSize mul).1 (create hdrSize maxHash binSize mul).2 past s h ∧
      Reachable (create hdrSize maxHash binSize mul).1 (create hdrSize maxHash binSize mul).2 past s ∧
      ∃ G, HInv (create hdrSize maxHash binSize mul).1 G s past ∧ StatsInv (abs (create hdrSize maxHash binSize mul).1 G s.disk) past st := by
  have hc := create_OK (mul := mul) g
  induction R with
  | new =>
    refine ⟨.new, ⟨trivial, [], rfl⟩, ?_⟩
    have H0 : HInv (create hdrSize maxHash binSize mul).1 _ _ [] := newFile_inv (by have := g.bin; omega)
    exact ⟨_, H0, by rw [newFile_abs]; exact empty_stats _⟩
  | @call past s s' h st st' op res _ ha hr hs ih =>
    obtain ⟨i1, i2, G, H, V⟩ := ih
    refine ⟨.call i1 ha hr, reachable_more hc i2 ha hr, ?_⟩
    obtain ⟨G1, s1, res1, hr1, S, H1⟩ := H.step hc ha
    have := Option.some.inj (hr1.symm.trans hr)
    simp only [Prod.mk.injEq] at this
    obtain ⟨rfl, rfl⟩ := this
    obtain ⟨st1, hs1, hstep⟩ := stats_step hc H ha S st
    have := Option.some.inj (hs1.symm.trans hs)
    subst this
    exact ⟨G1, H1, V.step hstep⟩
  | @catalog past s h st e q r _ h1 h2 h3 h4 h5 h6 ih =>
    obtain ⟨i1, i2, G, H, V⟩ := ih
    refine ⟨.catalog i1 h1 h2 h4 (fun rows hr => ?_) h6, i2, G, H, V⟩
    obtain ⟨a, b, d⟩ := h5 rows hr
    exact ⟨a, b, columns_fit g i2 H V h3 (by exact h1) hr d⟩

/-- C100.  Sorted catalogs, of any file used in any way, are in the order of the A, B and C parts when the columns have the
widths that are in the header: nothing is asked of the widths but that the lines have room for their number. -/
theorem C100_order_partial (g : GoodSizes hdrSize maxHash binSize) {past : List Op} {s : Eng} {h : SortHdr} {st : PathStats}
    (R : StatHistory (create hdrSize maxHash binSize mul).1 (create hdrSize maxHash binSize mul).2 past s h st) (e : SortEnv) (q : SortReq)
    (hq : q.statusWanted = REC_STATUS_VALID) (hu : q.useList = true → ∀ p, q.wild p = true) (he : e.width = columnWidths st) (hw : ShortLines e.width)
    (hn : ∀ rows, zcatalog (create hdrSize maxHash binSize mul).1 s q.inner = some rows →
      rows.length ≤ 10 ^ 10 ∧ (∀ row ∈ rows, SortName row.path) ∧ PlainNames rows) :
    ∃ (out : List CatRow) (n : Int) (h' : SortHdr), zcatInternalSort (create hdrSize maxHash binSize mul).1 s h e q = some ⟨n, out.map some, h'⟩ ∧
      out.Pairwise fun r r' => NotBehind r.path r'.path := by
  obtain ⟨i1, i2, G, H, V⟩ := stat_history g R
  refine C87_order_partial g i1 e q hq hu hw (fun rows hr => ?_)
  obtain ⟨a, b, d⟩ := hn rows hr
  exact ⟨a, b, columns_fit g i2 H V he (by exact hq) hr d⟩

/-! ### Cases -/

/-- A file with one record, which was renamed to a longer name, and then deleted. -/
def oneName : List Bytes := [[65], [], [70, 76], [], [], [70]]

example : ∃ s st, Reachable tiny.1 tiny.2 sample s ∧ statsRuns tiny.1 tiny.2 noPathStats sample = some st ∧
    ∀ (q : Bytes) (rec : Rec), q.length ≤ 392 → zread tiny.1 s q = some (some rec) → HasRoom st q := by
  obtain ⟨s, h⟩ := sample_reachable
  obtain ⟨st, h1, h2⟩ := C100_room_partial (mul := id) tiny_good h
  exact ⟨s, st, h, h1, h2⟩

/-- The hypotheses of C100_order_partial: after `/A//FL///F/` was written, a sorted catalog with the columns of the header. -/
example : ∃ s h st, StatHistory tiny.1 tiny.2 [.write (req (join oneName) [] [] [3])] s h st ∧ ∀ e : SortEnv, e.width = columnWidths st → ShortLines e.width ∧
    ∀ rows, zcatalog tiny.1 s everything = some rows → rows.map (·.path) = [join oneName] ∧ rows.length ≤ 10 ^ 10 ∧ (∀ row ∈ rows, SortName row.path) ∧ PlainNames rows := by
  have h6 : SixParts oneName := parts_ok rfl (by decide +kernel)
  have ev : ((run tiny.1 tiny.2 (.write (req (join oneName) [] [] [3]))).bind fun p => (statsAfter tiny.1 tiny.2 noPathStats (.write (req (join oneName) [] [] [3]))).bind fun st =>
      (zcatalog tiny.1 p.1 everything).map fun rows => (rows.map (·.path), (List.range 6).map (columnWidths st))) = some ([join oneName], [1, 0, 2, 1, 0, 0]) := by
    decide +kernel
  rw [Option.bind_eq_some_iff] at ev
  obtain ⟨⟨s, res⟩, hr, ev⟩ := ev
  rw [Option.bind_eq_some_iff] at ev
  obtain ⟨st, hs, ev⟩ := ev
  rw [Option.map_eq_some_iff] at ev
  obtain ⟨rows0, hz, ev⟩ := ev
  simp only [Prod.mk.injEq] at ev
  obtain ⟨e1, e2⟩ := ev
  refine ⟨s, _, st, .call .new ?_ hr hs, fun e he => ⟨?_, fun rows hrows => ?_⟩⟩
  · exact (plain_allowed (create_OK tiny_good) [.write (req (join oneName) [] [] [3])] (by simp [Plain, req, Spec.oddHeaders, oneName, join])).1
  · simp only [List.range_succ, List.range_zero, List.nil_append, List.cons_append, List.map_cons, List.map_nil, List.cons.injEq] at e2
    obtain ⟨a, b, d, f, g, h, _⟩ := e2
    unfold ShortLines
    rw [he, a, b, d, f, g, h]
    decide
  · have : rows = rows0 := Option.some.inj (hrows.symm.trans hz)
    subst this
    have key : ∀ row ∈ rows, row.path = join oneName := by
      intro row hrow
      have := List.mem_map_of_mem (f := fun r : CatRow => r.path) hrow
      rw [e1] at this
      simpa using this
    refine ⟨e1, ?_, fun row hrow => ?_, fun row hrow ps k6 hp k hk h3 => ?_⟩
    · have := congrArg List.length e1
      simp only [List.length_map, List.length_cons, List.length_nil] at this
      omega
    · rw [key row hrow]
      exact ⟨oneName, h6, rfl, by decide⟩
    · have := join_unique k6 h6 (hp.symm.trans (key row hrow))
      subst this
      match k, h3 with
      | 0, _ => exact (by unfold PlainPart Spec.NoBlankEnd; decide : PlainPart [65])
      | 1, _ => exact (by unfold PlainPart Spec.NoBlankEnd; decide : PlainPart [])
      | 2, _ => exact (by unfold PlainPart Spec.NoBlankEnd; decide : PlainPart [70, 76])

/-- The answers after writing `/A//FL///F/`, evaluated; and after renaming a record to a longer name. -/
example : (statsRuns tiny.1 tiny.2 noPathStats [.write (req (join oneName) [] [] [3])]).map (fun st => (st.maxPath, zmaxPart7 st)) =
      some (11, [1, 0, 2, 0, 0, 1]) ∧
    (statsRuns tiny.1 tiny.2 noPathStats (first ++ [.rename psA1 psB2 env0])).map (fun st => (st.maxPath, zmaxPart7 st)) =
      some (19, [1, 0, 4, 2, 4, 1]) := by decide +kernel

/-- The full claim is that the numbers are those of the longest parts in the file ("Length of longest A part of pathname
in file", zinquire.c:209).  It fails: when the record with the longest part is deleted they stay. -/
theorem C100_not_lowered_violation :
    ((runs tiny.1 tiny.2 [.write (req (join oneName) [] [] [3]), .delete (join oneName)]).bind fun p => zcatalog tiny.1 p.1 everything) = some [] ∧
    (statsRuns tiny.1 tiny.2 noPathStats [.write (req (join oneName) [] [] [3]), .delete (join oneName)]).map zmaxPart7 =
      some [1, 0, 2, 0, 0, 1] := by decide +kernel

end Hec
