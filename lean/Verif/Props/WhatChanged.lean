import Verif.Model.WhatChanged
import Verif.Props.Catalog
import Verif.Props.Crc
import Verif.Props.RenameCases
/-!
What has changed in a file since a start (C77).
-/
namespace Hec
set_option linter.unusedSimpArgs false
set_option linter.unusedVariables false
set_option synthInstance.maxSize 1000
set_option synthInstance.maxHeartbeats 200000
open _root_.Spec (Op Reachable GoodSizes create run runs Plain AllAllowed Step Steps Store stored compatible WrittenIn IsOldName ThirdFits dataInts join)
open Hec.Spec (sameUpToCase)

/-- The times in the bins after a history without renames and refused writes. -/
theorem dated_runs {c : Cfg} (hc : c.OK) (ops : List Op) : ∀ {G : Ghost} {s : Eng} {past : List Op} {s' : Eng} {ress : List Res},
    HInv c G s past → Dated c G s.disk → AllAllowed c past s ops → runs c s ops = some (s', ress) → (∀ o n v, Op.rename o n v ∉ ops) →
    Res.differentType ∉ ress → ∃ G', HInv c G' s' (past ++ ops) ∧ Dated c G' s'.disk ∧ Steps (abs c G s.disk) ops ress (abs c G' s'.disk) := by
  induction ops with
  | nil =>
    intro G s past s' ress H D _ hr _ _
    simp only [_root_.Spec.runs, Option.some.injEq, Prod.mk.injEq] at hr
    obtain ⟨rfl, rfl⟩ := hr
    exact ⟨G, by simpa using H, D, .nil _⟩
  | cons op ops ih =>
    intro G s past s' ress H D ha hr hn hd
    obtain ⟨G1, s1, res, h1, S, H1⟩ := H.step hc ha.1
    simp only [_root_.Spec.runs, h1, Option.bind_some] at hr
    obtain ⟨⟨s2, ress2⟩, hr2, he⟩ := Option.map_eq_some_iff.mp hr
    simp only [Prod.mk.injEq] at he
    obtain ⟨rfl, rfl⟩ := he
    have D1 := S.dated (fun o n v h => hn o n v (by rw [h]; simp)) (fun h => hd (by rw [h]; simp)) D
    obtain ⟨G2, H2, D2, S2⟩ := ih H1 D1 (ha.2 s1 res h1) hr2 (fun o n v h => hn o n v (List.mem_cons_of_mem _ h)) (fun h => hd (List.mem_cons_of_mem _ h))
    exact ⟨G2, by simpa using H2, D2, .cons S.step S2⟩

section
variable {hdrSize maxHash binSize : Nat} {mul : Nat → Nat}

theorem dated_reach (g : GoodSizes hdrSize maxHash binSize) {ops : List Op} {s : Eng} {ress : List Res}
    (ha : AllAllowed (create hdrSize maxHash binSize mul).1 [] (create hdrSize maxHash binSize mul).2 ops)
    (hr : runs (create hdrSize maxHash binSize mul).1 (create hdrSize maxHash binSize mul).2 ops = some (s, ress))
    (hn : ∀ o n v, Op.rename o n v ∉ ops) (hd : Res.differentType ∉ ress) :
    ∃ G, HInv (create hdrSize maxHash binSize mul).1 G s ops ∧ Dated (create hdrSize maxHash binSize mul).1 G s.disk ∧
      Steps Store.empty ops ress (abs (create hdrSize maxHash binSize mul).1 G s.disk) := by
  obtain ⟨G, H, D, S⟩ := dated_runs (create_OK g) ops (newFile_inv (by have := g.bin; omega)) (by intro h _ e he; simp [newGhost] at he) ha hr hn hd
  rw [newFile_abs] at S
  exact ⟨G, by simpa using H, D, S⟩

/-- C77, and C48 on the time in a row: after a history without renames and refused writes every row of the catalog shows the time of the
last write that the record under its pathname has. -/
theorem C77_row_time_partial (g : GoodSizes hdrSize maxHash binSize) {ops : List Op} {s : Eng} {ress : List Res}
    (ha : AllAllowed (create hdrSize maxHash binSize mul).1 [] (create hdrSize maxHash binSize mul).2 ops)
    (hr : runs (create hdrSize maxHash binSize mul).1 (create hdrSize maxHash binSize mul).2 ops = some (s, ress))
    (hn : ∀ o n v, Op.rename o n v ∉ ops) (hd : Res.differentType ∉ ress) :
    ∃ rows, zcatalog (create hdrSize maxHash binSize mul).1 s everything = some rows ∧
      ∀ r ∈ rows, ∃ R, zread (create hdrSize maxHash binSize mul).1 s r.path = some (some R) ∧ r.lastWrite = R.lastWrite := by
  obtain ⟨G, H, D, _⟩ := dated_reach g ha hr hn hd
  obtain ⟨rows, hz, _⟩ := C48_catalog_partial g ⟨ha, ress, hr⟩
  refine ⟨rows, hz, ?_⟩
  have hc := create_OK (mul := mul) g
  generalize (create hdrSize maxHash binSize mul).1 = c at *
  obtain ⟨L, h1, h2, h3, h4⟩ := walk_all hc H.inv
  have hEnt := fun (p : BinEnt × Nat) (hp : p ∈ binsPlaced L) => entry_of_mem hc H.inv h2 hp
  have hrows := rowsOf_valid (c := c) (L := L) (fun p hp => (hEnt p hp).2.2) (q := everything) rfl
  intro r hmem
  have hr' : r ∈ rowsOf everything L := by
    unfold zcatalog at hz
    rw [h1 everything, Option.map_some, Option.some.injEq] at hz
    rw [← hz] at hmem
    exact List.mem_of_mem_take hmem
  rw [hrows] at hr'
  obtain ⟨p, hp, rfl⟩ := List.mem_map.mp (List.mem_filter.mp hr').1
  obtain ⟨hp, hl⟩ := List.mem_filter.mp hp
  obtain ⟨e, y⟩ := p
  obtain ⟨e1, e2, e3⟩ := hEnt _ hp
  have hl : live e := by simpa using hl
  obtain ⟨R, hR, _⟩ := live_read hc H.inv e1 e2 hl
  refine ⟨R, hR, ?_⟩
  rw [show (rowOf e y).lastWrite = e.lastWrite from rfl, D _ e1 e e2 (live_not_gone hl)]
  have hz2 : (abs c G s.disk).live e.path = some R := by
    have : zread c s e.path = some (some R) := hR
    rw [zread_abs hc H.inv e3.len] at this
    simpa using this
  obtain ⟨A, B, e', T, hm, hl', hA, hB⟩ := live_entry hc H.inv e3.len hz2
  have he : e = e' := by
    have h1 := T.ents
    rw [h1] at e2
    simp only [List.mem_append, List.mem_cons] at e2
    rcases e2 with h | h | h
    · exact absurd (Or.inr (hA e h (Same.refl _))) (live_not_dead hl)
    · exact h
    · exact absurd (hB e h (Same.refl _)) (live_not_dead hl)
  subst he
  exact congrArg Rec.lastWrite T.rcd.eq

/-- Where a record comes from, in a history of writes and deletes none of which is refused. -/
theorem from_write {st st' : Store} {ops : List Op} {ress : List Res} (S : Steps st ops ress st') {past : List Op} (hp : Plain past ops)
    (hd : Res.differentType ∉ ress) {q : Bytes} {R : Rec} (h : st'.live q = some R) :
    (∃ r, Op.write r ∈ ops ∧ sameUpToCase r.path q ∧ R.lastWrite = r.now) ∨
      (st.live q = some R ∧ ∀ r, Op.write r ∈ ops → ¬ sameUpToCase r.path q) := by
  induction S generalizing past with
  | nil => exact Or.inr ⟨h, by simp⟩
  | @cons st st1 st2 op ops res ress s1 S ih =>
    rcases ih hp.2 (fun h => hd (List.mem_cons_of_mem _ h)) h with ⟨r, hr, h1, h2⟩ | ⟨h1, h2⟩
    · exact Or.inl ⟨r, List.mem_cons_of_mem _ hr, h1, h2⟩
    · have written : ∀ {r : Req} {v : UInt32}, op = .write r → Spec.Set st.live st1.live r.path (some (stored r v)) →
          (∃ r, Op.write r ∈ op :: ops ∧ sameUpToCase r.path q ∧ R.lastWrite = r.now) ∨
            (st.live q = some R ∧ ∀ r, Op.write r ∈ op :: ops → ¬ sameUpToCase r.path q) := by
        intro r v ho hs
        by_cases hq : sameUpToCase r.path q
        · have := (hs q).1 hq
          rw [h1, Option.some.injEq] at this
          exact Or.inl ⟨r, by rw [ho]; simp, hq, by rw [this]; rfl⟩
        · refine Or.inr ⟨by rw [← h1, (hs q).2 hq], fun r' hr' => ?_⟩
          rcases List.mem_cons.mp hr' with h | h
          · rw [ho] at h
            cases h; exact hq
          · exact h2 r' h
      cases s1 with
      | writeNew _ hs _ => exact written rfl hs
      | overwrite _ _ hs _ => exact written rfl hs
      | refused => exact absurd (by simp) hd
      | @delete _ p _ _ hs _ =>
        by_cases hq : sameUpToCase p q
        · rw [(hs q).1 hq] at h1; cases h1
        · refine Or.inr ⟨by rw [← h1, (hs q).2 hq], fun r' hr' => ?_⟩
          rcases List.mem_cons.mp hr' with h | h
          · cases h
          · exact h2 r' h
      | deleteMissing =>
        refine Or.inr ⟨h1, fun r' hr' => ?_⟩
        rcases List.mem_cons.mp hr' with h | h
        · cases h
        · exact h2 r' h
      | undelete => exact hp.1.elim
      | undeleteMissing => exact hp.1.elim
      | rename => exact hp.1.elim
      | renameMissing => exact hp.1.elim

theorem plain_split (a b : List Op) : ∀ {past : List Op}, Plain past (a ++ b) → Plain past a ∧ Plain (past ++ a) b := by
  induction a with
  | nil => intro past h; exact ⟨trivial, by simpa using h⟩
  | cons x a ih =>
    intro past h
    obtain ⟨h1, h2⟩ := ih h.2
    exact ⟨⟨h.1, h1⟩, by simpa using h2⟩

theorem plain_no_rename (ops : List Op) : ∀ {past : List Op}, Plain past ops → ∀ o n v, Op.rename o n v ∉ ops := by
  induction ops with
  | nil => intro _ _ _ _ _ h; cases h
  | cons x ops ih =>
    intro past h o n v hm
    rcases List.mem_cons.mp hm with hx | hx
    · subst hx; exact h.1
    · exact ih h.2 o n v hx

theorem steps_split {st2 : Store} (a b : List Op) : ∀ {st : Store} {ress : List Res}, Steps st (a ++ b) ress st2 →
    ∃ st1 r1 r2, ress = r1 ++ r2 ∧ Steps st a r1 st1 ∧ Steps st1 b r2 st2 := by
  induction a with
  | nil => intro st ress h; exact ⟨st, [], ress, rfl, .nil _, h⟩
  | cons x a ih =>
    intro st ress h
    cases h with
    | cons h1 h2 =>
      obtain ⟨st1, r1, r2, e, k1, k2⟩ := ih h2
      exact ⟨st1, _ :: r1, r2, by rw [e]; rfl, .cons h1 k1, k2⟩

/-- The catalog that zwhatChanged makes first. -/
theorem changed_times (g : GoodSizes hdrSize maxHash binSize) {before since : List Op} (hp : Plain [] (before ++ since)) {s : Eng} {ress : List Res}
    (hr : runs (create hdrSize maxHash binSize mul).1 (create hdrSize maxHash binSize mul).2 (before ++ since) = some (s, ress))
    (hd : Res.differentType ∉ ress) {T : Nat} (hT : 0 < T) (h1 : ∀ r, Op.write r ∈ before → r.now ≤ T) (h2 : ∀ r, Op.write r ∈ since → T < r.now)
    (wild : Bytes → Bool) :
    ∃ all rows, zcatalog (create hdrSize maxHash binSize mul).1 s everything = some all ∧
      zcatalog (create hdrSize maxHash binSize mul).1 s ⟨REC_STATUS_VALID, 0, 0, T, 2, 0, wild⟩ = some rows ∧ rows.Sublist all ∧
      ∀ r, r ∈ rows ↔ r ∈ all ∧ wild r.path = true ∧ ∃ w, Op.write w ∈ since ∧ sameUpToCase w.path r.path := by
  have ha := plain_allowed (create_OK (mul := mul) g) (before ++ since) hp (s := (create hdrSize maxHash binSize mul).2)
  obtain ⟨G, H, D, S⟩ := dated_reach g ha hr (plain_no_rename _ hp) hd
  obtain ⟨all, hz, hrt⟩ := C77_row_time_partial g ha hr (plain_no_rename _ hp) hd
  obtain ⟨all', sel, hz', hsub, hwild, hsel, hzq⟩ := C48_selection_partial g ⟨ha, ress, hr⟩ ⟨REC_STATUS_VALID, 0, 0, T, 2, 0, wild⟩ rfl
  rw [hz, Option.some.injEq] at hz'
  subst hz'
  simp only [if_true] at hzq
  refine ⟨all, sel, hz, hzq, hsub, fun r => ?_⟩
  rw [hsel r (Or.inl rfl)]
  refine and_congr_right fun hm => and_congr_right fun _ => ?_
  obtain ⟨R, hR, hlw⟩ := hrt r hm
  have hlen : r.path.length ≤ 392 := by
    obtain ⟨a2, k0, _, _, k3, _⟩ := C48_catalog_partial g ⟨ha, ress, hr⟩
    rw [hz, Option.some.injEq] at k0
    subst k0
    exact (k3 r hm).1
  rw [zread_abs (create_OK g) H.inv hlen, Option.some.injEq] at hR
  have hw : WrittenIn 2 T r.lastWrite ↔ T < r.lastWrite := ⟨fun h => by cases h; assumption, fun h => .after h⟩
  rw [show ((⟨REC_STATUS_VALID, 0, 0, T, 2, 0, wild⟩ : CatReq).searchTime = 0 ∨
    WrittenIn (⟨REC_STATUS_VALID, 0, 0, T, 2, 0, wild⟩ : CatReq).searchFlag (⟨REC_STATUS_VALID, 0, 0, T, 2, 0, wild⟩ : CatReq).searchTime r.lastWrite) ↔
      T < r.lastWrite from ⟨fun h => h.elim (fun h => absurd h (by simp only; omega)) hw.mp, fun h => Or.inr (hw.mpr h)⟩, hlw]
  obtain ⟨p1, p2⟩ := plain_split before since hp
  obtain ⟨st1, r1, r2, he, S1, S2⟩ := steps_split before since S
  constructor
  · intro hlt
    rcases from_write S2 p2 (fun h => hd (by rw [he]; simp [h])) hR with ⟨w, a, b, d⟩ | ⟨a, _⟩
    · exact ⟨w, a, b⟩
    · rcases from_write S1 p1 (fun h => hd (by rw [he]; simp [h])) a with ⟨w, a, b, d⟩ | ⟨a, _⟩
      · have := h1 w a; omega
      · cases a
  · rintro ⟨w, hw, hs⟩
    rcases from_write S2 p2 (fun h => hd (by rw [he]; simp [h])) hR with ⟨w', a, b, d⟩ | ⟨_, a⟩
    · rw [d]; exact h2 w' a
    · exact absurd hs (a w hw)

/-- C77, without check sums: after the calls `before` the start is set, `T` being the time of the last change of the file; then the calls
`since` are made, later than `T`.  The rows are those rows of the full catalog (C48) whose pathname matches and has been written since. -/
theorem C77_times_partial (g : GoodSizes hdrSize maxHash binSize) {before since : List Op} (hp : Plain [] (before ++ since)) {s0 s : Eng} {ress0 ress : List Res}
    (hr0 : runs (create hdrSize maxHash binSize mul).1 (create hdrSize maxHash binSize mul).2 before = some (s0, ress0))
    (hr : runs (create hdrSize maxHash binSize mul).1 (create hdrSize maxHash binSize mul).2 (before ++ since) = some (s, ress))
    (hd : Res.differentType ∉ ress) {T : Nat} (hT : 0 < T) (h1 : ∀ r, Op.write r ∈ before → r.now ≤ T) (h2 : ∀ r, Op.write r ∈ since → T < r.now)
    (wild : Bytes → Bool) :
    ∃ st all rows, zwhatChangedSetStart (create hdrSize maxHash binSize mul).1 s0 T wild false = some st ∧
      zcatalog (create hdrSize maxHash binSize mul).1 s everything = some all ∧
      zwhatChanged (create hdrSize maxHash binSize mul).1 s st = some rows ∧ rows.Sublist all ∧
      ∀ r, r ∈ rows ↔ r ∈ all ∧ wild r.path = true ∧ ∃ w, Op.write w ∈ since ∧ sameUpToCase w.path r.path := by
  obtain ⟨all, rows, k1, k2, k3, k4⟩ := changed_times g hp hr hd hT h1 h2 wild
  refine ⟨⟨T, wild, none⟩, all, rows, rfl, k1, ?_, k3, k4⟩
  unfold zwhatChanged
  simp only [k2, Option.bind_some]

theorem rowCRCs_spec {c : Cfg} {s : Eng} (rows : List CatRow) (h : ∀ r ∈ rows, (zgetDataCRC c s r.path 0).isSome) :
    ∃ l, rowCRCs c s rows = some l ∧ l.map (·.1) = rows ∧ ∀ x ∈ l, zgetDataCRC c s x.1.path 0 = some x.2 := by
  induction rows with
  | nil => exact ⟨[], rfl, rfl, by simp⟩
  | cons r rows ih =>
    obtain ⟨l, h1, h2, h3⟩ := ih (fun r hr => h r (List.mem_cons_of_mem _ hr))
    obtain ⟨v, hv⟩ := Option.isSome_iff_exists.mp (h r (by simp))
    refine ⟨(r, v) :: l, by simp [rowCRCs, hv, h1], by simp [h2], ?_⟩
    intro x hx
    rcases List.mem_cons.mp hx with rfl | hx
    · exact hv
    · exact h3 x hx

theorem filter_one {α : Type} (l : List α) (p : α → Bool) (h : l.Pairwise fun a b => ¬ (p a = true ∧ p b = true)) : (l.filter p).length ≤ 1 := by
  induction l with
  | nil => simp
  | cons a l ih =>
    rw [List.pairwise_cons] at h
    by_cases hp : p a = true
    · rw [List.filter_cons_of_pos hp]
      have : l.filter p = [] := by
        rw [List.filter_eq_nil_iff]
        intro b hb hpb
        exact h.1 b hb ⟨hp, hpb⟩
      rw [this]; simp
    · rw [List.filter_cons_of_neg hp]; exact ih h.2

theorem changedRows_length {c : Cfg} {before now : List (CatRow × UInt32)} (h : before.Pairwise fun a b => c.pHash a.1.path ≠ c.pHash b.1.path) :
    (changedRows c before now).length ≤ now.length := by
  unfold changedRows
  induction now with
  | nil => simp
  | cons x now ih =>
    rw [List.flatMap_cons, List.length_append, List.length_map, List.length_cons]
    have : (before.filter fun y => decide (c.pHash x.1.path = c.pHash y.1.path ∧ x.2 ≠ y.2)).length ≤ 1 := by
      apply filter_one
      refine h.imp fun {a b} hab hh => ?_
      simp only [decide_eq_true_eq] at hh
      exact hab (hh.1.1.symm.trans hh.2.1)
    omega

/-- C77, with check sums: a record matches the start if it was there at the start, has been written since, and has another check sum (C76)
than then.  Records that are new are not listed, unless there was no matching record at all at the start (then all records written since
are).  The pathnames have different hashes. -/
theorem C77_check_sums_partial (g : GoodSizes hdrSize maxHash binSize) {before since : List Op} (hp : Plain [] (before ++ since)) {s0 s : Eng} {ress0 ress : List Res}
    (hr0 : runs (create hdrSize maxHash binSize mul).1 (create hdrSize maxHash binSize mul).2 before = some (s0, ress0))
    (hr : runs (create hdrSize maxHash binSize mul).1 (create hdrSize maxHash binSize mul).2 (before ++ since) = some (s, ress))
    (hd : Res.differentType ∉ ress) {T : Nat} (hT : 0 < T) (h1 : ∀ r, Op.write r ∈ before → r.now ≤ T) (h2 : ∀ r, Op.write r ∈ since → T < r.now)
    (wild : Bytes → Bool) {all0 all : List CatRow}
    (ha0 : zcatalog (create hdrSize maxHash binSize mul).1 s0 everything = some all0) (ha : zcatalog (create hdrSize maxHash binSize mul).1 s everything = some all)
    (hhash : ∀ a ∈ all0, ∀ b ∈ all0 ++ all, (create hdrSize maxHash binSize mul).1.pHash a.path = (create hdrSize maxHash binSize mul).1.pHash b.path → sameUpToCase a.path b.path)
    (hs0 : ∀ r ∈ all0, (zgetDataCRC (create hdrSize maxHash binSize mul).1 s0 r.path 0).isSome)
    (hs : ∀ r ∈ all, (zgetDataCRC (create hdrSize maxHash binSize mul).1 s r.path 0).isSome) :
    ∃ st rows, zwhatChangedSetStart (create hdrSize maxHash binSize mul).1 s0 T wild true = some st ∧
      zwhatChanged (create hdrSize maxHash binSize mul).1 s st = some rows ∧
      ∀ r, r ∈ rows ↔ r ∈ all ∧ wild r.path = true ∧ (∃ w, Op.write w ∈ since ∧ sameUpToCase w.path r.path) ∧
        ((∀ r0 ∈ all0, wild r0.path = false) ∨ ∃ r0 ∈ all0, wild r0.path = true ∧ sameUpToCase r0.path r.path ∧
          zgetDataCRC (create hdrSize maxHash binSize mul).1 s r.path 0 ≠ zgetDataCRC (create hdrSize maxHash binSize mul).1 s0 r0.path 0) := by
  obtain ⟨all', rows, k1, k2, k3, k4⟩ := changed_times g hp hr hd hT h1 h2 wild
  rw [ha, Option.some.injEq] at k1
  subst k1
  obtain ⟨p1, p2⟩ := plain_split before since hp
  have hal := plain_allowed (create_OK (mul := mul) g) before p1 (s := (create hdrSize maxHash binSize mul).2)
  obtain ⟨x0, sel0, hz, hsub, _, hsel, hzq⟩ := C48_selection_partial g ⟨hal, ress0, hr0⟩ ⟨REC_STATUS_VALID, 0, 0, 0, 0, 0, wild⟩ rfl
  rw [ha0, Option.some.injEq] at hz
  subst hz
  obtain ⟨y0, hz, _, hdiff, _, _⟩ := C48_catalog_partial g ⟨hal, ress0, hr0⟩
  rw [ha0, Option.some.injEq] at hz
  subst hz
  simp only [if_true] at hzq
  have hc := create_OK (mul := mul) g
  generalize (create hdrSize maxHash binSize mul).1 = c at *
  have hmem0 : ∀ r, r ∈ sel0 ↔ r ∈ all0 ∧ wild r.path = true := by
    intro r
    rw [hsel r (Or.inl rfl)]
    simp
  obtain ⟨l0, m1, m2, m3⟩ := rowCRCs_spec (c := c) (s := s0) sel0 (fun r hr => hs0 r ((hmem0 r).mp hr).1)
  refine ⟨⟨T, wild, if sel0 = [] then none else some l0⟩, ?_⟩
  by_cases he : sel0 = []
  · refine ⟨rows, ?_, ?_, fun r => ?_⟩
    · unfold zwhatChangedSetStart
      simp only [if_true, hzq, Option.bind_some, m1, Option.map_some]
    · unfold zwhatChanged
      simp only [k2, Option.bind_some, he, if_true]
    · rw [k4]
      refine and_congr_right fun _ => and_congr_right fun _ => ⟨fun h => ⟨h, Or.inl fun r0 h0 => ?_⟩, fun h => h.1⟩
      cases hw : wild r0.path with
      | false => rfl
      | true =>
        have := (hmem0 r0).mpr ⟨h0, hw⟩
        rw [he] at this; cases this
  · obtain ⟨l, n1, n2, n3⟩ := rowCRCs_spec (c := c) (s := s) rows (fun r hr => hs r ((k4 r).mp hr).1)
    have hpw : l0.Pairwise fun a b => c.pHash a.1.path ≠ c.pHash b.1.path := by
      have : sel0.Pairwise fun a b => c.pHash a.path ≠ c.pHash b.path := by
        refine List.Pairwise.imp_of_mem ?_ (hdiff.sublist hsub)
        intro a b ma mb hab hh
        exact hab (hhash a ((hmem0 a).mp ma).1 b (by simp [((hmem0 b).mp mb).1]) hh)
      rw [← m2, List.pairwise_map] at this
      exact this
    have hlen : (changedRows c l0 l).length ≤ rows.length := by
      have := changedRows_length (now := l) hpw
      rw [← n2, List.length_map]; exact this
    refine ⟨changedRows c l0 l, ?_, ?_, fun r => ?_⟩
    · unfold zwhatChangedSetStart
      simp only [if_true, hzq, Option.bind_some, m1, Option.map_some]
    · unfold zwhatChanged
      simp only [k2, Option.bind_some, if_neg he, n1, if_pos hlen]
    · have hnot : ¬ ∀ r0 ∈ all0, wild r0.path = false := by
        obtain ⟨a, ha'⟩ := List.exists_mem_of_ne_nil _ he
        intro h
        have h3 := (hmem0 a).mp ha'
        rw [h a h3.1] at h3
        exact absurd h3.2 (by simp)
      simp only [hnot, false_or]
      unfold changedRows
      simp only [List.mem_flatMap, List.mem_map, List.mem_filter, decide_eq_true_eq]
      constructor
      · rintro ⟨x, hx, y, ⟨hy, hh, hv⟩, rfl⟩
        have hxr : x.1 ∈ rows := by rw [← n2]; exact List.mem_map_of_mem hx
        have hyr := (hmem0 y.1).mp (by rw [← m2]; exact List.mem_map_of_mem hy)
        obtain ⟨q1, q2, q3⟩ := (k4 _).mp hxr
        refine ⟨q1, q2, q3, y.1, hyr.1, hyr.2, hhash _ hyr.1 _ (by simp [q1]) hh.symm, ?_⟩
        rw [n3 x hx, m3 y hy]
        intro h; exact hv (Option.some.inj h)
      · rintro ⟨q1, q2, q3, r0, a, b, d, e⟩
        have hxr := (k4 r).mpr ⟨q1, q2, q3⟩
        rw [← n2] at hxr
        obtain ⟨x, hx, rfl⟩ := List.mem_map.mp hxr
        have hyr := (hmem0 r0).mpr ⟨a, b⟩
        rw [← m2] at hyr
        obtain ⟨y, hy, rfl⟩ := List.mem_map.mp hyr
        refine ⟨x, hx, y, ⟨hy, ?_, ?_⟩, rfl⟩
        · exact hc.pHash_same _ _ (same_iff.mp (sameUp_symm d))
        · rw [n3 x hx, m3 y hy] at e
          intro h; exact e (by rw [h])

end

/-- Everything is asked for. -/
def anything : Bytes → Bool := fun _ => true

/-- A record of some values, written at a time. -/
def reqV (p : Bytes) (v : List UInt32) (now : Nat) : Req := { req p [] [] v with now := now }

/-- The pathnames of zwhatChanged after the calls `since`, if the start was set at the time `T` after the calls `before`; also the results
of `since`. -/
def changedPaths (useCRC : Bool) (T : Nat) (before since : List Op) : Option (List Res × List Bytes) :=
  (runs tiny.1 tiny.2 before).bind fun p => (zwhatChangedSetStart tiny.1 p.1 T anything useCRC).bind fun st =>
    (runs tiny.1 p.1 since).bind fun q => (zwhatChanged tiny.1 q.1 st).map fun rows => (q.2, rows.map (·.path))

/-- The hypotheses are met: one record written again, one not, one deleted, a new one. -/
theorem changed_case : ∃ st all rows s s0 ress ress0, runs tiny.1 tiny.2 [.write (reqV nA [1] 5), .write (reqV nB [2] 5), .write (reqV nC [2] 5)] = some (s0, ress0) ∧
    runs tiny.1 tiny.2 ([.write (reqV nA [1] 5), .write (reqV nB [2] 5), .write (reqV nC [2] 5)] ++ [.delete nC, .write (reqV na [7] 6)]) = some (s, ress) ∧
    zwhatChangedSetStart tiny.1 s0 5 anything false = some st ∧ zcatalog tiny.1 s everything = some all ∧ zwhatChanged tiny.1 s st = some rows ∧
    ∀ r, r ∈ rows ↔ r ∈ all ∧ sameUpToCase na r.path := by
  have hp : Plain [] ([.write (reqV nA [1] 5), .write (reqV nB [2] 5), .write (reqV nC [2] 5)] ++ [.delete nC, .write (reqV na [7] 6)]) := by
    simp only [Plain, List.cons_append, List.nil_append, and_true]
    refine ⟨⟨?_, ?_, ?_, ?_⟩, ⟨?_, ?_, ?_, ?_⟩, ⟨?_, ?_, ?_, ?_⟩, ?_, ⟨?_, ?_, ?_, ?_⟩⟩ <;> decide +kernel
  have k : ((runs tiny.1 tiny.2 [.write (reqV nA [1] 5), .write (reqV nB [2] 5), .write (reqV nC [2] 5)]).isSome ∧
      (runs tiny.1 tiny.2 ([.write (reqV nA [1] 5), .write (reqV nB [2] 5), .write (reqV nC [2] 5)] ++ [.delete nC, .write (reqV na [7] 6)])).map (·.2) =
        some [.ok, .ok, .ok, .ok, .ok]) := by decide +kernel
  obtain ⟨k0, k1⟩ := k
  obtain ⟨⟨s0, ress0⟩, h0⟩ := Option.isSome_iff_exists.mp k0
  obtain ⟨⟨s, ress⟩, h, hk⟩ := Option.map_eq_some_iff.mp k1
  simp only at hk
  subst hk
  obtain ⟨st, all, rows, a, b, d, _, e⟩ := C77_times_partial (mul := id) tiny_good hp h0 h (by decide) (T := 5) (by decide)
    (by intro r hr; simp at hr; rcases hr with rfl | rfl | rfl <;> decide)
    (by intro r hr; simp at hr; subst hr; decide) anything
  refine ⟨st, all, rows, s, s0, _, ress0, h0, h, a, b, d, fun r => ?_⟩
  rw [e r]
  simp only [anything, true_and]
  refine and_congr_right fun _ => ⟨?_, ?_⟩
  · rintro ⟨w, hw, hs⟩
    simp at hw; subst hw; exact hs
  · intro hs
    exact ⟨reqV na [7] 6, by simp, hs⟩

/-- Both ways on a record with other values. -/
example : changedPaths false 5 [.write (reqV nA [1] 5), .write (reqV nB [2] 5)] [.write (reqV nA [7] 6)] = some ([.ok], [nA]) ∧
    changedPaths true 5 [.write (reqV nA [1] 5), .write (reqV nB [2] 5)] [.write (reqV nA [7] 6), .write (reqV nB [2] 7)] = some ([.ok, .ok], [nA]) := by
  decide +kernel

/-- C77, failing part: with check sums a record that is new is not listed (against the comment in zwhatChangedCompare.c:105), but it is if there
was no record at the start. -/
theorem C77_new_record_violation :
    changedPaths true 5 [.write (reqV nA [1] 5)] [.write (reqV nB [2] 6)] = some ([.ok], []) ∧
    changedPaths false 5 [.write (reqV nA [1] 5)] [.write (reqV nB [2] 6)] = some ([.ok], [nB]) ∧
    changedPaths true 5 [] [.write (reqV nB [2] 6)] = some ([.ok], [nB]) := by
  decide +kernel

/-- C77, failing part: a write in the millisecond of the start is missed, in both ways. -/
theorem C77_same_time_violation :
    changedPaths false 5 [.write (reqV nA [1] 5)] [.write (reqV nA [2] 5)] = some ([.ok], []) ∧
    changedPaths true 5 [.write (reqV nA [1] 5)] [.write (reqV nA [2] 5)] = some ([.ok], []) := by
  decide +kernel

/-- C77, failing part: a record that is undeleted is not listed, although it was not there at the start. -/
theorem C77_undelete_violation :
    changedPaths false 6 [.write (reqV nA [1] 5), .delete nA] [.undelete nA] = some ([.ok], []) := by
  decide +kernel

/-- C77, failing part: a record written since and then renamed to a pathname that was used before the start is not listed. -/
theorem C77_rename_violation :
    changedPaths false 100 [.write (reqV (join psB1) [9] 77), .rename psB1 psC1 env0] [.write (reqV (join psA1) [3] 150), .rename psA1 psB1 env0] =
      some ([.ok, .ok], []) := by
  decide +kernel

/-- C77, failing part: a write that is refused makes the record, which is as it was, a changed one. -/
theorem C77_refused_violation :
    changedPaths false 5 [.write (reqT nA 100 5)] [.write (reqT nA 200 6)] = some ([.differentType], [nA]) := by
  decide +kernel

/-- C77, failing part: with check sums a series of zeros that grows is not listed. -/
theorem C77_zeros_violation :
    changedPaths true 5 [.write (reqV nA [0] 5)] [.write (reqV nA [0, 0, 0] 6)] = some ([.ok], []) := by
  decide +kernel

end Hec
