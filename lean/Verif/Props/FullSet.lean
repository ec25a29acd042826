import Verif.Proofs.FullSet
/-!
C94: the first and the last record of a series.
-/
namespace Hec
set_option linter.unusedSimpArgs false
set_option linter.unusedVariables false
open _root_.Spec (Date Op GoodSizes create join SixParts IsPart Holds Printable Matches Reachable IsBlockName InSeries NamesDay ShortNames DatedRecords SeriesSeed OldMinute
  RegInterval RegStore regSeries blockLength DayOf SameBlock OnlyBlocks Block)
open Hec.Spec (sameUpToCase)

variable {hdrSize maxHash binSize : Nat} {mul : Nat → Nat}

theorem names_day {ps : List Bytes} {j : Int} (h1 : julianOf ⟨100, 1, 1⟩ ≤ j) (h2 : j ≤ julianOf ⟨9999, 12, 31⟩) {p : Bytes} :
    NamesDay ps j p ↔ sameUpToCase p (blk ps j) := by
  obtain ⟨k1, _⟩ := dayName_spec h1 h2
  constructor
  · rintro ⟨q, ⟨t, ht, rfl⟩, hs⟩
    rw [k1] at ht
    injection ht with ht
    subst ht
    exact hs
  · intro hs
    exact ⟨_, ⟨_, k1, rfl⟩, hs⟩

theorem set_set_part {qs : List Bytes} (hq : SixParts qs) {d : Bytes} (hd : qs[3]? = some d) : qs.set 3 d = qs := by
  have hi : 3 < qs.length := by rw [hq.1]; omega
  rw [List.getElem?_eq_getElem hi] at hd
  injection hd with hd
  rw [← hd]; exact List.set_getElem_self hi

/-- The D part of the pathname of a block. -/
theorem day_part {ps qs : List Bytes} (hp : SixParts ps) (hq : SixParts qs) {j : Int} (h1 : julianOf ⟨100, 1, 1⟩ ≤ j) (h2 : j ≤ julianOf ⟨9999, 12, 31⟩)
    (h : sameUpToCase (join qs) (blk ps j)) {d : Bytes} (hd : qs[3]? = some d) : d.length = 9 ∧ dateToJulian d = j ∧ ∀ i, julianOf ⟨100, 1, 1⟩ ≤ i → i ≤ julianOf ⟨9999, 12, 31⟩ →
      sameUpToCase (blk qs i) (blk ps i) := by
  obtain ⟨_, a2, a3, a4⟩ := dayName_spec h1 h2
  have h6 := set_part hp a3 3
  have hs : sameUpToCase d (dayName j) := join_parts hq h6 h hd (by rw [List.getElem?_set_self (by rw [hp.1]; omega)])
  have hl : d.length = (dayName j).length := (same_iff.mp hs).length
  refine ⟨by omega, by rw [dateToJulian_same (same_iff.mp hs) (by omega), a4], fun i i1 i2 => ?_⟩
  obtain ⟨_, b2, b3, b4⟩ := dayName_spec i1 i2
  refine same_join (by rw [List.length_set, List.length_set, hp.1, hq.1]) fun k a b ha hb => ?_
  by_cases hk : k = 3
  · subst hk
    rw [List.getElem?_set_self (by rw [hq.1]; omega)] at ha
    rw [List.getElem?_set_self (by rw [hp.1]; omega)] at hb
    injection ha with ha; injection hb with hb
    rw [← ha, ← hb]
    exact same_iff.mpr (Same.refl _)
  · rw [List.getElem?_set_ne (Ne.symm hk)] at ha hb
    exact join_parts hq h6 h ha (by rw [List.getElem?_set_ne (Ne.symm hk)]; exact hb)

/-- A pathname is that of one block only. -/
theorem one_day {ps : List Bytes} (h6 : SixParts ps) {i j : Int} (i2 : julianOf ⟨100, 1, 1⟩ ≤ i) (i3 : i ≤ julianOf ⟨9999, 12, 31⟩) (j1 : julianOf ⟨100, 1, 1⟩ ≤ j)
    (j2 : j ≤ julianOf ⟨9999, 12, 31⟩) {p : Bytes} (hi : sameUpToCase p (blk ps i)) (hj : sameUpToCase p (blk ps j)) : i = j := by
  have hh : sameUpToCase (join (ps.set 3 (dayName i))) (blk ps j) := sameUp_trans (sameUp_symm hi) hj
  have hdi : (ps.set 3 (dayName i))[3]? = some (dayName i) := by rw [List.getElem?_set_self (by rw [h6.1]; omega)]
  obtain ⟨_, z, _⟩ := day_part h6 (set_part h6 (dayName_spec i2 i3).2.2.1 3) j1 j2 hh hdi
  rw [(dayName_spec i2 i3).2.2.2] at z
  exact z

theorem printable_same {a b : Bytes} (h : sameUpToCase a b) (hb : Printable b) : Printable a := by
  intro c hc
  have : toupper c ∈ b.map toupper := by
    rw [← same_iff.mp h]
    exact List.mem_map.mpr ⟨c, hc, rfl⟩
  obtain ⟨y, y1, y2⟩ := List.mem_map.mp this
  have k1 := hb y y1
  have k2 : ∀ y : UInt8, 32 ≤ y ∧ y ≤ 126 → 32 ≤ toupper y ∧ toupper y ≤ 126 := fun y => forallByte (fun y => 32 ≤ y ∧ y ≤ 126 → 32 ≤ toupper y ∧ toupper y ≤ 126) (by decide +kernel) y
  have k3 : ∀ y : UInt8, 32 ≤ toupper y ∧ toupper y ≤ 126 → 32 ≤ y ∧ y ≤ 126 := fun y => forallByte (fun y => 32 ≤ toupper y ∧ toupper y ≤ 126 → 32 ≤ y ∧ y ≤ 126) (by decide +kernel) y
  exact k3 c (y2 ▸ k2 y k1)

/-- C94.  After any history, the pathnames hec_dss_tsGetDateTimeRange looks for with `boolFullSet` are those of the first
and of the last record of the series: both are in the file, and no record of the series has an earlier or a later date.
Nothing is found if and only if there is no record of the series.
Missing: pathnames with an old minute interval, stars, or characters that are not printable; files with pathnames of fewer parts
or with parts of more than 128 characters, and series of which some record has a D part that is not a date
(C94_pattern_violation, C94_text_violation). -/
theorem C94_first_last_partial (g : GoodSizes hdrSize maxHash binSize) {past : List Op} {s : Eng}
    (R : Reachable (create hdrSize maxHash binSize mul).1 (create hdrSize maxHash binSize mul).2 past s) (hn : ShortNames (create hdrSize maxHash binSize mul).1 s)
    (m : FullMem) {ps : List Bytes} (h : SeriesSeed ps) (hold : ∀ e, ps[4]? = some e → ¬ OldMinute e)
    (hd : DatedRecords julianOf (create hdrSize maxHash binSize mul).1 s ps) :
    (ztsGetFirstLastPathnames (create hdrSize maxHash binSize mul).1 s m (join ps) = some none ∧
      ∀ p rec, p.length ≤ 392 → InSeries ps p → zread (create hdrSize maxHash binSize mul).1 s p ≠ some (some rec)) ∨
    ∃ f l jf jl, ztsGetFirstLastPathnames (create hdrSize maxHash binSize mul).1 s m (join ps) = some (some (f, l)) ∧
      julianOf ⟨100, 1, 1⟩ ≤ jf ∧ jf ≤ jl ∧ jl ≤ julianOf ⟨9999, 12, 31⟩ ∧ NamesDay ps jf f ∧ NamesDay ps jl l ∧ f.length ≤ 392 ∧ l.length ≤ 392 ∧
      (∃ rec, zread (create hdrSize maxHash binSize mul).1 s f = some (some rec)) ∧ (∃ rec, zread (create hdrSize maxHash binSize mul).1 s l = some (some rec)) ∧
      ∀ j p rec, julianOf ⟨100, 1, 1⟩ ≤ j → j ≤ julianOf ⟨9999, 12, 31⟩ → NamesDay ps j p → p.length ≤ 392 →
        zread (create hdrSize maxHash binSize mul).1 s p = some (some rec) → jf ≤ j ∧ j ≤ jl := by
  have hc : ((create hdrSize maxHash binSize mul).1).OK := create_OK g
  obtain ⟨G, H⟩ := reach g R
  obtain ⟨rows0, c1, _, _, c4, c5⟩ := C48_catalog_partial g R
  have h6 := h.six
  have hno := not_old h6 hold
  obtain ⟨b0, p1, p2, p3⟩ := clean_join h6 (fun p hp => (h.short p hp).2.2) (b := List.replicate 393 m.u) (by rw [List.length_replicate]; have := h.fits; omega)
  rw [List.length_replicate] at p2
  have hcs : cstr b0 = join ps := cstr_holds p3 (join_nonzero _ h6.2)
  obtain ⟨k, hk, _⟩ := zcheck_found hc H.inv h.fits
  -- the pathname before the pattern is made
  have hpath : ∃ b1 e e0, (if k.found then some b0 else pathTimeWindow m b0) = some b1 ∧ b1.length = 393 ∧ ps[4]? = some e0 ∧ sameUpToCase e e0 ∧ Holds b1 (join (ps.set 4 e)) := by
    split
    · have hi : 4 < ps.length := by rw [h6.1]; omega
      exact ⟨b0, ps[4], ps[4], rfl, p2, List.getElem?_eq_getElem hi, same_iff.mpr (Same.refl _), by rw [List.set_getElem_self hi]; exact p3⟩
    · exact time_window m h p3 p2
  obtain ⟨b1, e, e0, q1, q2, q3, q4, q5⟩ := hpath
  have he : IsPart e := same_isPart q4 (h6.2 _ (List.mem_of_getElem? q3))
  have h6' := set_part h6 he 4
  have hlen := (same_iff.mp (same_set q3 q4)).length
  have hi3 : 3 < (ps.set 4 e).length := by rw [h6'.1]; omega
  -- the pattern
  have hroom : (join ((ps.set 4 e).set 3 [42])).length < b1.length := by
    have e1 : (join ((ps.set 4 e).set 3 [42])).length = (join (ps.set 3 [42])).length := by
      rw [List.set_comm _ _ (by decide)]
      exact (same_iff.mp (same_set (ps := ps.set 3 [42]) (i := 4) (e0 := e0) (by rw [List.getElem?_set_ne (by decide)]; exact q3) q4)).length
    have w1 := join_set h6 [42]
    have w2 := join_set h6 []
    have w3 := congrArg List.length w1
    have w4 := congrArg List.length w2
    simp only [List.length_append, List.length_cons, List.length_nil] at w3 w4
    have := h.room
    unfold Spec.blockLength at this
    omega
  obtain ⟨b2, r1, r2, r3⟩ := setPart_spec (ps.set 4 e) h6'.1 h6'.2 3 (by omega) b1 q5 [42] m.junk m.before (Or.inl (by simp)) hroom
  have r1' : zpathnameSetPart m.before b1 [42] 4 m.junk = some (b2, true) := r1
  have hstar : IsPart [42] := by intro c hc; simp at hc; subst hc; decide
  have h6'' := set_part h6' hstar 3
  have hcs2 : cstr b2 = join ((ps.set 4 e).set 3 [42]) := cstr_holds r3 (join_nonzero _ h6''.2)
  -- the rows
  obtain ⟨rows, sel, s1, s2, _, s4, s5⟩ := C48_selection_partial g R { everything with wild := (fun p => (wildFound m.before m.u m.junk (join ((ps.set 4 e).set 3 [42])) p).getD false) } rfl
  have hr0 : rows = rows0 := (Option.some.inj (c1.symm.trans s1)).symm
  subst hr0
  have hz := full_request (c := (create hdrSize maxHash binSize mul).1) (s := s) m (join ((ps.set 4 e).set 3 [42]))
  rw [s5] at hz
  have hz : zcatalog (create hdrSize maxHash binSize mul).1 s (fullRequest m (join ((ps.set 4 e).set 3 [42]))) = some sel := hz
  have hrow : ∀ r ∈ rows, r.path.length ≤ 392 ∧ ∃ qs, SixParts qs ∧ (∀ x ∈ qs, x.length ≤ 128) ∧ r.path = join qs ∧ (r ∈ sel ↔ InSeries ps (join qs)) ∧
      ∃ rec, zread (create hdrSize maxHash binSize mul).1 s r.path = some (some rec) := by
    intro r hr
    obtain ⟨k1, rec, k2, _⟩ := c4 r hr
    obtain ⟨qs, t1, t2, t3⟩ := hn _ _ k1 k2
    refine ⟨k1, qs, t1, t2, t3, ?_, rec, k2⟩
    have hs := s4 r (Or.inl rfl)
    rw [hs, ← wild_iff m h q3 q4 t1 t2, t3]
    constructor
    · intro hh; exact hh.2.1
    · intro hh; exact ⟨hr, hh, Or.inl rfl⟩
  have hselrows : ∀ r ∈ sel, r ∈ rows := fun r hr => s2.subset hr
  -- every selected row has a day
  have hday : ∀ r ∈ sel, ∃ j, dayOfPath m r.path = some j ∧ (julianOf ⟨100, 1, 1⟩ ≤ j ∧ j ≤ julianOf ⟨9999, 12, 31⟩ ∧ sameUpToCase r.path (blk ps j)) := by
    intro r hr
    obtain ⟨t1, qs, t2, t3, t4, t5, rec, t6⟩ := hrow r (hselrows r hr)
    have hin := t5.mp hr
    rw [← t4] at hin
    obtain ⟨j, j1, j2, j3⟩ := hd _ _ t1 t6 hin
    have hs := (names_day j1 j2).mp j3
    have hi : 3 < qs.length := by rw [t2.1]; omega
    have hdd : qs[3]? = some qs[3] := List.getElem?_eq_getElem hi
    obtain ⟨d1, d2, _⟩ := day_part h6 t2 j1 j2 (t4 ▸ hs) hdd
    exact ⟨j, by rw [t4, day_of_path m t2 t3 hdd, d2], j1, j2, hs⟩
  have hstep : ztsGetFirstLastPathnames (create hdrSize maxHash binSize mul).1 s m (join ps) =
      firstLastOf m b2 sel := by
    unfold ztsGetFirstLastPathnames
    rw [p1, Option.bind_some]
    simp only
    rw [hcs, zcheckName_plain hno, hk, Option.map_some, Option.bind_some]
    simp only
    rw [q1, Option.bind_some, r1', Option.bind_some]
    simp only
    rw [hcs2, hz, Option.bind_some]
  -- records of the series are rows
  have hback : ∀ p rec, p.length ≤ 392 → InSeries ps p → zread (create hdrSize maxHash binSize mul).1 s p = some (some rec) → ∃ r ∈ sel, sameUpToCase r.path p := by
    intro p rec hp hin hz
    obtain ⟨r, hr, hs⟩ := c5 p rec hp hz
    obtain ⟨_, qs, _, _, t4, t5, _⟩ := hrow r hr
    obtain ⟨d, e1, e2⟩ := hin
    exact ⟨r, t5.mpr ⟨d, e1, sameUp_trans (t4 ▸ hs) e2⟩, hs⟩
  cases hsel : sel with
  | nil =>
    left
    refine ⟨by rw [hstep, hsel]; rfl, ?_⟩
    intro p rec hp hin hz
    obtain ⟨r, hr, _⟩ := hback p rec hp hin hz
    rw [hsel] at hr
    cases hr
  | cons r rest =>
    right
    rw [hsel] at hday hback
    obtain ⟨j0, a1, a2, a3, a4⟩ := hday r (by simp)
    obtain ⟨js, b1', b2', b3'⟩ := days_of_paths rest fun x hx => hday x (by simp [hx])
    have hall : ∀ j ∈ j0 :: js, ∃ x ∈ r :: rest, julianOf ⟨100, 1, 1⟩ ≤ j ∧ j ≤ julianOf ⟨9999, 12, 31⟩ ∧ sameUpToCase x.path (blk ps j) := by
      intro j hj
      rcases List.mem_cons.mp hj with rfl | hj
      · exact ⟨r, by simp, a2, a3, a4⟩
      · obtain ⟨x, x1, x2⟩ := b3' j hj
        exact ⟨x, by simp [x1], x2⟩
    have hall2 : ∀ x ∈ r :: rest, ∃ j ∈ j0 :: js, julianOf ⟨100, 1, 1⟩ ≤ j ∧ j ≤ julianOf ⟨9999, 12, 31⟩ ∧ sameUpToCase x.path (blk ps j) := by
      intro x hx
      rcases List.mem_cons.mp hx with rfl | hx
      · exact ⟨j0, by simp, a2, a3, a4⟩
      · obtain ⟨j, j1, j2⟩ := b2' x hx
        exact ⟨j, by simp [j1], j2⟩
    obtain ⟨m1, m2⟩ := fold_min js j0
    obtain ⟨n1, n2⟩ := fold_max js j0
    generalize hjf : js.foldl (fun a b => if b < a then b else a) j0 = jf at *
    generalize hjl : js.foldl (fun a b => if b > a then b else a) j0 = jl at *
    obtain ⟨xf, xf1, xf2, xf3, xf4⟩ := hall jf m1
    obtain ⟨xl, xl1, xl2, xl3, xl4⟩ := hall jl n1
    have hmem : ∀ x ∈ r :: rest, x ∈ sel := fun x hx => by rw [hsel]; exact hx
    obtain ⟨t1, qs, t2, t3, t4, t5, _⟩ := hrow r (hselrows r (hmem r (by simp)))
    have hi : 3 < qs.length := by rw [t2.1]; omega
    have hdd : qs[3]? = some qs[3] := List.getElem?_eq_getElem hi
    obtain ⟨d1, _, d3⟩ := day_part h6 t2 a2 a3 (t4 ▸ a4) hdd
    -- the parts of the first row are printable
    have hpr : ∀ x ∈ qs, Printable x := by
      intro x hx
      obtain ⟨i, hix⟩ := List.mem_iff_getElem?.mp hx
      have hi6 : i < 6 := by
        rcases Nat.lt_or_ge i 6 with h' | h'
        · exact h'
        · rw [List.getElem?_eq_none (by rw [t2.1]; omega)] at hix; cases hix
      have hpi : (ps.set 3 (dayName j0))[i]? = some ((ps.set 3 (dayName j0))[i]'(by rw [List.length_set, h6.1]; omega)) := List.getElem?_eq_getElem _
      have hs := join_parts t2 (set_part h6 (dayName_spec a2 a3).2.2.1 3) (t4 ▸ a4) hix hpi
      refine printable_same hs ?_
      rcases List.mem_or_eq_of_mem_set (List.mem_of_getElem? hpi) with h' | h'
      · exact (h.short _ h').2.2
      · rw [h']; exact dayName_printable a2 a3
    obtain ⟨b3, u1, u2, u3⟩ := stringCopy_spec b2 r.path r.path.length (by rw [t4]; unfold join; simp) (Nat.le_refl _) (by omega)
    rw [List.take_of_length_le (Nat.le_refl _), t4] at u3
    obtain ⟨b4, v1, v2, v3, v4, v5, v6⟩ := path_with_day m t2 hpr u3 (by omega) hdd d1 (by rw [← t4]; exact t1) xf2 xf3 (dayName_printable xf2 xf3)
    have hdd2 : (qs.set 3 (dayName jf))[3]? = some (dayName jf) := by rw [List.getElem?_set_self hi]
    obtain ⟨b5, w1, w2, w3, w4, w5, w6⟩ := path_with_day m v4 v5 v3 v2 hdd2 (dayName_spec xf2 xf3).2.1 v6 xl2 xl3 (dayName_printable xl2 xl3)
    rw [List.set_set] at w1 w6
    have read : ∀ j x, julianOf ⟨100, 1, 1⟩ ≤ j → j ≤ julianOf ⟨9999, 12, 31⟩ → x ∈ r :: rest → sameUpToCase x.path (blk ps j) →
        ∃ rec, zread (create hdrSize maxHash binSize mul).1 s (blk qs j) = some (some rec) := by
      intro j x j1 j2 hx hs
      obtain ⟨y1, _, _, _, _, _, rec, y6⟩ := hrow x (hselrows x (hmem x hx))
      have hsame : Same x.path (blk qs j) := same_iff.mp (sameUp_trans hs (sameUp_symm (d3 j j1 j2)))
      rw [zread_abs hc H.inv y1] at y6
      refine ⟨rec, ?_⟩
      rw [zread_abs hc H.inv (same_len hsame y1), abs_live_same hc H.inv y1 hsame]
      exact y6
    refine ⟨join (qs.set 3 (dayName jf)), join (qs.set 3 (dayName jl)), jf, jl, ?_, xf2, m2 jl n1, xl3, (names_day xf2 xf3).mpr (d3 jf xf2 xf3), (names_day xl2 xl3).mpr (d3 jl xl2 xl3), v6, w6,
      read jf xf xf2 xf3 xf1 xf4, read jl xl xl2 xl3 xl1 xl4, ?_⟩
    · rw [hstep, hsel]
      unfold firstLastOf
      simp only
      rw [a1, Option.bind_some, b1', Option.bind_some, u1, Option.bind_some]
      simp only
      rw [hjf, v1, Option.bind_some]
      simp only
      rw [hjl, w1, Option.map_some]
    · intro j p rec j1 j2 hnd hpl hz
      have hs := (names_day j1 j2).mp hnd
      obtain ⟨x, x1, x2⟩ := hback p rec hpl ⟨dayName j, (dayName_spec j1 j2).2.2.1, hs⟩ hz
      obtain ⟨i, i1, i2, i3, i4⟩ := hall2 x x1
      have heq : i = j := one_day h6 i2 i3 j1 j2 i4 (sameUp_trans x2 hs)
      subst heq
      exact ⟨m2 i i1, n2 i i1⟩

/-- The start of the block of a day. -/
theorem start_low (r : RegInterval) {d : Date} (hv : d.Valid) (hy : 100 ≤ d.year) : julianOf ⟨100, 1, 1⟩ ≤ julianOf (r.block.start d) := by
  have hs := Block.start_valid r.block d hv hy
  have hy2 : 100 ≤ (r.block.start d).year := by
    cases r.block <;> simp only [Block.start] <;> omega
  apply Decidable.byContradiction
  intro hlt
  have := julian_before hs.1 (jan1_valid 100) hs.2 (by decide) (by omega)
  unfold Date.before at this
  have h1 := hs.1
  unfold Date.Valid at h1
  simp only at this
  omega

theorem series_reach {c : Cfg} {s0 : Eng} {cfg : RegCfg UInt32} {r : RegInterval} {q : Nat} {ps : List Bytes} {past : List Op} {s : Eng} {xs : List (TsDesc × RegStore (List UInt32))}
    (h : SeriesHistory c s0 cfg r q ps past s xs) : Reachable c s0 past s := by
  induction h with
  | start hr _ => exact hr
  | store _ _ _ _ _ _ hL ih => exact leads_append ih hL
  | other _ hL _ ih => exact leads_append ih hL

/-- C94, second part.  After any history of stores of a regular series, and of other calls on the file,
hec_dss_tsGetDateTimeRange with `boolFullSet` gives the times of the first and of the last value of the whole series that is
not missing; it fails if and only if all values are missing.
Missing: as in C69_block_range_partial and in C94_first_last_partial. -/
theorem C94_series_range_partial (g : GoodSizes hdrSize maxHash binSize) {cfg : RegCfg UInt32} {q : Nat} (hcfg : SeriesCfg cfg q) {r : RegInterval} (hr : r.Ok) (hyr : r ≠ .period .year)
    {ps : List Bytes} (hseed : SeriesSeed ps) (hold : ∀ e, ps[4]? = some e → ¬ OldMinute e) {past : List Op} {s : Eng} {xs : List (TsDesc × RegStore (List UInt32))}
    (h : SeriesHistory (create hdrSize maxHash binSize mul).1 (create hdrSize maxHash binSize mul).2 cfg r q ps past s xs)
    (hx : ∀ x ∈ xs, x.2.qualitySize = 0 ∧ x.2.flag ≠ 2) (hk : cfg.keepEmpty = false) (hn : ShortNames (create hdrSize maxHash binSize mul).1 s) (m : FullMem)
    (hb : OnlyBlocks julianOf r (InRange r) (create hdrSize maxHash binSize mul).1 s ps) :
    (ztsGetFullRange (create hdrSize maxHash binSize mul).1 s m (join ps) = some .notFound ∧
      ∀ x d, InRange r x → DayOf julianOf r x d → julianOf (r.block.start d) ≤ julianOf ⟨9999, 12, 31⟩ →
        cfg.isMissing (regSeries cfg.isMissing cfg.missing (xs.map Prod.snd) x) = true) ∨
    ∃ a b, ztsGetFullRange (create hdrSize maxHash binSize mul).1 s m (join ps) = some (.range (r.time julianOf a) (r.time julianOf b)) ∧
      cfg.isMissing (regSeries cfg.isMissing cfg.missing (xs.map Prod.snd) a) = false ∧ cfg.isMissing (regSeries cfg.isMissing cfg.missing (xs.map Prod.snd) b) = false ∧
      ∀ x d, InRange r x → DayOf julianOf r x d → julianOf (r.block.start d) ≤ julianOf ⟨9999, 12, 31⟩ →
        cfg.isMissing (regSeries cfg.isMissing cfg.missing (xs.map Prod.snd) x) = false → a ≤ x ∧ x ≤ b := by
  have R := series_reach h
  have hl := hseed.room
  have h6 := hseed.six
  have hdated : DatedRecords julianOf (create hdrSize maxHash binSize mul).1 s ps := by
    intro p R hp hz hin
    obtain ⟨a, d, _, hd, hle, hnd⟩ := hb p R hp hz hin
    exact ⟨_, start_low r hd.1 hd.2.1, hle, hnd⟩
  -- the block of a time
  have block : ∀ x d, InRange r x → DayOf julianOf r x d → julianOf (r.block.start d) ≤ julianOf ⟨9999, 12, 31⟩ → ∀ p, NamesDay ps (julianOf (r.block.start d)) p → _ :=
    fun x d hxr hd hle p hp => block_range g hcfg hr hyr h6 hl hold h hx hk hxr hd hle hp
  have name : ∀ x d, DayOf julianOf r x d → julianOf (r.block.start d) ≤ julianOf ⟨9999, 12, 31⟩ →
      NamesDay ps (julianOf (r.block.start d)) (blk ps (julianOf (r.block.start d))) ∧ (blk ps (julianOf (r.block.start d))).length ≤ 392 ∧
        InSeries ps (blk ps (julianOf (r.block.start d))) := by
    intro x d hd hle
    have hlo := start_low r hd.1 hd.2.1
    exact ⟨(names_day hlo hle).mpr (same_iff.mpr (Same.refl _)), (blk_facts (name_ok h6 hl) hlo hle).2.1, dayName _, (dayName_spec hlo hle).2.2.1, same_iff.mpr (Same.refl _)⟩
  rcases C94_first_last_partial g R hn m hseed hold hdated with ⟨k1, k2⟩ | ⟨f, l, jf, jl, k1, u1, u2, u3, k2, k3, k4, k5, ⟨rf, k6⟩, ⟨rl, k7⟩, k8⟩
  · left
    refine ⟨by unfold ztsGetFullRange; rw [k1]; rfl, ?_⟩
    intro x d hxr hd hle
    obtain ⟨n1, n2, n3⟩ := name x d hd hle
    rcases block x d hxr hd hle _ n1 with ⟨_, _, hmiss⟩ | ⟨a, b, _, ⟨rec, hz⟩, _⟩
    · exact hmiss x hxr ⟨d, d, hd, hd, rfl⟩
    · exact absurd hz (k2 _ _ n2 n3)
  · right
    have inS : ∀ p j, julianOf ⟨100, 1, 1⟩ ≤ j → j ≤ julianOf ⟨9999, 12, 31⟩ → NamesDay ps j p → InSeries ps p := fun p j h1 h2 hp =>
      ⟨dayName j, (dayName_spec h1 h2).2.2.1, (names_day h1 h2).mp hp⟩
    -- a record that is there is a block with values
    have found : ∀ p j rec, julianOf ⟨100, 1, 1⟩ ≤ j → j ≤ julianOf ⟨9999, 12, 31⟩ → NamesDay ps j p → p.length ≤ 392 →
        zread (create hdrSize maxHash binSize mul).1 s p = some (some rec) → ∃ a0 d0 a b, InRange r a0 ∧ DayOf julianOf r a0 d0 ∧ julianOf (r.block.start d0) = j ∧
          ztsGetDateTimeRange (create hdrSize maxHash binSize mul).1 s p = some (.range (r.time julianOf a) (r.time julianOf b)) ∧ a ≤ b ∧
          (∀ x d, InRange r x → DayOf julianOf r x d → (j < julianOf (r.block.start d) → b < x) ∧ (julianOf (r.block.start d) < j → x < a)) ∧
          cfg.isMissing (regSeries cfg.isMissing cfg.missing (xs.map Prod.snd) a) = false ∧ cfg.isMissing (regSeries cfg.isMissing cfg.missing (xs.map Prod.snd) b) = false ∧
          ∀ x, InRange r x → SameBlock julianOf r a0 x → cfg.isMissing (regSeries cfg.isMissing cfg.missing (xs.map Prod.snd) x) = false → a ≤ x ∧ x ≤ b := by
      intro p j rec h1 h2 hp hpl hz
      obtain ⟨a0, d0, w1, w2, w3, w4⟩ := hb p rec hpl hz (inS p j h1 h2 hp)
      have hj : julianOf (r.block.start d0) = j := one_day h6 (start_low r w2.1 w2.2.1) w3 h1 h2 ((names_day (start_low r w2.1 w2.2.1) w3).mp w4) ((names_day h1 h2).mp hp)
      rcases block a0 d0 w1 w2 w3 p w4 with ⟨_, hnone, _⟩ | ⟨a, b, e1, _, e0, e2, _, _, e3, e4, e5⟩
      · rw [hz] at hnone; injection hnone with hnone; cases hnone
      · rw [hj] at e2
        exact ⟨a0, d0, a, b, w1, w2, hj, e1, e0, e2, e3, e4, e5⟩
    obtain ⟨af, df, a, a', f1, f2, f3, f4, f9, f5, f6, f7, f8⟩ := found f jf rf u1 (by omega) k2 k4 k6
    obtain ⟨al, dl, b', b, l1, l2, l3, l4, l9, l5, l6, l7, l8⟩ := found l jl rl (by omega) u3 k3 k5 k7
    unfold ztsGetDateTimeRange at f4 l4
    refine ⟨a, b, ?_, f6, l7, ?_⟩
    · unfold ztsGetFullRange
      rw [k1, Option.bind_some]
      simp only
      rw [f4, Option.bind_some]
      simp only
      rw [l4, Option.map_some]
    · intro x d hxr hd hle hnm
      obtain ⟨n1, n2, n3⟩ := name x d hd hle
      have hlo := start_low r hd.1 hd.2.1
      rcases block x d hxr hd hle _ n1 with ⟨_, _, hmiss⟩ | ⟨_, _, _, ⟨rec, hz⟩, _⟩
      · rw [hmiss x hxr ⟨d, d, hd, hd, rfl⟩] at hnm; cases hnm
      · have hj := k8 _ _ _ hlo hle n1 n2 hz
        constructor
        · rcases Int.lt_or_eq_of_le hj.1 with h' | h'
          · have z1 := (f5 x d hxr hd).1 h'
            omega
          · exact (f8 x hxr ⟨df, d, f2, hd, by rw [f3]; exact h'⟩ hnm).1
        · rcases Int.lt_or_eq_of_le hj.2 with h' | h'
          · have z1 := (l5 x d hxr hd).2 h'
            omega
          · exact (l8 x hxr ⟨dl, d, l2, hd, by rw [l3]; exact h'.symm⟩ hnm).2

end Hec
