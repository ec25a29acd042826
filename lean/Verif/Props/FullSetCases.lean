import Verif.Props.FullSet
import Verif.Props.TsRangeCases
/-! C94 on a file: monthly flows over the turn of a decade, and other records beside them. -/
namespace Hec
set_option linter.unusedSimpArgs false
set_option linter.unusedVariables false
set_option synthInstance.maxSize 1000
set_option synthInstance.maxHeartbeats 200000
open _root_.Spec (Date Op GoodSizes create join SixParts IsPart Holds Printable Reachable InSeries NamesDay NamesSeries ShortNames DatedRecords SeriesSeed OldMinute
  RegInterval RegStore regSeries blockLength DayOf SameBlock OnlyBlocks Block runs)
open Hec.Spec (sameUpToCase)

variable {hdrSize maxHash binSize : Nat} {mul : Nat → Nat}

/-- The rows of the catalog tell whether the pathnames are short. -/
theorem short_names (g : GoodSizes hdrSize maxHash binSize) {past : List Op} {s : Eng}
    (R : Reachable (create hdrSize maxHash binSize mul).1 (create hdrSize maxHash binSize mul).2 past s) {rows : List CatRow}
    (hz : zcatalog (create hdrSize maxHash binSize mul).1 s everything = some rows)
    (h : ∀ r ∈ rows, ∃ qs, SixParts qs ∧ (∀ x ∈ qs, x.length ≤ 128) ∧ r.path = join qs) : ShortNames (create hdrSize maxHash binSize mul).1 s := by
  obtain ⟨rows', c1, _, _, _, c5⟩ := C48_catalog_partial g R
  have : rows' = rows := Option.some.inj (c1.symm.trans hz)
  subst this
  intro p rec hp hr
  obtain ⟨r, r1, r2⟩ := c5 p rec hp hr
  obtain ⟨qs, q1, q2, q3⟩ := h r r1
  obtain ⟨ps, p1, p2⟩ := six_same (same_iff.mp r2) ⟨qs, q1, q3⟩
  refine ⟨ps, p1, fun x hx => ?_, p2⟩
  obtain ⟨i, hi⟩ := List.mem_iff_getElem?.mp hx
  have hi6 : i < qs.length := by
    rcases Nat.lt_or_ge i 6 with h' | h'
    · rw [q1.1]; exact h'
    · rw [List.getElem?_eq_none (by rw [p1.1]; omega)] at hi; cases hi
  have hs := join_parts p1 q1 (by rw [← p2, ← q3]; exact sameUp_symm r2) hi (List.getElem?_eq_getElem hi6)
  rw [(same_iff.mp hs).length]
  exact q2 _ (List.getElem_mem hi6)

/-- `/A/B/FLOW/2019/1Month/F/`. -/
def fflow : List Bytes := [[65], [66], [70, 76, 79, 87], [50, 48, 49, 57], [49, 77, 111, 110, 116, 104], [70]]

theorem fflow_six : SixParts fflow := ⟨rfl, by unfold IsPart; decide⟩

theorem fflow_seed : SeriesSeed fflow := by
  refine ⟨fflow_six, by decide, by decide, by unfold Printable; decide, ?_, ?_⟩
  · intro d hd
    have : d = [50, 48, 49, 57] := (Option.some.inj hd).symm
    subst this; decide
  · intro e secs name he hh
    have : e = [49, 77, 111, 110, 116, 104] := (Option.some.inj he).symm
    subst this
    have h2 : ePartToSeconds 7 [49, 77, 111, 110, 116, 104] = some (0, 2592000, [49, 77, 111, 110, 116, 104]) := by decide +kernel
    rw [h2] at hh
    injection hh with hh; injection hh with _ hh; injection hh with _ hh
    subst hh; exact same_iff.mpr rfl

theorem fflow_not_old : ∀ e, fflow[4]? = some e → ¬ OldMinute e := by
  intro e he
  have : e = [49, 77, 111, 110, 116, 104] := (Option.some.inj he).symm
  subst this
  rintro ⟨a, m, i, n, h, _, _, _, ha⟩
  have := congrArg List.length h
  simp only [List.length_append, List.length_cons, List.length_nil] at this
  rcases ha with ha | ⟨x, y, ha, _⟩
  · omega
  · rw [ha] at this; simp at this

theorem fflow_fits (past : List Op) (h : past.flatMap Op.deletes = []) : StoreFits floatCfg (.period .month) 0 fflow past flowDesc flows := by
  exact ⟨(flows_fits past h).1, by decide +kernel, flowDesc_ok, by rw [h]; simp⟩

theorem fflow_start : SeriesHistory tiny.1 tiny.2 floatCfg (.period .month) 0 fflow [] tiny.2 [] := by
  refine .start ⟨trivial, [], rfl⟩ (fun p hp => ?_)
  obtain ⟨s, ress, h1, h2⟩ := C27_last_write_partial (mul := id) tiny_good [] trivial
  have : some (tiny.2, []) = some (s, ress) := h1
  injection this with this; injection this with this _; subst this
  obtain ⟨x, hx1, hx2, hx3⟩ := hp
  refine h2 p ?_
  have := (same_iff.mp hx3).length
  rw [this, block_length fflow_six hx1]
  decide

/-- The file after the flows are stored. -/
def fullFile (ps : List Bytes) : Option Eng :=
  (ztsStoreReg tiny.1 floatCfg flowDesc aTsEnv ⟨fun _ => 1, 2⟩ (List.replicate 393 3) (join ps) 2592000 (julianOf ⟨2019, 11, 30⟩) 86400 0 flows.values [] 0 tiny.2).map Prod.fst

/-- The flows are stored. -/
theorem fflow_history : ∃ past s, SeriesHistory tiny.1 tiny.2 floatCfg (.period .month) 0 fflow past s [(flowDesc, flows)] ∧ fullFile fflow = some s := by
  have hn : NamesSeries fflow (join fflow) := ⟨[50, 48, 49, 57], by unfold IsPart; decide, rfl, by decide⟩
  obtain ⟨s', more, h1, h2, _⟩ := C63_store_partial (mul := id) tiny_good floatCfg_ok (r := .period .month) trivial fflow_six (by decide) fflow_start
    (fflow_fits [] rfl) aTsEnv_ok ⟨fun _ => 1, 2⟩ (old := List.replicate 393 3) List.length_replicate hn
  refine ⟨_, _, .store fflow_start (fflow_fits [] rfl) aTsEnv_ok List.length_replicate hn h1 h2, ?_⟩
  have h1' : ztsStoreReg tiny.1 floatCfg flowDesc aTsEnv ⟨fun _ => 1, 2⟩ (List.replicate 393 3) (join fflow) 2592000 (julianOf ⟨2019, 11, 30⟩) 86400 0 flows.values [] 0 tiny.2 =
    some (s', true) := h1
  unfold fullFile
  rw [h1']; rfl

/-- The pathnames in a file. -/
def names (c : Cfg) (s : Eng) : Option (List Bytes) := (zcatalog c s everything).map fun rows => rows.map CatRow.path

theorem fflow_names : ((fullFile fflow).bind (names tiny.1)) = some [blk fflow (julianOf ⟨2010, 1, 1⟩), blk fflow (julianOf ⟨2020, 1, 1⟩)] := by
  decide +kernel

def aFull : FullMem := ⟨fun _ => some 1, 1, 0⟩

/-- The range of all flows is from November 2019 to January 2020, which are in two records. -/
theorem fflow_range : ∃ past s a b, SeriesHistory tiny.1 tiny.2 floatCfg (.period .month) 0 fflow past s [(flowDesc, flows)] ∧
    ztsGetFullRange tiny.1 s aFull (join fflow) = some (.range ((RegInterval.period .month).time julianOf a) ((RegInterval.period .month).time julianOf b)) ∧ a ≤ 12 * 2019 + 10 ∧ 12 * 2020 ≤ b := by
  obtain ⟨past, s, h, hs⟩ := fflow_history
  have R := series_reach h
  have hnm := fflow_names
  rw [hs, Option.bind_some] at hnm
  unfold names at hnm
  obtain ⟨rows, hz, hr⟩ := Option.map_eq_some_iff.mp hnm
  have hd : DayOf julianOf (.period .month) (12 * 2019 + 10) ⟨2019, 11, 30⟩ := by
    refine ⟨by unfold Date.Valid; decide, by decide, by decide +kernel⟩
  have hd2 : DayOf julianOf (.period .month) (12 * 2020) ⟨2020, 1, 31⟩ := by
    refine ⟨by unfold Date.Valid; decide, by decide, by decide +kernel⟩
  have hR : InRange (.period .month) (12 * 2019 + 10) := by show (100 : Int) ≤ _; decide
  have hR2 : InRange (.period .month) (12 * 2020) := by show (100 : Int) ≤ _; decide
  have e1 : julianOf ((RegInterval.period .month).block.start ⟨2019, 11, 30⟩) = julianOf ⟨2010, 1, 1⟩ := by decide +kernel
  have e2 : julianOf ((RegInterval.period .month).block.start ⟨2020, 1, 31⟩) = julianOf ⟨2020, 1, 1⟩ := by decide +kernel
  have two : ∀ r ∈ rows, r.path = blk fflow (julianOf ⟨2010, 1, 1⟩) ∨ r.path = blk fflow (julianOf ⟨2020, 1, 1⟩) := by
    intro r hr'
    have : r.path ∈ rows.map CatRow.path := List.mem_map_of_mem hr'
    rw [hr] at this
    simpa using this
  have hshort : ShortNames tiny.1 s := by
    refine short_names (mul := id) tiny_good R hz fun r hr' => ?_
    rcases two r hr' with h' | h'
    · exact ⟨fflow.set 3 (dayName (julianOf ⟨2010, 1, 1⟩)), ⟨rfl, by unfold IsPart; decide +kernel⟩, by decide +kernel, h'⟩
    · exact ⟨fflow.set 3 (dayName (julianOf ⟨2020, 1, 1⟩)), ⟨rfl, by unfold IsPart; decide +kernel⟩, by decide +kernel, h'⟩
  have hblocks : OnlyBlocks julianOf (.period .month) (InRange (.period .month)) tiny.1 s fflow := by
    intro p rec hp hzr _
    obtain ⟨rows', c1, _, _, _, c5⟩ := C48_catalog_partial (mul := id) tiny_good R
    have : rows' = rows := Option.some.inj (c1.symm.trans hz)
    subst this
    obtain ⟨r, r1, r2⟩ := c5 p rec hp hzr
    rcases two r r1 with h' | h'
    · refine ⟨_, _, hR, hd, by decide +kernel, ?_⟩
      rw [e1]
      exact (names_day (by decide +kernel) (by decide +kernel)).mpr (sameUp_symm (h' ▸ r2))
    · refine ⟨_, _, hR2, hd2, by decide +kernel, ?_⟩
      rw [e2]
      exact (names_day (by decide +kernel) (by decide +kernel)).mpr (sameUp_symm (h' ▸ r2))
  rcases C94_series_range_partial (mul := id) tiny_good floatCfg_ok (r := .period .month) trivial (by intro h; cases h) fflow_seed fflow_not_old h
    (by intro x hx; rcases List.mem_singleton.mp hx with rfl; decide) rfl hshort aFull hblocks with ⟨_, k⟩ | ⟨a, b, k1, k2, k3, k4⟩
  · exfalso
    have := k _ _ hR hd (by decide +kernel)
    revert this
    decide +kernel
  · exact ⟨past, s, a, b, h, k1, (k4 _ _ hR hd (by decide +kernel) (by decide +kernel)).1, (k4 _ _ hR2 hd2 (by decide +kernel) (by decide +kernel)).2⟩

/-- What the calls of the model do. -/
theorem fflow_case :
    ((fullFile fflow).bind fun s => ztsGetFirstLastPathnames tiny.1 s aFull (join fflow)) =
      some (some (blk fflow (julianOf ⟨2010, 1, 1⟩), blk fflow (julianOf ⟨2020, 1, 1⟩))) ∧
    ((fullFile fflow).bind fun s => ztsGetFullRange tiny.1 s aFull (join fflow)) = some (.range (julianOf ⟨2019, 11, 30⟩, 86400) (julianOf ⟨2020, 1, 31⟩, 86400)) ∧
    ztsGetFullRange tiny.1 tiny.2 aFull (join fflow) = some .notFound := by
  decide +kernel

/-- A record of type `t` with these parts is written. -/
def written94 (ps : List Bytes) (t : UInt32) (s : Eng) : Option Eng :=
  (runs tiny.1 s [.write ⟨join ps, t, [], [], [], [1], [], [], 1, 0, 0, 0, 5, 0, 0, 0, (0, 0)⟩]).map Prod.fst

/-- `TS-Pattern` -/
def patternPart : Bytes := [84, 83, 45, 80, 97, 116, 116, 101, 114, 110]

/-- C94 fails when the series has a pattern as well: its D part is no date, the first pathname gets `undefined` for its D
part, and no range is found though the values are there. -/
theorem C94_pattern_violation :
    (((fullFile fflow).bind (written94 (fflow.set 3 patternPart) 101)).bind fun s => ztsGetFirstLastPathnames tiny.1 s aFull (join fflow)) =
      some (some (join (fflow.set 3 undefinedText), blk fflow (julianOf ⟨2020, 1, 1⟩))) ∧
    (((fullFile fflow).bind (written94 (fflow.set 3 patternPart) 101)).bind fun s => ztsGetFullRange tiny.1 s aFull (join fflow)) = some .notFound := by
  decide +kernel

/-- C94 fails when a text has the other parts of the series and a date: only time series are asked for, but all types are found. -/
theorem C94_text_violation :
    (((fullFile fflow).bind (written94 (fflow.set 3 (dayName 0)) 300)).bind fun s => ztsGetFirstLastPathnames tiny.1 s aFull (join fflow)) =
      some (some (blk fflow 0, blk fflow (julianOf ⟨2020, 1, 1⟩))) ∧
    (((fullFile fflow).bind (written94 (fflow.set 3 (dayName 0)) 300)).bind fun s => ztsGetFullRange tiny.1 s aFull (join fflow)) = some .notFound := by
  decide +kernel

/-- C94 fails for a series stored with another spelling of the interval than the library's, 1MON for 1Month. -/
theorem C94_interval_violation :
    ((flowFile flowDesc).bind fun s => ztsGetFirstLastPathnames tiny.1 s aFull (join mflow)) = some none ∧
    ((flowFile flowDesc).bind fun s => ztsGetFullRange tiny.1 s aFull (join mflow)) = some .notFound ∧
    ((flowFile flowDesc).bind (names tiny.1)) = some [blk mflow (julianOf ⟨2010, 1, 1⟩), blk mflow (julianOf ⟨2020, 1, 1⟩)] := by
  decide +kernel

/-- A D part with ` - ` behind 20 or more characters: the program writes behind an array. -/
theorem C94_long_date_violation :
    ((fullFile fflow).bind fun s => ztsGetFirstLastPathnames tiny.1 s aFull (join (fflow.set 3 (List.replicate 20 32 ++ [32, 45, 32])))) = none := by
  decide +kernel

end Hec
