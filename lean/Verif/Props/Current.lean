import Verif.Spec.Current
import Verif.Props.FullSet
import Verif.Props.Intervals
/-!
C103: the time window of a pathname, and the current record of a series.
-/
namespace Hec
set_option linter.unusedSimpArgs false
set_option linter.unusedVariables false
open _root_.Spec (Date join SixParts IsPart Holds NamesDay Block BlockFor IntervalPath DPartIs)
open Hec.Spec (sameUpToCase)

theorem table_facts : ∀ x ∈ intervalTable 7, 4 ≤ x.1.length ∧ (0 < x.2 → ztsRegBlockSize x.2 = (BlockFor x.2).code) ∧ (¬ 0 < x.2 → -x.2 = (BlockFor x.2).code) := by
  decide +kernel

theorem block_of_day {name : Bytes} {secs : Int} (hk : (name, secs) ∈ intervalTable 7) {d : Date} (hv : d.Valid) (hy : 5 ≤ d.year) :
    blockOfDay secs (julianOf d) = (julianOf ((BlockFor secs).start d), (BlockFor secs).code) := by
  obtain ⟨_, f2, f3⟩ := table_facts _ hk
  simp only at f2 f3
  unfold blockOfDay
  by_cases h : secs > 0
  · rw [if_pos h]
    obtain ⟨b, b1, b2⟩ := C12_reg_block_start secs d hv hy
    have : b = BlockFor secs := code_inj (b2.symm.trans (f2 h))
    rw [b1, this]
  · rw [if_neg h, f3 h, C12_irreg_block_start _ d hv hy]

/-- The window of a D part that is a date. -/
theorem dates_window {name : Bytes} {secs : Int} (hk : (name, secs) ∈ intervalTable 7) {d : Date} (hv : d.Valid) (hy : 100 ≤ d.year) {t : Bytes} (hl : t.length = 9)
    (hj : dateToJulian t = julianOf d) (hu : julianOf d ≠ UNDEFINED_TIME) :
    datesWindow secs t = some (.window ⟨julianOf ((BlockFor secs).start d), julianOf d, if secs > 0 then min secs 86400 else 1, julianOf ((BlockFor secs).next d) - 1, 86400,
      (BlockFor secs).code, secs⟩) := by
  unfold datesWindow
  rw [if_neg (by omega), if_pos (by omega)]
  simp only
  rw [hj, if_neg hu, block_of_day hk hv (by omega)]
  simp only
  rw [C12_step_forward _ d hv hy]
  have : firstSeconds secs = if secs > 0 then min secs 86400 else 1 := by
    unfold firstSeconds
    have : SECS_IN_1_DAY = 86400 := rfl
    rw [this]
    split
    · split <;> omega
    · rfl
  rw [this]
  rfl

theorem date_bounds {d : Date} (hv : d.Valid) (h1 : 100 ≤ d.year) (h2 : d.year ≤ 9999) : julianOf ⟨100, 1, 1⟩ ≤ julianOf d ∧ julianOf d ≤ julianOf ⟨9999, 12, 31⟩ := by
  have hm := monthLen_le d.year d.month
  have hd := hv
  unfold Date.Valid at hd
  constructor
  · refine le_of_not_before _ _ (jan1_valid 100) hv (by decide) (by omega) ?_
    unfold Date.before
    simp only
    omega
  · refine le_of_not_before _ _ hv (by unfold Date.Valid; decide) (by omega) (by decide) ?_
    unfold Date.before
    simp only
    omega

/-- The window of a pathname is that of its D part; in the pathname nothing but letter case changes. -/
theorem path_window (m : FullMem) {ps : List Bytes} {name : Bytes} {secs : Int} (h : IntervalPath ps name secs) {b : Bytes} (hb : Holds b (join ps))
    {t : Bytes} (ht : ps[3]? = some t) :
    ∃ b', ztsGetPathTimeWindow m b = (datesWindow secs t).map (fun w => (b', w)) ∧ ∃ p, Holds b' p ∧ sameUpToCase p (join ps) := by
  have h6 := h.six
  have hi : 4 < ps.length := by rw [h6.1]; omega
  obtain ⟨e0, he0, hsame⟩ := h.epart
  have hee : ps[4] = e0 := Option.some.inj ((List.getElem?_eq_getElem hi).symm.trans he0)
  have hc : cstr b = join ps := cstr_holds hb (join_nonzero _ h6.2)
  obtain ⟨eb, k1, k2, k3⟩ := getPart_short ps h6.1 h6.2 h.short 4 (by omega) (List.replicate 129 m.u) (by simp) m.junk
  have k1' : zpathnameGetPart (join ps) 5 (List.replicate 129 m.u) m.junk = some (eb, ((ps[4]).length : Int)) := k1
  have hce : cstr eb = ps[4] := cstr_holds k3 (fun c hc => (h6.2 _ (List.getElem_mem hi) c hc).2)
  obtain ⟨f1, _, _⟩ := table_facts _ h.known
  have hlen : e0.length = name.length := (same_iff.mp hsame).length
  have hep : ePartToSeconds 7 e0 = some (if secs > 0 then 0 else 1, secs, name) := by
    have := C14_full_name 7 (name, secs) h.known e0 [] (same_iff.mp hsame)
    rw [List.append_nil] at this
    exact this
  unfold ztsGetPathTimeWindow
  rw [hc, k1', Option.bind_some]
  simp only
  rw [hce, hee, if_neg (by simp only at f1; omega), hep]
  simp only
  have key : ∃ b' e, (if (if secs > 0 then (0 : Int) else 1) = 0 ∧ ((name.length : Nat) : Int) ≤ ((e0.length : Nat) : Int) then
        Option.map (fun x => x.fst) (zpathnameSetPart m.before b name 5 m.junk) else some b) = some b' ∧ sameUpToCase e e0 ∧ Holds b' (join (ps.set 4 e)) := by
    by_cases hsec : secs > 0
    · rw [if_pos hsec, if_pos ⟨rfl, by omega⟩]
      have hn : sameUpToCase name e0 := sameUp_symm hsame
      have hroom : (join (ps.set 4 name)).length < b.length := by
        rw [(same_iff.mp (same_set he0 hn)).length]
        obtain ⟨rest, rfl⟩ := hb
        simp
      obtain ⟨b', w1, w2, w3⟩ := setPart_spec ps h6.1 h6.2 4 (by omega) b hb name m.junk m.before (Or.inl (by rw [hee]; omega)) hroom
      have w1' : zpathnameSetPart m.before b name 5 m.junk = some (b', true) := w1
      exact ⟨b', name, by rw [w1']; rfl, hn, w3⟩
    · rw [if_neg hsec, if_neg (by omega)]
      exact ⟨b, e0, rfl, same_iff.mpr (Same.refl _), by rw [← hee, List.set_getElem_self hi]; exact hb⟩
  obtain ⟨b', e, w1, w4, w5⟩ := key
  rw [w1, Option.bind_some]
  have he : IsPart e := same_isPart w4 (h6.2 _ (List.mem_of_getElem? he0))
  have h6' := set_part h6 he 4
  rw [cstr_holds w5 (join_nonzero _ h6'.2)]
  have hi3 : 3 < (ps.set 4 e).length := by rw [h6'.1]; omega
  have hshort : ∀ p ∈ ps.set 4 e, p.length ≤ 128 := by
    intro p hp
    rcases List.mem_or_eq_of_mem_set hp with h' | rfl
    · exact h.short p h'
    · rw [(same_iff.mp w4).length]; exact h.short _ (List.mem_of_getElem? he0)
  obtain ⟨db, d1, d2, d3⟩ := getPart_short (ps.set 4 e) h6'.1 h6'.2 hshort 3 (by omega) (List.replicate 129 m.u) (by simp) m.junk
  have d1' : zpathnameGetPart (join (ps.set 4 e)) 4 (List.replicate 129 m.u) m.junk = some (db, (((ps.set 4 e)[3]).length : Int)) := d1
  rw [d1', Option.bind_some]
  simp only
  rw [cstr_holds d3 (fun c hc => (h6'.2 _ (List.getElem_mem hi3) c hc).2)]
  have hd3 : (ps.set 4 e)[3] = t := by
    have : ps[3]? = some (ps.set 4 e)[3] := by
      rw [List.getElem_set_ne (by decide)]
      exact List.getElem?_eq_getElem _
    exact Option.some.inj (this.symm.trans ht)
  rw [hd3]
  exact ⟨b', rfl, _, w5, same_set he0 w4⟩

/-- C103.  The time window of the pathname of a record: it begins on the day of the D part and ends with the last day of the block, at 24:00.  In the
pathname nothing but letter case changes. -/
theorem C103_window_partial (m : FullMem) {ps : List Bytes} {name : Bytes} {secs : Int} (h : IntervalPath ps name secs) {b : Bytes} (hb : Holds b (join ps))
    {d : Date} (hv : d.Valid) (h1 : 100 ≤ d.year) (h2 : d.year ≤ 9999) (hd : DPartIs julianOf ps d) :
    ∃ b', ztsGetPathTimeWindow m b = some (b', .window ⟨julianOf ((BlockFor secs).start d), julianOf d, if secs > 0 then min secs 86400 else 1,
        julianOf ((BlockFor secs).next d) - 1, 86400, (BlockFor secs).code, secs⟩) ∧
      ∃ p, Holds b' p ∧ sameUpToCase p (join ps) := by
  obtain ⟨j1, j2⟩ := date_bounds hv h1 h2
  have hi : 3 < ps.length := by rw [h.six.1]; omega
  have ht : ps[3]? = some ps[3] := List.getElem?_eq_getElem hi
  obtain ⟨b', k1, k2⟩ := path_window m h hb ht
  obtain ⟨t1, t2, _⟩ := day_part h.six h.six j1 j2 ((names_day j1 j2).mp hd) ht
  refine ⟨b', ?_, k2⟩
  rw [k1, dates_window h.known hv h1 t1 t2 (by
    have : UNDEFINED_TIME < julianOf ⟨100, 1, 1⟩ := by decide +kernel
    omega), Option.map_some]

theorem same_day {x y : Date} (hx : x.Valid) (hy : y.Valid) (h1 : 5 ≤ x.year) (h2 : 5 ≤ y.year) (h : julianOf x = julianOf y) : x = y := by
  have a := C01_julian_order x y hx hy h1 h2
  have b := C01_julian_order y x hy hx h2 h1
  have na : ¬ x.before y := fun z => by have := a.mpr z; omega
  have nb : ¬ y.before x := fun z => by have := b.mpr z; omega
  obtain ⟨x1, x2, x3⟩ := x
  obtain ⟨y1, y2, y3⟩ := y
  unfold Date.before at na nb
  simp only at na nb
  have e1 : x1 = y1 := by omega
  have e2 : x2 = y2 := by omega
  have e3 : x3 = y3 := by omega
  rw [e1, e2, e3]

theorem find_dash (x : Bytes) : ∀ t : Bytes, 32 ∉ t → findDash (t ++ [32, 45, 32] ++ x) = some t.length := by
  intro t
  induction t with
  | nil => intro _; rfl
  | cons c cs ih =>
    intro h
    simp only [List.mem_cons, not_or] at h
    have ih := ih h.2
    simp only [List.cons_append, findDash]
    rw [if_neg (by simp only [List.isPrefixOf, Bool.and_eq_true, beq_iff_eq]; exact fun hh => h.1 hh.1)]
    rw [ih]
    rfl

/-- C103.  With a range of dates for a D part, as the condensed catalog has it, `01FEB2000 - 01MAR2001`: the window begins with the first day and ends
with the last; if the third letter of the last is a capital and it is the first day of a block, then with the last day of that block. -/
theorem C103_range_partial (m : FullMem) {ps : List Bytes} {name : Bytes} {secs : Int} (h : IntervalPath ps name secs) {b : Bytes} (hb : Holds b (join ps))
    {t1 t2 : Bytes} (ht : ps[3]? = some (t1 ++ [32, 45, 32] ++ t2)) (hsp : 32 ∉ t1) (l1 : t1.length < 20) (l2 : t2.length < 20) (hl : 12 < t1.length + t2.length)
    {d1 d2 : Date} (hv1 : d1.Valid) (h1 : 100 ≤ d1.year) (hv2 : d2.Valid) (h2 : 100 ≤ d2.year) (hd1 : dateToJulian t1 = julianOf d1) (hd2 : dateToJulian t2 = julianOf d2)
    {c : UInt8} (hc : t2[3]? = some c) :
    ∃ b', ztsGetPathTimeWindow m b = some (b', .window ⟨julianOf ((BlockFor secs).start d1), julianOf d1, if secs > 0 then min secs 86400 else 1,
        if (65 ≤ c ∧ c ≤ 90) ∧ (BlockFor secs).start d2 = d2 then julianOf ((BlockFor secs).next d2) - 1 else julianOf d2, 86400, (BlockFor secs).code, secs⟩) ∧
      ∃ p, Holds b' p ∧ sameUpToCase p (join ps) := by
  obtain ⟨b', k1, k2⟩ := path_window m h hb ht
  refine ⟨b', ?_, k2⟩
  have hU : UNDEFINED_TIME < julianOf ⟨100, 1, 1⟩ := by decide +kernel
  have low : ∀ {d : Date}, d.Valid → 100 ≤ d.year → julianOf d ≠ UNDEFINED_TIME := by
    intro d hv hy
    have : julianOf ⟨100, 1, 1⟩ ≤ julianOf d := by
      refine le_of_not_before _ _ (jan1_valid 100) hv (by decide) (by omega) ?_
      unfold Date.Valid at hv
      unfold Date.before
      simp only
      omega
    omega
  have hw : datesWindow secs (t1 ++ [32, 45, 32] ++ t2) = some (.window ⟨julianOf ((BlockFor secs).start d1), julianOf d1, if secs > 0 then min secs 86400 else 1,
      if (65 ≤ c ∧ c ≤ 90) ∧ (BlockFor secs).start d2 = d2 then julianOf ((BlockFor secs).next d2) - 1 else julianOf d2, 86400, (BlockFor secs).code, secs⟩) := by
    have e1 : (t1 ++ [32, 45, 32] ++ t2).take t1.length = t1 := by rw [List.append_assoc, List.take_left']; rfl
    have e2 : (t1 ++ [32, 45, 32] ++ t2).drop (t1.length + 3) = t2 := by rw [List.drop_left']; simp
    have e3 : 15 < (t1 ++ [32, 45, 32] ++ t2).length := by simp; omega
    unfold datesWindow
    rw [if_pos e3, find_dash _ _ hsp]
    simp only
    rw [if_neg (by omega), e1, e2, hd1, if_neg (low hv1 h1), if_neg (by omega), hd2, if_neg (low hv2 h2), block_of_day h.known hv1 (by omega), block_of_day h.known hv2 (by omega)]
    simp only
    rw [C12_step_forward _ d2 hv2 h2, hc, Option.getD_some]
    have hsecs : firstSeconds secs = if secs > 0 then min secs 86400 else 1 := by
      unfold firstSeconds
      have : SECS_IN_1_DAY = 86400 := rfl
      rw [this]
      split
      · split <;> omega
      · rfl
    rw [hsecs]
    obtain ⟨sv, sy⟩ := Block.start_valid (BlockFor secs) d2 hv2 h2
    have hiff : julianOf ((BlockFor secs).start d2) = julianOf d2 ↔ (BlockFor secs).start d2 = d2 :=
      ⟨fun hh => same_day sv hv2 sy (by omega) hh, fun hh => by rw [hh]⟩
    have hS : SECS_IN_1_DAY = 86400 := rfl
    rw [hS]
    simp only [hiff]
  rw [k1, hw, Option.map_some]

/-- A day is in the block of a date exactly when it is not before its first day, and before the first day of the next block. -/
theorem in_block (B : Block) {d e : Date} (hv : d.Valid) (hy : 100 ≤ d.year) (hve : e.Valid) (hye : 100 ≤ e.year) :
    B.start e = B.start d ↔ julianOf (B.start d) ≤ julianOf e ∧ julianOf e < julianOf (B.next d) := by
  have h := (C12_blocks_partition B d e hv hy hve hye).2.2
  rw [C12_irreg_block_start B d hv (by omega), C12_irreg_block_start B e hve (by omega), C12_step_forward B d hv hy] at h
  rw [← h]
  obtain ⟨sv, sy⟩ := Block.start_valid B d hv hy
  obtain ⟨tv, ty⟩ := Block.start_valid B e hve hye
  constructor
  · intro hh; rw [hh]
  · intro hh
    exact same_day tv sv ty sy hh

/-- The day and the date of the clock. -/
theorem clock_day (t : Int) (ht : 0 ≤ t) : (getCurrentDateTime t).1 = 25568 + t / 86400 := by
  unfold getCurrentDateTime
  simp only
  rw [cdiv_nonneg_eq ht]
  have h1 : SECS_IN_1_DAY = 86400 := rfl
  have h2 : JULIAN_01JAN1970 = 25568 := rfl
  rw [h1, h2]; omega

/-- C103.  Of a pathname with the first day of a block for a D part, ztsIsCurrentTimeSeries says whether today is in that block; `today` is the date
`t / 86400` days after 01Jan1970. -/
theorem C103_current_partial (m : FullMem) {ps : List Bytes} {name : Bytes} {secs : Int} (h : IntervalPath ps name secs) {b : Bytes} (hb : Holds b (join ps))
    {d : Date} (hv : d.Valid) (h1 : 100 ≤ d.year) (h2 : d.year ≤ 9999) (hd : DPartIs julianOf ps d) (hs : (BlockFor secs).start d = d)
    {t : Int} (ht : 0 ≤ t) {today : Date} (hv' : today.Valid) (h1' : 100 ≤ today.year) (htoday : julianOf today = julianOf ⟨1970, 1, 1⟩ + t / 86400) :
    ztsIsCurrentTimeSeries m b (getCurrentDateTime t).1 = some (decide ((BlockFor secs).start today = d)) := by
  obtain ⟨b', k1, _⟩ := C103_window_partial m h hb hv h1 h2 hd
  have h70 : julianOf ⟨1970, 1, 1⟩ = 25568 := by decide +kernel
  rw [clock_day t ht, ← h70, ← htoday]
  unfold ztsIsCurrentTimeSeries
  rw [k1, Option.map_some]
  simp only
  have hin := in_block (BlockFor secs) hv h1 hv' h1'
  rw [hs] at hin
  congr 1
  split
  · next hlt =>
    symm; rw [decide_eq_false_iff_not, hin]; omega
  · split
    · next hgt => symm; rw [decide_eq_false_iff_not, hin]; omega
    · symm; rw [decide_eq_true_eq, hin]; omega

/-- C103.  With any day for a D part: it says so only of days in the block of that day. -/
theorem C103_sound_partial (m : FullMem) {ps : List Bytes} {name : Bytes} {secs : Int} (h : IntervalPath ps name secs) {b : Bytes} (hb : Holds b (join ps))
    {d : Date} (hv : d.Valid) (h1 : 100 ≤ d.year) (h2 : d.year ≤ 9999) (hd : DPartIs julianOf ps d)
    {t : Int} (ht : 0 ≤ t) {today : Date} (hv' : today.Valid) (h1' : 100 ≤ today.year) (htoday : julianOf today = julianOf ⟨1970, 1, 1⟩ + t / 86400)
    (hcur : ztsIsCurrentTimeSeries m b (getCurrentDateTime t).1 = some true) :
    (BlockFor secs).start today = (BlockFor secs).start d ∧ julianOf d ≤ julianOf today := by
  obtain ⟨b', k1, _⟩ := C103_window_partial m h hb hv h1 h2 hd
  have h70 : julianOf ⟨1970, 1, 1⟩ = 25568 := by decide +kernel
  rw [clock_day t ht, ← h70, ← htoday] at hcur
  unfold ztsIsCurrentTimeSeries at hcur
  rw [k1, Option.map_some] at hcur
  simp only at hcur
  rw [in_block (BlockFor secs) hv h1 hv' h1']
  have hle : julianOf ((BlockFor secs).start d) ≤ julianOf d := ((in_block (BlockFor secs) hv h1 hv h1).mp rfl).1
  split at hcur
  · cases hcur
  · split at hcur
    · cases hcur
    · omega

/-! ### Cases -/

def memC : FullMem := ⟨fun _ => none, 255, 0⟩

/-- /B/L/F/01FEB2000/1HOUR/V/ -/
def hourly (day : Bytes) : List Bytes := [str "B", str "L", str "F", day, str "1HOUR", str "V"]

theorem hourly_path (day : Bytes) (h : IsPart day) (hl : day.length ≤ 128) : IntervalPath (hourly day) (str "1Hour") 3600 := by
  have hp : IsPart (str "B") ∧ IsPart (str "L") ∧ IsPart (str "F") ∧ IsPart (str "1HOUR") ∧ IsPart (str "V") := by unfold IsPart; decide +kernel
  refine ⟨⟨rfl, ?_⟩, ?_, by decide +kernel, str "1HOUR", rfl, same_iff.mpr (by decide +kernel)⟩
  · intro p hp'
    simp only [hourly, List.mem_cons, List.not_mem_nil, or_false] at hp'
    rcases hp' with rfl | rfl | rfl | rfl | rfl | rfl
    · exact hp.1
    · exact hp.2.1
    · exact hp.2.2.1
    · exact h
    · exact hp.2.2.2.1
    · exact hp.2.2.2.2
  · intro p hp'
    simp only [hourly, List.mem_cons, List.not_mem_nil, or_false] at hp'
    rcases hp' with rfl | rfl | rfl | rfl | rfl | rfl <;> first | exact hl | decide +kernel

theorem hourly_feb : DPartIs julianOf (hourly (str "01FEB2000")) ⟨2000, 2, 1⟩ := by
  refine (names_day (by decide +kernel) (by decide +kernel)).mpr (same_iff.mpr ?_)
  decide +kernel

/-- The hypotheses of the theorems, for a month of hourly values, and two days. -/
example : IntervalPath (hourly (str "01FEB2000")) (str "1Hour") 3600 ∧ DPartIs julianOf (hourly (str "01FEB2000")) ⟨2000, 2, 1⟩ ∧
    Date.Valid ⟨2000, 2, 1⟩ ∧ (BlockFor 3600).start ⟨2000, 2, 1⟩ = ⟨2000, 2, 1⟩ ∧ julianOf ⟨2000, 2, 29⟩ = julianOf ⟨1970, 1, 1⟩ + 951820000 / 86400 ∧
    Holds (join (hourly (str "01FEB2000")) ++ [0]) (join (hourly (str "01FEB2000"))) :=
  ⟨hourly_path _ (by unfold IsPart; decide +kernel) (by decide +kernel), hourly_feb, by unfold Date.Valid; decide, by decide, by decide +kernel, ⟨[], rfl⟩⟩

/-- On 29Feb2000 it is current, on 01Mar2000 it is not; nor is a name without a time series. -/
example : ztsIsCurrentTimeSeries memC (join (hourly (str "01FEB2000")) ++ [0]) (getCurrentDateTime 951820000).1 = some true ∧
    ztsIsCurrentTimeSeries memC (join (hourly (str "01FEB2000")) ++ [0]) (getCurrentDateTime (951820000 + 86400)).1 = some false ∧
    ztsIsCurrentTimeSeries memC (str "/A/B/C//E/F/" ++ [0]) (getCurrentDateTime 951820000).1 = some false := by decide +kernel

/-- A condensed name of the catalog: from the first day to the end of the last block. -/
example : ztsGetPathTimeWindow memC (join (hourly (str "01FEB2000 - 01MAR2001")) ++ [0]) =
    some (str "/B/L/F/01FEB2000 - 01MAR2001/1Hour/V/" ++ [0], .window ⟨julianOf ⟨2000, 2, 1⟩, julianOf ⟨2000, 2, 1⟩, 3600, julianOf ⟨2001, 3, 31⟩, 86400, 2, 3600⟩) := by
  decide +kernel

/-- The hypotheses of C103_range_partial. -/
example : IntervalPath (hourly (str "01FEB2000 - 01MAR2001")) (str "1Hour") 3600 ∧ str "01FEB2000 - 01MAR2001" = str "01FEB2000" ++ [32, 45, 32] ++ str "01MAR2001" ∧
    32 ∉ str "01FEB2000" ∧ dateToJulian (str "01FEB2000") = julianOf ⟨2000, 2, 1⟩ ∧ dateToJulian (str "01MAR2001") = julianOf ⟨2001, 3, 1⟩ ∧
    (str "01MAR2001")[3]? = some 65 ∧ (BlockFor 3600).start ⟨2001, 3, 1⟩ = ⟨2001, 3, 1⟩ :=
  ⟨hourly_path _ (by unfold IsPart; decide +kernel) (by decide +kernel), by decide +kernel, by decide +kernel, by decide +kernel, by decide +kernel, by decide +kernel, by decide⟩

/-- The full claim is for all days.  It fails if the D part is not the first day of its block: on 10Feb2000, the record with the block of 15Feb2000 is
not current. -/
theorem C103_day_violation :
    ztsIsCurrentTimeSeries memC (join (hourly (str "15FEB2000")) ++ [0]) (julianOf ⟨2000, 2, 10⟩) = some false ∧
    (BlockFor 3600).start ⟨2000, 2, 10⟩ = (BlockFor 3600).start ⟨2000, 2, 15⟩ ∧ DPartIs julianOf (hourly (str "15FEB2000")) ⟨2000, 2, 15⟩ := by
  refine ⟨by decide +kernel, by decide, (names_day (by decide +kernel) (by decide +kernel)).mpr (same_iff.mpr ?_)⟩
  decide +kernel

/-- Failing part: at midnight, the record that is current is not the one a value of that time is stored in, as the time is 24:00 of the day before. -/
theorem C103_midnight_violation :
    getCurrentDateTime 951868800 = (julianOf ⟨2000, 3, 1⟩, 0) ∧ cleanTime (julianOf ⟨2000, 3, 1⟩) 0 1 = (julianOf ⟨2000, 2, 29⟩, 86400) ∧
    (ztsRegGetBlockStart (cleanTime (julianOf ⟨2000, 3, 1⟩) 0 1).1 3600).1 = julianOf ⟨2000, 2, 1⟩ ∧
    ztsIsCurrentTimeSeries memC (join (hourly (str "01FEB2000")) ++ [0]) (getCurrentDateTime 951868800).1 = some false := by decide +kernel

/-- Failing part: the pathname of the caller is changed, the letter case of its E part. -/
theorem C103_changed_violation :
    (ztsGetPathTimeWindow memC (join (hourly (str "01FEB2000")) ++ [0])).map (·.1) = some (str "/B/L/F/01FEB2000/1Hour/V/" ++ [0]) ∧
    join (hourly (str "01FEB2000")) = str "/B/L/F/01FEB2000/1HOUR/V/" := by decide +kernel

/-- Failing part: with a range of dates whose first date has 20 characters or more, it writes behind `date`. -/
theorem C103_range_violation :
    ztsGetPathTimeWindow memC (join (hourly (str "Tuesday, 1 February 2000 - 01MAR2001")) ++ [0]) = none := by decide +kernel

end Hec
