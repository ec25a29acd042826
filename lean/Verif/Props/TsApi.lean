import Verif.Proofs.TsApi
import Verif.Props.ItsFile
/-!
C66: regular time series through the public interface, hec_dss_tsStoreRegular and hec_dss_tsRetrieve.
-/
namespace Hec
set_option linter.unusedSimpArgs false
set_option linter.unusedVariables false
open _root_.Spec (Date Block Period RegInterval RegStore regSeries SameValue Op Reachable Leads GoodSizes create join SixParts IsPart IsInt DescOk readHead blockLength AboutSeries NamesSeries
  TsArrays Holds Printable TextOf PathFor SeriesName TsMemOk Ascii apiDesc shown shownOpt setField cells NoZero rtrim written)
open Hec.Spec (sameUpToCase)

variable {hdrSize maxHash binSize : Nat} {mul : Nat → Nat}

/-- Strings of ASCII characters that fit in the header make a description. -/
theorem api_desc_ok {secs : Int} {units type zone : Bytes} (hu : Ascii units) (ht : Ascii type) (hz : Ascii zone)
    (hfit : cells (some units) + cells (some type) + cells (some zone) ≤ 200) : DescOk (apiDesc secs units type zone) := by
  have hcells : ∀ s : Bytes, Ascii s → cells (some (mallocAndCopy s)) = cells (some s) := by
    intro s hs
    obtain ⟨k, hk⟩ := copy_blanks hs
    unfold cells
    simp only [Option.getD_some]
    conv => rhs; rw [hk, rtrim_append_blanks]
  have hzero : ∀ s : Bytes, Ascii s → NoZero (some (mallocAndCopy s)) := by
    intro s hs c hc
    obtain ⟨k, hk⟩ := copy_blanks hs
    have : c ∈ s := by rw [hk]; exact List.mem_append_left _ hc
    have := hs c this
    intro e; subst e; revert this; decide
  refine ⟨?_, rfl, ?_, ?_⟩
  · unfold apiDesc
    simp only
    unfold IsInt
    refine ⟨?_, by decide, by decide⟩
    split <;> decide
  · intro s hs
    simp only [apiDesc, List.mem_cons, List.not_mem_nil, or_false] at hs
    rcases hs with h | h | h <;> rw [h]
    · exact hzero _ hu
    · exact hzero _ ht
    · exact hzero _ hz
  · simp only [apiDesc]
    rw [hcells _ hu, hcells _ ht, hcells _ hz]
    exact hfit

theorem start_block {r : RegInterval} {code : Int} {jbOf edge : Int → Int} {n0 : Int} (Gr : Grid r.secs code (r.time julianOf) jbOf edge n0)
    (hlow : ∀ n, n0 ≤ n → julianOf ⟨100, 1, 1⟩ ≤ jbOf n) {a b : Int} (ha : edge n0 < a) (hab : a ≤ b) (hlast : (r.time julianOf b).1 ≤ julianOf ⟨9999, 12, 31⟩) :
    let w := regWindow r.secs (r.time julianOf a).1 (r.time julianOf a).2 (r.time julianOf b).1 (r.time julianOf b).2
    julianOf ⟨100, 1, 1⟩ ≤ w.startBlock ∧ w.startBlock ≤ julianOf ⟨9999, 12, 31⟩ ∧ w.startBlock ≤ w.startJulian ∧
      julianOf ⟨100, 1, 1⟩ ≤ (r.time julianOf b).1 ∧ w.startJulian = (r.time julianOf a).1 ∧ w.startSeconds = (r.time julianOf a).2 ∧ w.endJulian = (r.time julianOf b).1 ∧ w.endSeconds = (r.time julianOf b).2 := by
  obtain ⟨na, a1, a2, a3⟩ := Gr.find ha
  obtain ⟨nb, b1, b2, b3⟩ := Gr.find (a := b) (by omega)
  have hle : na ≤ nb := by
    rcases Int.lt_or_le nb na with h | h
    · exfalso
      have : edge (nb + 1) ≤ edge na := by
        rcases Int.lt_or_le (nb + 1) na with h2 | h2
        · exact Int.le_of_lt (Gr.edge_mono (by omega) h2)
        · rw [show nb + 1 = na by omega]; exact Int.le_refl _
      omega
    · exact h
  have hjb : jbOf na ≤ jbOf nb := by
    rcases Int.lt_or_le na nb with h2 | h2
    · exact Int.le_of_lt (Gr.jb_mono a1 h2)
    · rw [show na = nb by omega]; exact Int.le_refl _
  have hb := (Gr.block nb b b1 b2 b3).2.1
  have ha' := (Gr.block na a a1 a2 a3).2.1
  have hw : (regWindow r.secs (r.time julianOf a).1 (r.time julianOf a).2 (r.time julianOf b).1 (r.time julianOf b).2).startBlock = jbOf na := by
    unfold regWindow
    rw [Gr.std a ha, Gr.std b (by omega)]
    simp only
    rw [(Gr.block na a a1 a2 a3).1]
  have hlo := hlow na a1
  refine ⟨by rw [hw]; exact hlo, by rw [hw]; omega, ?_, by omega, ?_, ?_, ?_, ?_⟩
  · rw [hw]
    unfold regWindow
    rw [Gr.std a ha]
    exact ha'
  · unfold regWindow; rw [Gr.std a ha]
  · unfold regWindow; rw [Gr.std a ha]
  · unfold regWindow; rw [Gr.std b (by omega)]
  · unfold regWindow; rw [Gr.std b (by omega)]

theorem in_range_day {r : RegInterval} {k : Int} (h : InRange r k) : julianOf ⟨5, 1, 1⟩ ≤ (r.time julianOf k).1 := by
  have h5 : julianOf ⟨5, 1, 1⟩ ≤ julianOf ⟨100, 1, 1⟩ := by decide +kernel
  cases r with
  | fixed i =>
    have h : julianOf ⟨100, 1, 1⟩ * 86400 < k * i := h
    simp only [RegInterval.time]
    omega
  | period p =>
    have h : 100 ≤ (p.endDate k).year := h
    simp only [RegInterval.time]
    have hv := (endDate_facts p k).1
    have := (C01_julian_order ⟨5, 1, 1⟩ (p.endDate k) (by unfold Date.Valid; decide) hv (by decide) (by omega)).mpr (Or.inl (by simp only; omega))
    omega

theorem gran_api {r : RegInterval} (hr : r.Ok) {days : Int} (hdays : days < 1000000) : granularityOf r.secs days = if r.secs < 60 then 1 else 60 := by
  unfold granularityOf
  rw [if_pos hdays]

/-- C66, first half.  Storing values from a standard time, through the public interface, is a store of the history (so
C63 says what is read afterwards): it succeeds, changes the blocks of this series and leaves every other record. -/
theorem C66_store_partial (g : GoodSizes hdrSize maxHash binSize) {cfg : RegCfg UInt32} {q : Nat} (hcfg : SeriesCfg cfg q) {r : RegInterval} (hr : r.Ok)
    {ps : List Bytes} (hn : SeriesName ps) (helev : ((ps.getD 2 []).take 4).map toupper ≠ ELEVATION) {past : List Op} {s : Eng} {xs : List (TsDesc × RegStore (List UInt32))}
    (h : SeriesHistory (create hdrSize maxHash binSize mul).1 (create hdrSize maxHash binSize mul).2 cfg r q ps past s xs)
    {x : RegStore (List UInt32)} {units type zone : Bytes} (hx : StoreFits cfg r q ps past (apiDesc r.secs units type zone) x) (hq : x.qualitySize = 0 ∧ x.quality = [])
    (hdays : (r.time julianOf (x.start + x.values.length - 1)).1 - (r.time julianOf x.start).1 < 1000000)
    {env : Int → TsEnv} (he : TsArrays env) {m : TsMem} (hm : TsMemOk m) {path date time : Bytes} (hp : PathFor ps r.secs path) (ht : TextOf date time (r.time julianOf x.start)) :
    ∃ s' more,
      hecTsStoreRegular (create hdrSize maxHash binSize mul).1 cfg env m path date time x.values units type zone x.flag s = some (s', .ok) ∧
      Leads (create hdrSize maxHash binSize mul).1 past s more s' ∧ (∀ op ∈ more, ∀ y ∈ op.paths, AboutSeries ps y) ∧
      (∀ y, y.length ≤ 392 → ¬ AboutSeries ps y → zread (create hdrSize maxHash binSize mul).1 s' y = zread (create hdrSize maxHash binSize mul).1 s y) ∧
      SeriesHistory (create hdrSize maxHash binSize mul).1 (create hdrSize maxHash binSize mul).2 cfg r q ps (past ++ more) s' (xs ++ [(apiDesc r.secs units type zone, x)]) := by
  obtain ⟨code, jbOf, edge, n0, Gr, hrange, hdate, hnib⟩ := grid_of r hr
  have ha := hrange _ hx.ok.inRange
  have hlen : 0 < x.values.length := List.length_pos_iff.mpr hx.ok.nonempty
  obtain ⟨p1, p2, y, e, b, p3, p4, p5, p6, p7, p8, p9, p10, p11, p12⟩ := tsPath_spec hn hp hm
  obtain ⟨t1, t2⟩ := time_secs r x.start
  obtain ⟨t0, a1, _, a3, a4⟩ := apiTime_spec ht t1 t2 (in_range_day hx.ok.inRange)
  have hinc : incrementTime r.secs ((x.values.length : Int) - 1) (r.time julianOf x.start).1 (r.time julianOf x.start).2 = r.time julianOf (x.start + x.values.length - 1) := by
    rw [Gr.inc _ _ ha (by omega)]
    congr 1; omega
  obtain ⟨w1, w2, w3, w0, w4, w5, w6, w7⟩ := start_block Gr (low_of hdate) ha (b := x.start + x.values.length - 1) (by omega) hx.last
  obtain ⟨internal, i1, i2⟩ := internal_spec hn p4 p5 p11 p12 m w1 w2
  obtain ⟨f, f1, f2⟩ := normalized_spec hn p4 p6 p7 p9 hm
  obtain ⟨s', more, k1, k2, k3, k4⟩ := C63_store_partial g hcfg hr hn.six hn.fits h hx he m.loop hm.path i2
  refine ⟨s', more, ?_, k2, k3, k4, SeriesHistory.store h hx he hm.path i2 k1 k2⟩
  unfold hecTsStoreRegular
  simp only
  rw [p1, if_neg (by omega), a1, Option.bind_some, p10, Option.bind_some]
  simp only
  rw [a3, a4, if_neg (by simp only [Bool.true_eq_false, or_false]; omega), hinc, i1, Option.bind_some, p3, f2, Option.bind_some]
  simp only
  rw [elev_spec hn helev p4 p6 p7 p9 f1 hm, Option.bind_some, w4, w6, gran_api hr hdays, std_offset hr hx.ok.inRange]
  simp only [Bool.false_eq_true, if_false]
  rw [hq.1, hq.2] at k1
  have e1 : (⟨if r.secs < 60 then 1 else 60, -1, 0, ⟨false, some (mallocAndCopy units), none, none, some (mallocAndCopy type), some (mallocAndCopy zone)⟩⟩ : TsDesc) =
    apiDesc r.secs units type zone := rfl
  rw [e1, k1]
  rfl

theorem interval_dvd {e : Bytes} {k i : Int} {name : Bytes} (h : ePartToSeconds 7 e = some (k, i, name)) (hi : 60 ≤ i) : 60 ∣ i := by
  have key : ∀ x ∈ intervalTable 7, 60 ≤ x.2 → x.2 % 60 = 0 := by decide +kernel
  unfold ePartToSeconds at h
  simp only at h
  split at h
  · cases h
  · rename_i x hx
    injection h with h
    have hn : (if (e.head? == some 126) = true then pseudoBlock 7 x.2 else x.2) = i := by injection h with h1 h2; injection h2
    split at hn
    · exfalso
      subst hn
      have hp : ∀ s, pseudoBlock 7 s < 60 := by
        intro s; unfold pseudoBlock; split <;> (try split) <;> (try split) <;> (try split) <;> (try split) <;> decide
      have := hp x.2
      omega
    · subst hn
      exact Int.dvd_of_emod_eq_zero (key x (List.mem_of_find?_eq_some hx) hi)

theorem julian_le {d e : Date} (hd : d.Valid) (he : e.Valid) (yd : 5 ≤ d.year) (ye : 5 ≤ e.year) (h : ¬ e.before d) : julianOf d ≤ julianOf e := by
  rcases Int.lt_or_le (julianOf e) (julianOf d) with k | k
  · exact absurd ((C01_julian_order e d he hd ye yd).mp k) h
  · exact k

theorem firstOf_valid (y : Int) {m : Int} (h1 : 1 ≤ m) (h2 : m ≤ 12) : Date.Valid ⟨y, m, 1⟩ := by
  unfold Date.Valid
  have := monthLen_ge y m
  simp only
  omega

/-- The days of a block. -/
theorem block_days {b : Block} {d : Date} (hv : d.Valid) (hy : 100 ≤ d.year) : julianOf (b.next d) - julianOf (b.start d) ≤ 36600 ∧ (b = .day → julianOf (b.next d) = julianOf (b.start d) + 1) := by
  have hday := C01_julian_consecutive.2 d hv (by omega)
  refine ⟨?_, fun e => by subst e; exact hday⟩
  have hspan := years_len 100 (y := d.year / 100 * 100) (by omega)
  simp only [Int.cast_ofNat_Int] at hspan
  have hlo : ∀ e : Date, e.Valid → d.year / 100 * 100 ≤ e.year → julianOf ⟨d.year / 100 * 100, 1, 1⟩ ≤ julianOf e := by
    intro e hve hye
    refine julian_le (firstOf_valid _ (by decide) (by decide)) hve (by simp only; omega) (by omega) ?_
    unfold Date.Valid at hve
    unfold Date.before
    simp only
    omega
  have hhi : ∀ (y m : Int), 100 ≤ y → 1 ≤ m → m ≤ 12 → y < d.year / 100 * 100 + 100 ∨ (y = d.year / 100 * 100 + 100 ∧ m = 1) → julianOf ⟨y, m, 1⟩ ≤ julianOf ⟨d.year / 100 * 100 + 100, 1, 1⟩ := by
    intro y m hy1 h1 h2 h3
    refine julian_le (firstOf_valid _ h1 h2) (firstOf_valid _ (by decide) (by decide)) (by simp only; omega) (by simp only; omega) ?_
    unfold Date.before
    simp only
    omega
  have hv' := hv
  unfold Date.Valid at hv'
  cases b with
  | day =>
    simp only [Block.start, Block.next]
    omega
  | month =>
    simp only [Block.start, Block.next]
    have h1 := hlo ⟨d.year, d.month, 1⟩ (firstOf_valid _ (by omega) (by omega)) (by simp only; omega)
    split
    · have h2 := hhi d.year (d.month + 1) (by omega) (by omega) (by omega) (by omega)
      omega
    · have h2 := hhi (d.year + 1) 1 (by omega) (by omega) (by omega) (by omega)
      omega
  | year =>
    simp only [Block.start, Block.next]
    have h1 := hlo ⟨d.year, 1, 1⟩ (firstOf_valid _ (by omega) (by omega)) (by simp only; omega)
    have h2 := hhi (d.year + 1) 1 (by omega) (by omega) (by omega) (by omega)
    omega
  | decade =>
    simp only [Block.start, Block.next]
    have h1 := hlo ⟨d.year / 10 * 10, 1, 1⟩ (firstOf_valid _ (by omega) (by omega)) (by simp only; omega)
    have h2 := hhi (d.year / 10 * 10 + 10) 1 (by omega) (by omega) (by omega) (by omega)
    omega
  | century =>
    simp only [Block.start, Block.next]
    omega

theorem endDate_step (p : Period) (k : Int) : ¬ (p.endDate (k + 1)).before (p.endDate k) ∧ (p.endDate k).year ≤ (p.endDate (k + 1)).year := by
  have hl := monthLen_ge
  cases p with
  | year => simp only [Period.endDate, Date.before]; omega
  | month =>
    simp only [Period.endDate, Spec.lastDay, Date.before]; omega
  | semiMonth =>
    have := hl (k / 2 / 12) (k / 2 % 12 + 1)
    simp only [Period.endDate]
    split <;> split <;> simp only [Spec.lastDay, Spec.dayOfMonth, Date.before] <;> try omega
    have e : (k + 1) / 2 = k / 2 := by omega
    rw [e]
    omega
  | triMonth =>
    have := hl (k / 3 / 12) (k / 3 % 12 + 1)
    simp only [Period.endDate]
    split <;> (try split) <;> (try split) <;> (try split) <;> simp only [Spec.lastDay, Spec.dayOfMonth, Date.before] <;> try omega
    have e : (k + 1) / 3 = k / 3 := by omega
    rw [e]
    omega

theorem time_mono (r : RegInterval) (hr : r.Ok) {a b : Int} (ha : InRange r a) (hab : a ≤ b) : (r.time julianOf a).1 ≤ (r.time julianOf b).1 := by
  cases r with
  | fixed i =>
    simp only [RegInterval.time]
    have : a * i ≤ b * i := Int.mul_le_mul_of_nonneg_right hab (by have := hr.1; omega)
    omega
  | period p =>
    have ha : 100 ≤ (p.endDate a).year := ha
    simp only [RegInterval.time]
    obtain ⟨n, rfl⟩ : ∃ n : Nat, b = a + n := ⟨(b - a).toNat, by omega⟩
    clear hab
    have key : julianOf (p.endDate a) ≤ julianOf (p.endDate (a + n)) ∧ 100 ≤ (p.endDate (a + n)).year := by
      induction n with
      | zero => simpa using ha
      | succ n ih =>
        obtain ⟨h1, h2⟩ := endDate_step p (a + n)
        rw [show a + ((n + 1 : Nat) : Int) = a + n + 1 by omega]
        refine ⟨Int.le_trans ih.1 (julian_le (endDate_facts p _).1 (endDate_facts p _).1 (by omega) (by omega) h1), by omega⟩
    exact key.1

theorem InRange.mono {r : RegInterval} (hr : r.Ok) {a b : Int} (ha : InRange r a) (hab : a ≤ b) : InRange r b := by
  cases r with
  | fixed i =>
    have ha : julianOf ⟨100, 1, 1⟩ * 86400 < a * i := ha
    show julianOf ⟨100, 1, 1⟩ * 86400 < b * i
    have : a * i ≤ b * i := Int.mul_le_mul_of_nonneg_right hab (by have := hr.1; omega)
    omega
  | period p =>
    have ha : 100 ≤ (p.endDate a).year := ha
    show 100 ≤ (p.endDate b).year
    obtain ⟨n, rfl⟩ : ∃ n : Nat, b = a + n := ⟨(b - a).toNat, by omega⟩
    clear hab
    induction n with
    | zero => simpa using ha
    | succ n ih =>
      have := (endDate_step p (a + n)).2
      rw [show a + ((n + 1 : Nat) : Int) = a + n + 1 by omega]
      omega

theorem tsPath_bad {ps : List Bytes} (h : SixParts ps) (hl : ∀ p ∈ ps, p.length ≤ 128) (hP : ∀ p ∈ ps, Printable p)
    (hno : (ps.getD 4 []).length < 4 ∨ ePartToSeconds 7 (ps.getD 4 []) = none) {m : TsMem} (hm : TsMemOk m) : tsPath m (join ps) = some .bad := by
  obtain ⟨b1, c1, c2, c3⟩ := clean_join h hP (b := List.replicate ((join ps).length + 20) 0) (by simp)
  have hc1 : cstr b1 = join ps := cstr_holds c3 (join_nonzero _ h.2)
  obtain ⟨eb, g1, g2, g3⟩ := getPart_short _ h.1 h.2 hl 4 (by omega) m.ePart hm.ePart m.junk
  obtain ⟨pa, pb, pc, pd, pe, pf, rfl⟩ := six_list h
  have hel : ([pa, pb, pc, pd, pe, pf][4]'(by simp)) = pe := rfl
  rw [hel] at g1 g3
  have hce : cstr eb = pe := cstr_holds g3 fun c hc => (h.2 pe (by simp) c hc).2
  have hno : pe.length < 4 ∨ ePartToSeconds 7 pe = none := hno
  unfold tsPath
  rw [c1, Option.bind_some]
  simp only
  rw [hc1]
  have g1 : zpathnameGetPart (join [pa, pb, pc, pd, pe, pf]) 5 m.ePart m.junk = some (eb, (pe.length : Int)) := g1
  rw [g1, Option.bind_some]
  simp only
  rcases hno with hno | hno
  · rw [if_pos (by omega)]
  · split
    · rfl
    · rw [hce, hno]

/-- C66.  A pathname whose E part is no interval (or has fewer than four characters) is refused, and the file is not touched. -/
theorem C66_no_interval {ps : List Bytes} (h : SixParts ps) (hl : ∀ p ∈ ps, p.length ≤ 128) (hP : ∀ p ∈ ps, Printable p)
    (hno : (ps.getD 4 []).length < 4 ∨ ePartToSeconds 7 (ps.getD 4 []) = none) (c : Cfg) (cfg : RegCfg UInt32) (env : Int → TsEnv) {m : TsMem} (hm : TsMemOk m)
    {date time : Bytes} (ht : time = [] ∨ ∃ t, timeStringToSeconds time = some t) (values : List (List UInt32)) (units type zone : Bytes) (flag : Int) (s : Eng) :
    hecTsStoreRegular c cfg env m (join ps) date time values units type zone flag s = some (s, .failed) := by
  obtain ⟨t, hT⟩ : ∃ t, apiTime date time = some t := by
    unfold apiTime
    rcases ht with e | ⟨t, e⟩
    · subst e; exact ⟨_, rfl⟩
    · cases time with
      | nil => exact ⟨_, rfl⟩
      | cons c cs => rw [if_pos (show (c :: cs).length > 0 by simp), e]; exact ⟨_, rfl⟩
  unfold hecTsStoreRegular
  simp only
  rw [malloc_join h]
  split
  · rfl
  rw [hT, Option.bind_some]
  rw [tsPath_bad h hl hP hno hm]
  rfl

theorem put_shown (buf : Bytes) {size : Int} {s : Bytes} (hs : Ascii s) (h0 : 0 ≤ size) (h1 : size ≤ buf.length) :
    putString buf size (setField ⟨none, false⟩ (some (mallocAndCopy s))).val = some (shownOpt buf size.toNat (shown (some s))) := by
  unfold setField
  simp only [Bool.false_eq_true, if_false]
  rw [shown_copy hs]
  cases hsh : shown (some s) with
  | none => rfl
  | some t =>
    simp only
    rw [putString_some buf t h0 h1]
    rfl

theorem copyArray_first {α : Type} (dst src : List α) {n : Nat} (h : n ≤ src.length) (h2 : n ≤ dst.length) : copyArray dst n src = some (written dst (src.take n)) := by
  have hl : (src.take n).length = n := by rw [List.length_take]; omega
  unfold copyArray written
  split
  · have : n = 0 := by omega
    subst this; simp
  · simp only [Int.toNat_natCast]
    rw [hl, Nat.min_eq_right h, if_pos h2]

/-- C66, second half.  After any such history, in which the series was always stored with the same units, type and time zone, a
window is read through the public interface: as many values as the arrays have room for, each with its time; units, type
and time zone; the arrays behind the values are left. -/
theorem C66_retrieve_partial (g : GoodSizes hdrSize maxHash binSize) {cfg : RegCfg UInt32} {q : Nat} (hcfg : SeriesCfg cfg q) {r : RegInterval} (hr : r.Ok)
    {ps : List Bytes} (hn : SeriesName ps) {past : List Op} {s : Eng} {xs : List (TsDesc × RegStore (List UInt32))}
    (h : SeriesHistory (create hdrSize maxHash binSize mul).1 (create hdrSize maxHash binSize mul).2 cfg r q ps past s xs)
    {units type zone : Bytes} (hu : Ascii units) (hty : Ascii type) (hz : Ascii zone) (hdesc : ∀ x ∈ xs, x.1 = apiDesc r.secs units type zone)
    {a b : Int} (ha : InRange r a) (hab : a ≤ b) (hlast : (r.time julianOf b).1 ≤ julianOf ⟨9999, 12, 31⟩)
    (hdays : (r.time julianOf b).1 - (r.time julianOf a).1 < 1000000)
    (hdata : ∃ k : Nat, a + k ≤ b ∧ cfg.isMissing (regSeries cfg.isMissing cfg.missing (xs.map Prod.snd) (a + k)) = false)
    {m : TsMem} (hm : TsMemOk m) {env : Int → Bytes × Bytes} (he : ∀ j, (env j).2.length = 200)
    {path startDate startTime endDate endTime : Bytes} (hp : PathFor ps r.secs path)
    (hs : TextOf startDate startTime (r.time julianOf a)) (hE : TextOf endDate endTime (r.time julianOf b))
    (hdate : ¬ (dateToJulian startDate = 0 ∧ dateToJulian endDate = 0) ∧ ¬ (dateToJulian startDate = -1 ∧ dateToJulian endDate = -1))
    {size qualityWidth unitsSize typeSize zoneSize : Int} (hqw : qualityWidth ≤ 0) {buf : TsBuffers}
    (hsize : 0 ≤ size ∧ size ≤ buf.times.length ∧ size ≤ buf.values.length) (hus : 0 ≤ unitsSize ∧ unitsSize ≤ buf.units.length)
    (hts : 0 ≤ typeSize ∧ typeSize ≤ buf.type.length) (hzs : 0 ≤ zoneSize ∧ zoneSize ≤ buf.zone.length) :
    ∃ out, hecTsRetrieve (create hdrSize maxHash binSize mul).1 cfg env m path startDate startTime endDate endTime size qualityWidth unitsSize typeSize zoneSize buf s = some (.ok, out) ∧
      out.number = min (b - a + 1) size ∧
      (∀ k : Nat, (k : Int) < out.number →
        (∃ t, out.times[k]? = some t ∧ out.base * 86400 + t * out.gran = (r.time julianOf (a + k)).1 * 86400 + (r.time julianOf (a + k)).2 ∧
          (60 ≤ r.secs ∨ (r.time julianOf b).1 - (r.time julianOf a).1 ≤ 24800 → IsInt t)) ∧
        (∃ v, out.values[k]? = some v ∧ SameValue cfg.isMissing v (regSeries cfg.isMissing cfg.missing (xs.map Prod.snd) (a + k)))) ∧
      (∀ k : Nat, out.number ≤ k → out.times[k]? = buf.times[k]? ∧ out.values[k]? = buf.values[k]?) ∧
      out.units = shownOpt buf.units unitsSize.toNat (shown (some units)) ∧ out.type = shownOpt buf.type typeSize.toNat (shown (some type)) ∧
      out.zone = shownOpt buf.zone zoneSize.toNat (shown (some zone)) := by
  obtain ⟨code, jbOf, edge, n0, Gr, hrange, hdates, hnib⟩ := grid_of r hr
  have ha' := hrange _ ha
  obtain ⟨p1, p2, y, e, b0, p3, p4, p5, p6, p7, p8, p9, p10, p11, p12⟩ := tsPath_spec hn hp hm
  obtain ⟨ta1, ta2⟩ := time_secs r a
  obtain ⟨tb1, tb2⟩ := time_secs r b
  obtain ⟨s0, a1, a2, a3, a4⟩ := apiTime_spec hs ta1 ta2 (in_range_day ha)
  obtain ⟨w1, w2, w3, w0, w4, w5, w6, w7⟩ := start_block Gr (low_of hdates) ha' hab hlast
  have hbday : julianOf ⟨5, 1, 1⟩ ≤ (r.time julianOf b).1 := by
    have : julianOf ⟨5, 1, 1⟩ ≤ julianOf ⟨100, 1, 1⟩ := by decide +kernel
    omega
  obtain ⟨e0, b1, b2, b3, b4⟩ := apiTime_spec hE tb1 tb2 hbday
  obtain ⟨internal, i1, i2⟩ := internal_spec hn p4 p5 p11 p12 m w1 w2
  obtain ⟨f, f1, f2⟩ := normalized_spec hn p4 p6 p7 p9 hm
  have hgran := gran_api hr hdays
  obtain ⟨got, k1, k2, k3, k4, k5, k6⟩ := C63_retrieve_partial g hcfg hr hn.six hn.fits h a b ha hab hlast m.loop he hm.path i2
    ⟨if r.secs < 60 then 1 else 60, -1, 0, ⟨none, false⟩, ⟨none, false⟩, ⟨none, false⟩, ⟨none, false⟩, ⟨none, false⟩⟩
  obtain ⟨kd, kd1, kd2⟩ := hdata
  have hfound := k4 kd kd1 kd2
  have hhead := k6 _ hdesc hfound
  have hnum := Gr.np a b (by omega) (by omega)
  have hsb : (regWindow r.secs (r.time julianOf a).1 (r.time julianOf a).2 (r.time julianOf b).1 (r.time julianOf b).2).startBlock ≤ (r.time julianOf a).1 := by rw [w4] at w3; exact w3
  generalize hw : (regWindow r.secs (r.time julianOf a).1 (r.time julianOf a).2 (r.time julianOf b).1 (r.time julianOf b).2).startBlock = sb at hsb i1 w1 w2 w3
  have hclose : (r.time julianOf a).1 - sb ≤ 36600 ∧ (r.secs < 60 → (r.time julianOf a).1 = sb) := by
    obtain ⟨na, n1, n2, n3⟩ := Gr.find ha'
    obtain ⟨g1, g2, g3⟩ := Gr.block na a n1 n2 n3
    have hsb' : sb = jbOf na := by
      rw [← hw]
      unfold regWindow
      rw [Gr.std a ha']
      simp only
      rw [g1]
    obtain ⟨d, hv, hy, e1, e2⟩ := hdates na n1
    have hbd := block_days (b := r.block) hv hy
    rw [← e1, ← e2] at hbd
    refine ⟨by omega, fun h60 => ?_⟩
    have hblk : r.block = .day := by
      cases r with
      | fixed i => simp only [RegInterval.secs] at h60; simp only [RegInterval.block]; rw [if_pos (by omega)]
      | period p => exfalso; revert h60; cases p <;> decide
    have := hbd.2 hblk
    omega
  obtain ⟨base, hbase⟩ : ∃ base : Int, base = (if (r.time julianOf a).1 > 1400000 ∨ (r.time julianOf b).1 > 1400000 then (r.time julianOf a).1
    else baseOf (if r.secs < 60 then 1 else 60) sb (r.time julianOf a).1 (r.time julianOf b).1) := ⟨_, rfl⟩
  have hoff : got.head.offset = 0 := by rw [hhead]; rfl
  have hgr : got.head.granularity = if r.secs < 60 then 1 else 60 := by
    rw [hhead]
    unfold readHead apiDesc
    simp only
    rw [if_pos (by split <;> decide)]
  have hread : tsRead (create hdrSize maxHash binSize mul).1 cfg env m path s0 e0 qualityWidth s =
      some (.got got base (regTimes r.secs (r.time julianOf a).1 (r.time julianOf a).2 0 (if r.secs < 60 then 1 else 60) base (b - a + 1).toNat) true) := by
    unfold tsRead
    rw [if_neg (by rw [a2, b2]; omega)]
    simp only
    rw [a3, b3, a4, b4, if_neg (by simp), p10, Option.bind_some]
    simp only
    rw [w4, w5, w6, w7, hnum, if_neg (by omega), hw, i1, Option.bind_some, p3, f2, Option.bind_some]
    simp only
    rw [hgran, std_offset hr ha, k1, Option.bind_some]
    simp only
    rw [hfound, if_neg (by decide), if_neg (show ¬ (got.values.length : Int) < b - a + 1 by omega), if_neg (show ¬ qualityWidth > 0 by omega), Option.map_some, hoff, hgr, hbase]
  have hdvd : (if r.secs < 60 then 1 else 60) ∣ r.secs := by
    split
    · exact Int.one_dvd _
    · rename_i h60
      obtain ⟨_, _, _, _, _, _, _, _, _, _, hE7, _⟩ := hp.made
      exact interval_dvd hE7 (by omega)
  have htimes := times_spec hr ha (gran := if r.secs < 60 then 1 else 60) (base := base) (by split <;> simp) hdvd (b - a + 1).toNat
  have hints : ∀ k : Nat, k < (b - a + 1).toNat → ∀ t : Int, base * 86400 + t * (if r.secs < 60 then 1 else 60) = (r.time julianOf (a + k)).1 * 86400 + (r.time julianOf (a + k)).2 →
      (60 ≤ r.secs ∨ (r.time julianOf b).1 - (r.time julianOf a).1 ≤ 24800 → IsInt t) := by
    intro k hk t ht hor
    have m1 := time_mono r hr ha (b := a + k) (by omega)
    have m2 := time_mono r hr (a := a + k) (b := b) (InRange.mono hr ha (by omega)) (by omega)
    obtain ⟨s1, s2⟩ := time_secs r (a + k)
    obtain ⟨d1, d2⟩ := hclose
    unfold IsInt
    unfold baseOf at hbase
    by_cases h60 : r.secs < 60
    · simp only [h60, if_true] at ht hbase
      have := d2 h60
      rw [if_neg (show ¬ (1 : Int) = 60 by decide)] at hbase
      split at hbase <;> omega
    · simp only [h60, if_false] at ht hbase
      rw [if_pos trivial] at hbase
      split at hbase
      · omega
      · split at hbase <;> omega
  obtain ⟨n, hn1⟩ : ∃ n : Nat, (n : Int) = min (b - a + 1) size := ⟨(min (b - a + 1) size).toNat, by omega⟩
  have hn2 : max 0 (min (got.values.length : Int) size) = (n : Int) := by rw [k2]; omega
  have hlt : (regTimes r.secs (r.time julianOf a).1 (r.time julianOf a).2 0 (if r.secs < 60 then 1 else 60) base (b - a + 1).toNat).length = (b - a + 1).toNat := by
    unfold regTimes
    simp only
    split <;> simp
  have hnl : n ≤ got.values.length := by omega
  refine ⟨⟨written buf.times ((regTimes r.secs (r.time julianOf a).1 (r.time julianOf a).2 0 (if r.secs < 60 then 1 else 60) base (b - a + 1).toNat).take n),
    written buf.values (got.values.take n), n, base, if r.secs < 60 then 1 else 60, shownOpt buf.units unitsSize.toNat (shown (some units)),
    shownOpt buf.type typeSize.toNat (shown (some type)), shownOpt buf.zone zoneSize.toNat (shown (some zone))⟩, ?_, hn1, ?_, ?_, rfl, rfl, rfl⟩
  · unfold hecTsRetrieve
    rw [a1, Option.bind_some, b1, Option.bind_some]
    simp only
    rw [p1, hread, Option.bind_some]
    simp only
    have hu' : got.head.units = setField ⟨none, false⟩ (some (mallocAndCopy units)) := by rw [hhead]; rfl
    have ht' : got.head.type = setField ⟨none, false⟩ (some (mallocAndCopy type)) := by rw [hhead]; rfl
    have hz' : got.head.zone = setField ⟨none, false⟩ (some (mallocAndCopy zone)) := by rw [hhead]; rfl
    rw [hu', put_shown _ hu hus.1 hus.2, Option.bind_some, ht', put_shown _ hty hts.1 hts.2, Option.bind_some, hz', put_shown _ hz hzs.1 hzs.2, Option.bind_some, hn2]
    rw [if_neg (by simp), copyArray_first _ _ (by rw [hlt]; omega) (by omega), Option.bind_some, copyArray_first _ _ hnl (by omega), Option.map_some, hgr]
  · intro k hk
    have hk : k < n := by simpa using hk
    refine ⟨⟨_, ?_, htimes k (by omega), hints k (by omega) _ (htimes k (by omega))⟩, ⟨_, ?_, k3 k (by omega)⟩⟩
    · unfold written
      simp only
      rw [List.getElem?_append_left (by rw [List.length_take, hlt]; omega), List.getElem?_take, if_pos hk, List.getElem?_eq_getElem (by rw [hlt]; omega)]
      rfl
    · unfold written
      simp only
      rw [List.getElem?_append_left (by rw [List.length_take]; omega), List.getElem?_take, if_pos hk, List.getElem?_eq_getElem (by omega)]
      rfl
  · intro k hk
    have hk : n ≤ k := by simpa using hk
    have l1 : ((regTimes r.secs (r.time julianOf a).1 (r.time julianOf a).2 0 (if r.secs < 60 then 1 else 60) base (b - a + 1).toNat).take n).length = n := by
      rw [List.length_take, hlt]; omega
    have l2 : (got.values.take n).length = n := by rw [List.length_take]; omega
    unfold written
    simp only
    rw [List.getElem?_append_right (by omega), List.getElem?_append_right (by omega), l1, l2, List.getElem?_drop, List.getElem?_drop, show n + (k - n) = k by omega]
    exact ⟨rfl, rfl⟩

end Hec
