import Verif.Spec.ItsApi
import Verif.Props.TsApi
/-!
C67: irregular time series through the public interface, hec_dss_tsStoreIregular and hec_dss_tsRetrieve.
-/
namespace Hec
set_option linter.unusedSimpArgs false
set_option linter.unusedVariables false
open _root_.Spec (Date Block IrregStore seriesOf Increasing Op Reachable Leads GoodSizes create join SixParts IsPart IsInt DescOk readHead blockLength AboutSeries NamesSeries
  TsArrays Holds Printable TextOf SeriesName TsMemOk Ascii shown shownOpt setField cells NoZero rtrim written ItsPathFor BaseText itsApiDesc withoutFlags)
open Hec.Spec (sameUpToCase)

variable {hdrSize maxHash binSize : Nat} {mul : Nat → Nat}

theorem itsPath_spec {ps : List Bytes} {b : Block} {path : Bytes} (hn : SeriesName ps) (hp : ItsPathFor ps b path) {m : TsMem} (hm : TsMemOk m) :
    mallocAndCopyPath path = path ∧ 10 ≤ path.length ∧
    ∃ y e buf, path = join ((ps.set 3 y).set 4 e) ∧ IsPart y ∧ Printable y ∧ y.length ≤ 128 ∧ IsPart e ∧ Printable e ∧ e.length ≤ 128 ∧
      tsPath m path = some (.irregular b.code buf) ∧ Holds buf (join (ps.set 3 y)) ∧ (join (ps.set 3 [])).length + 9 < buf.length := by
  obtain ⟨y, e, name, h⟩ := hp.made
  have := tsPath_gen (kind := 1) hn ⟨y, e, h⟩ hm
  simp only [show ((1 : Int) = 0) = False by decide, if_false, Int.neg_neg] at this
  exact this

/-- Strings of ASCII characters that fit in the header make a description. -/
theorem its_desc_ok {g : Int} (hg : g = 1 ∨ g = 60 ∨ g = 3600 ∨ g = 86400) {units type zone : Bytes} (hu : Ascii units) (ht : Ascii type) (hz : Ascii zone)
    (hfit : cells (some units) + cells (some type) + cells (some zone) ≤ 200) : DescOk (itsApiDesc g units type zone) := by
  have h := api_desc_ok (secs := 60) hu ht hz hfit
  refine ⟨?_, rfl, h.3, h.4⟩
  unfold itsApiDesc
  simp only
  unfold IsInt
  refine ⟨?_, by decide, by decide⟩
  rcases hg with rfl | rfl | rfl | rfl <;> decide

theorem ascend_of {l : List (Entry (List UInt32))} (h : Increasing (withoutFlags l)) : timesAscend l = true := by
  induction l with
  | nil => rfl
  | cons a l ih =>
    unfold withoutFlags at h ih
    rw [List.map_cons] at h
    obtain ⟨h1, h2⟩ := List.pairwise_cons.mp h
    cases l with
    | nil => rfl
    | cons b l =>
      have := h1 ⟨b.time, (b.val, [])⟩ (by simp)
      simp only at this
      unfold timesAscend
      rw [ih h2, decide_eq_true (by omega)]
      rfl

theorem no_flags (quality : List UInt32) : ∀ (l : List (Entry (List UInt32))) (k : Nat), itsVals QUALITY_ELEMENT_SIZE quality k l = withoutFlags l
  | [], _ => rfl
  | e :: l, k => by
    unfold itsVals
    rw [no_flags quality l (k + 1)]
    rfl

/-- C67, first half.  Storing values with increasing times through the public interface is a store of the history (so C64
says what is read afterwards): it succeeds, changes the blocks of this series and leaves every other record. -/
theorem C67_store_partial (gs : GoodSizes hdrSize maxHash binSize) {pol : PackPolicy} (b : Block) {g : Int} (hcfg : ItsSettings ⟨pol, 2, 0⟩ g)
    {ps : List Bytes} (hn : SeriesName ps) (helev : ((ps.getD 2 []).take 4).map toupper ≠ ELEVATION) {past : List Op} {s : Eng} {xs : List (TsDesc × IrregStore ItsVal)}
    (h : ItsHistory (create hdrSize maxHash binSize mul).1 (create hdrSize maxHash binSize mul).2 ⟨pol, 2, 0⟩ b g ps past s xs)
    {vals : List (Entry (List UInt32))} {base : Int} {units type zone : Bytes}
    (hx : ItsStoreFits ⟨pol, 2, 0⟩ b g ps past (itsApiDesc g units type zone) ⟨g, base, withoutFlags vals⟩) (hne : vals ≠ [])
    {env : Int → TsEnv} (he : TsArrays env) {m : TsMem} (hm : TsMemOk m) {path date : Bytes} (hp : ItsPathFor ps b path) (hb : BaseText date base) (quality : List UInt32) :
    ∃ s' more,
      hecTsStoreIregular (create hdrSize maxHash binSize mul).1 pol env m path date vals g quality units type zone 0 s = some (s', .ok) ∧
      Leads (create hdrSize maxHash binSize mul).1 past s more s' ∧ (∀ op ∈ more, ∀ y ∈ op.paths, AboutSeries ps y) ∧
      (∀ y, y.length ≤ 392 → ¬ AboutSeries ps y → zread (create hdrSize maxHash binSize mul).1 s' y = zread (create hdrSize maxHash binSize mul).1 s y) ∧
      ItsHistory (create hdrSize maxHash binSize mul).1 (create hdrSize maxHash binSize mul).2 ⟨pol, 2, 0⟩ b g ps (past ++ more) s'
        (xs ++ [(itsApiDesc g units type zone, ⟨g, base, withoutFlags vals⟩)]) := by
  obtain ⟨p1, p2, y, e, buf, p3, p4, p5, p6, p7, p8, p9, p10, p11, p12⟩ := itsPath_spec hn hp hm
  obtain ⟨jbOf, n0, Gr, h100, hd⟩ := block_grid b
  have hbase : (if date.length > 4 then dateToJulian date else 0) = base := by
    rcases hb with ⟨h1, h2⟩ | ⟨h1, h2⟩
    · rw [if_neg (by omega), h2]
    · rw [if_pos h1, h2]
  cases hv : vals with
  | nil => exact absurd hv hne
  | cons e0 l =>
    have hmem : (⟨e0.time, (e0.val, [])⟩ : Entry ItsVal) ∈ withoutFlags vals := by rw [hv]; simp [withoutFlags]
    have hin := hx.ok.inRange _ hmem
    have hla := hx.last _ hmem
    have hde := hx.ok.defined _ hmem
    unfold IrregStore.at at hin hla
    simp only at hin hla hde
    obtain ⟨n, n1, n2, n3⟩ := time_block Gr hcfg.gran ⟨hde.1, hde.2⟩ (by rw [h100]; exact hin)
    have hlow : julianOf ⟨100, 1, 1⟩ ≤ jbOf n := by rw [← h100]; exact Gr.mono_le (by omega) n1
    obtain ⟨internal, i1, i2⟩ := internal_spec hn p4 p5 p11 p12 m (j := jbOf n) hlow (by omega)
    obtain ⟨f, f1, f2⟩ := normalized_spec hn p4 p6 p7 p9 hm
    obtain ⟨s', more, k1, k2, k3, k4⟩ := C64_store_partial gs b hcfg hn.six hn.fits h hx he m.loop hm.path i2
    refine ⟨s', more, ?_, k2, k3, k4, ?_⟩
    · unfold hecTsStoreIregular
      simp only
      rw [p1, if_neg (by omega), hbase, p10, Option.bind_some]
      simp only
      have hg1 : ¬ g < 1 := by have := hcfg.gran; omega
      have hdef : isTimeDefined (cleanTime base e0.time g) = true := by
        have hL1 : 1 ≤ dayLengthOf g := by rcases hcfg.gran with h | h | h | h <;> subst h <;> decide
        have hc := cleanTime_spec (j := base) (t := e0.time) (g := g) ⟨hde.1, hde.2⟩ hL1
        simp only at hc
        have hL : dayLengthOf g * g = 86400 := by rcases hcfg.gran with h | h | h | h <;> subst h <;> decide
        have hx4 := congrArg (· * g) hc.2.2
        simp only [Int.add_mul] at hx4
        rw [Int.mul_assoc, Int.mul_assoc, hL] at hx4
        have h6 : (cleanTime base e0.time g).2 * g ≤ dayLengthOf g * g := Int.mul_le_mul_of_nonneg_right hc.2.1 (by omega)
        rw [hL] at h6
        have hund : julianOf ⟨100, 1, 1⟩ > UNDEFINED_TIME + 1 := by decide
        unfold isTimeDefined
        have a1 : (cleanTime base e0.time g).1 ≠ UNDEFINED_TIME := by omega
        have a2 : ¬ (cleanTime base e0.time g).2 < 0 := by omega
        simp [a1, a2]
      rw [if_neg hg1, hdef, if_neg (by decide), n2, i1, Option.bind_some, p3, f2, Option.bind_some]
      simp only
      rw [elev_spec hn helev p4 p6 p7 p9 f1 hm, Option.bind_some, if_neg (by decide), ← hv, ascend_of hx.ok.increasing, if_neg (by decide), if_neg (by decide)]
      rw [no_flags]
      have k1 : ztsStoreIrregF (create hdrSize maxHash binSize mul).1 ⟨pol, 2, QUALITY_ELEMENT_SIZE⟩ ⟨g, -1, 0, ⟨false, some (mallocAndCopy units), none, none, some (mallocAndCopy type), some (mallocAndCopy zone)⟩⟩ env
        m.loop m.path internal b.code base (withoutFlags vals) s = some (s', true) := k1
      rw [k1]
      rfl
    · rw [← hv]
      exact ItsHistory.store h hx he hm.path i2 k1 k2

/-- C67.  Times that are not in order are refused, and the file is not touched. -/
theorem C67_not_ascending {ps : List Bytes} (hn : SeriesName ps) (b : Block) {g : Int} (hg : g = 1 ∨ g = 60 ∨ g = 3600 ∨ g = 86400)
    (helev : ((ps.getD 2 []).take 4).map toupper ≠ ELEVATION) {before after : List (Entry (List UInt32))} {e1 e2 : Entry (List UInt32)} (hnot : e2.time < e1.time)
    {base : Int} (hfirst : base ≠ UNDEFINED_TIME ∧ ∀ e ∈ (before ++ e1 :: e2 :: after).head?, ¬ (base = 0 ∧ e.time = 0) ∧ julianOf ⟨100, 1, 1⟩ * 86400 < base * 86400 + e.time * g ∧
      base * 86400 + e.time * g ≤ julianOf ⟨9999, 12, 31⟩ * 86400 + 86400)
    (c : Cfg) (pol : PackPolicy) (env : Int → TsEnv) {m : TsMem} (hm : TsMemOk m) {path date : Bytes} (hp : ItsPathFor ps b path) (hb : BaseText date base)
    (quality : List UInt32) (units type zone : Bytes) (flag : Int) (s : Eng) :
    hecTsStoreIregular c pol env m path date (before ++ e1 :: e2 :: after) g quality units type zone flag s = some (s, .failed) := by
  obtain ⟨p1, p2, y, e, buf, p3, p4, p5, p6, p7, p8, p9, p10, p11, p12⟩ := itsPath_spec hn hp hm
  obtain ⟨jbOf, n0, Gr, h100, hd⟩ := block_grid b
  have hbase : (if date.length > 4 then dateToJulian date else 0) = base := by
    rcases hb with ⟨h1, h2⟩ | ⟨h1, h2⟩
    · rw [if_neg (by omega), h2]
    · rw [if_pos h1, h2]
  have hasc : timesAscend (before ++ e1 :: e2 :: after) = false := by
    clear hfirst
    induction before with
    | nil =>
      show timesAscend (e1 :: e2 :: after) = false
      unfold timesAscend
      rw [decide_eq_false (by omega)]
      rfl
    | cons a l ih =>
      cases l with
      | nil =>
        show timesAscend (a :: e1 :: e2 :: after) = false
        unfold timesAscend
        have ih : timesAscend (e1 :: e2 :: after) = false := ih
        rw [ih, Bool.and_false]
      | cons a2 l =>
        show timesAscend (a :: a2 :: (l ++ e1 :: e2 :: after)) = false
        unfold timesAscend
        have ih : timesAscend (a2 :: (l ++ e1 :: e2 :: after)) = false := ih
        rw [ih, Bool.and_false]
  cases hv : before ++ e1 :: e2 :: after with
  | nil => simp at hv
  | cons e0 l =>
    obtain ⟨hu, hf⟩ := hfirst
    obtain ⟨hf1, hf2, hf3⟩ := hf e0 (by rw [hv]; rfl)
    obtain ⟨n, n1, n2, n3⟩ := time_block Gr hg ⟨hu, hf1⟩ (by rw [h100]; exact hf2)
    have hlow : julianOf ⟨100, 1, 1⟩ ≤ jbOf n := by rw [← h100]; exact Gr.mono_le (by omega) n1
    obtain ⟨internal, i1, i2⟩ := internal_spec hn p4 p5 p11 p12 m (j := jbOf n) hlow (by omega)
    obtain ⟨f, f1, f2⟩ := normalized_spec hn p4 p6 p7 p9 hm
    unfold hecTsStoreIregular
    simp only
    rw [p1, if_neg (by omega), hbase, p10, Option.bind_some]
    simp only
    have hg1 : ¬ g < 1 := by omega
    rw [if_neg hg1]
    split
    · -- a defined time is always found; either way the file is left
      rename_i hno
      exfalso
      have hL1 : 1 ≤ dayLengthOf g := by rcases hg with h | h | h | h <;> subst h <;> decide
      have hc := cleanTime_spec (j := base) (t := e0.time) (g := g) ⟨hu, hf1⟩ hL1
      simp only at hc
      have hL : dayLengthOf g * g = 86400 := by rcases hg with h | h | h | h <;> subst h <;> decide
      have hx4 := congrArg (· * g) hc.2.2
      simp only [Int.add_mul] at hx4
      rw [Int.mul_assoc, Int.mul_assoc, hL] at hx4
      have h6 : (cleanTime base e0.time g).2 * g ≤ dayLengthOf g * g := Int.mul_le_mul_of_nonneg_right hc.2.1 (by omega)
      rw [hL] at h6
      have hund : julianOf ⟨100, 1, 1⟩ > UNDEFINED_TIME + 1 := by decide
      have a1 : (cleanTime base e0.time g).1 ≠ UNDEFINED_TIME := by omega
      have a2 : ¬ (cleanTime base e0.time g).2 < 0 := by omega
      unfold isTimeDefined at hno
      simp [a1, a2] at hno
    · rw [n2, i1, Option.bind_some, p3, f2, Option.bind_some]
      simp only
      rw [elev_spec hn helev p4 p6 p7 p9 f1 hm, Option.bind_some, if_neg (by decide), ← hv, hasc, if_pos rfl]

/-- The day from which times are counted: as before, or the block of a record that was found. -/
theorem its_base {code n0 : Int} {jbOf : Int → Int} (Gr : BlockGrid code jbOf n0) {c : Cfg} {cfg : ItsCfg} {m : Around} {env : Int → Bytes × Bytes} {endBlock : Int} {w : TimeWindow} {s : Eng} :
    ∀ (fuel : Nat) (buf : Bytes) (n max : Int) (found : Bool) (base : Int) (T : TsHead) (got : ItsGot), n0 ≤ n →
      irregRetrieveLoopF c cfg m env code endBlock w s fuel buf (jbOf n) max found base T = some (some got) →
      (found = true → got.base = base ∧ got.head = T) ∧
      (found = false → got.found = true → (got.base = base ∧ ¬ (got.head.granularity = 1 ∧ base = 0)) ∨ (jbOf n ≤ got.base ∧ got.base ≤ endBlock)) := by
  intro fuel
  induction fuel with
  | zero =>
    intro buf n max found base T got hn h
    unfold irregRetrieveLoopF at h
    split at h
    · cases h
    · injection h with h; injection h with h; subst h
      exact ⟨fun _ => ⟨rfl, rfl⟩, fun h1 h2 => by rw [h1] at h2; cases h2⟩
  | succ fuel ih =>
    intro buf n max found base T got hn h
    have hlt := Gr.lt n hn
    unfold irregRetrieveLoopF at h
    split at h
    · rename_i hle
      obtain ⟨buf2, _, h⟩ := Option.bind_eq_some_iff.mp h
      simp only at h
      obtain ⟨R, _, h⟩ := Option.bind_eq_some_iff.mp h
      rw [Gr.next n hn] at h
      have skip : ∀ got, irregRetrieveLoopF c cfg m env code endBlock w s fuel buf2 (jbOf (n + 1)) max found base T = some (some got) →
          (found = true → got.base = base ∧ got.head = T) ∧
          (found = false → got.found = true → (got.base = base ∧ ¬ (got.head.granularity = 1 ∧ base = 0)) ∨ (jbOf n ≤ got.base ∧ got.base ≤ endBlock)) := by
        intro got hh
        obtain ⟨a1, a2⟩ := ih _ _ _ _ _ _ _ (by omega) hh
        refine ⟨a1, fun h1 h2 => ?_⟩
        rcases a2 h1 h2 with k | k
        · exact Or.inl k
        · exact Or.inr ⟨by omega, k.2⟩
      split at h
      · cases h
      · rename_i R' r hr
        obtain ⟨T', hT, h⟩ := Option.bind_eq_some_iff.mp h
        obtain ⟨o, ho, h⟩ := Option.map_eq_some_iff.mp h
        cases o with
        | none => cases h
        | some x =>
          injection h with h
          subst h
          obtain ⟨a1, _⟩ := ih _ _ _ _ _ _ _ (by omega) ho
          obtain ⟨b1, b2⟩ := a1 rfl
          simp only
          refine ⟨fun hf => ?_, fun hf _ => ?_⟩
          · subst hf
            rw [b1, b2]
            unfold itsHead at hT
            simp only [if_true] at hT ⊢
            exact ⟨trivial, by simpa using hT.symm⟩
          · subst hf
            rw [b1, b2]
            simp only [Bool.false_eq_true, if_false]
            split
            · exact Or.inr ⟨by omega, by omega⟩
            · split
              · exact Or.inr ⟨by omega, by omega⟩
              · exact Or.inl ⟨rfl, by assumption⟩
      · exact skip got h
    · injection h with h; injection h with h; subst h
      exact ⟨fun _ => ⟨rfl, rfl⟩, fun h1 h2 => by rw [h1] at h2; cases h2⟩

/-- The numbers of the times are ints. -/
theorem its_int {base g t i sb eb ja jb : Int} (hg : g = 1 ∨ g = 60 ∨ g = 3600 ∨ g = 86400) (hi : base * 86400 + i * g = t)
    (h1 : ja * 86400 ≤ t) (h2 : t ≤ jb * 86400 + 86400) (hs : sb ≤ ja) (he : eb ≤ jb) (hd : jb - ja < 1000000) (hsb : ja - sb ≤ 36600)
    (hone : g = 1 → jb - sb ≤ 24800)
    (hb : (base = 0 ∧ g ≠ 1 ∧ -365000 ≤ ja ∧ jb ≤ 1168000) ∨ (sb ≤ base ∧ base ≤ eb)) : IsInt i := by
  unfold IsInt
  rcases hg with rfl | rfl | rfl | rfl <;> omega

theorem its_block_days {b : Block} {jbOf : Int → Int} {n0 : Int} (G : BlockGrid b.code jbOf n0) (h100 : jbOf n0 = julianOf ⟨100, 1, 1⟩) {n : Int} (hn : n0 ≤ n) :
    jbOf (n + 1) - jbOf n ≤ 36600 := by
  have hge := G.mono_le (m := n0) (n := n) (by omega) hn
  rw [h100] at hge
  obtain ⟨d, hv, hy, e⟩ := date_of_day hge
  have hlt := G.lt n hn
  have e1 := G.block n _ hn (Int.le_refl _) hlt
  have e2 := G.next n hn
  have e3 := C12_irreg_block_start b d hv (by omega)
  have e4 := C12_step_forward b d hv hy
  rw [e, e1] at e3
  rw [← e3, e2] at e4
  have := (block_days (b := b) hv hy).1
  omega

/-- C67, second half.  After any such history, in which the series was always stored with the same units, type and time zone, a
window is read through the public interface.  `L` are the values that the stores leave in the window, in order of time: as
many of them as the arrays have room for are given, each with its time (and its word of quality flags, if there is
one and it is asked for); units, type and time zone; the arrays behind the values are left. -/
theorem C67_retrieve_partial (gs : GoodSizes hdrSize maxHash binSize) {cfg : ItsCfg} (b : Block) {g : Int} (hcfg : ItsSettings cfg g)
    {ps : List Bytes} (hn : SeriesName ps) {past : List Op} {s : Eng} {xs : List (TsDesc × IrregStore ItsVal)}
    (h : ItsHistory (create hdrSize maxHash binSize mul).1 (create hdrSize maxHash binSize mul).2 cfg b g ps past s xs)
    {units type zone : Bytes} (hu : Ascii units) (hty : Ascii type) (hz : Ascii zone) (hdesc : ∀ x ∈ xs, x.1 = itsApiDesc g units type zone)
    {ta tb : Int × Int} (hw : julianOf ⟨100, 1, 1⟩ ≤ ta.1 ∧ ta.1 ≤ tb.1 ∧ tb.1 ≤ julianOf ⟨9999, 12, 31⟩)
    (hsec : 1 ≤ ta.2 ∧ ta.2 ≤ 86400 ∧ 1 ≤ tb.2 ∧ tb.2 ≤ 86400) (hmin : b = .century → 60 ∣ ta.2) (hdays : tb.1 - ta.1 < 1000000)
    (hdata : ∃ t v, seriesOf (xs.map Prod.snd) t = some v ∧ ta.1 * 86400 + ta.2 ≤ t ∧ t ≤ tb.1 * 86400 + tb.2)
    {m : TsMem} (hm : TsMemOk m) {env : Int → Bytes × Bytes} (he : ∀ j, (env j).2.length = 200) {old : Bytes} (ho : old.length = 393)
    {path startDate startTime endDate endTime : Bytes} (hp : ItsPathFor ps b path) (hs : TextOf startDate startTime ta) (hE : TextOf endDate endTime tb)
    (hdate : ¬ (dateToJulian startDate = 0 ∧ dateToJulian endDate = 0) ∧ ¬ (dateToJulian startDate = -1 ∧ dateToJulian endDate = -1))
    {size qualityWidth unitsSize typeSize zoneSize : Int} {buf : TsBuffers} {flags : List UInt32}
    (hsize : 0 ≤ size ∧ size ≤ buf.times.length ∧ size ≤ buf.values.length) (hus : 0 ≤ unitsSize ∧ unitsSize ≤ buf.units.length)
    (hts : 0 ≤ typeSize ∧ typeSize ≤ buf.type.length) (hzs : 0 ≤ zoneSize ∧ zoneSize ≤ buf.zone.length)
    (hq : qualityWidth ≤ 0 ∨ (cfg.qsz = 1 ∧ size ≤ flags.length)) :
    ∃ out fs, ∃ L : List (Int × ItsVal),
      hecTsRetrieveIrreg (create hdrSize maxHash binSize mul).1 cfg env m old path startDate startTime endDate endTime size qualityWidth unitsSize typeSize zoneSize buf flags s =
        some (.ok, out, fs) ∧
      L.Pairwise (fun x y => x.1 < y.1) ∧
      (∀ t v, (t, v) ∈ L ↔ (seriesOf (xs.map Prod.snd) t = some v ∧ ta.1 * 86400 + ta.2 ≤ t ∧ t ≤ tb.1 * 86400 + tb.2)) ∧
      out.number = min (L.length : Int) size ∧
      (∀ k : Nat, (k : Int) < out.number → ∃ t v q, L[k]? = some (t, (v, q)) ∧
        (∃ i, out.times[k]? = some i ∧ out.base * 86400 + i * out.gran = t ∧ (60 ≤ g ∨ (b.code < 4 ∧ tb.1 - ta.1 ≤ 24000) → IsInt i)) ∧
        out.values[k]? = some v ∧ (0 < qualityWidth → ∃ w, q = [w] ∧ fs[k]? = some w)) ∧
      (∀ k : Nat, out.number ≤ k → out.times[k]? = buf.times[k]? ∧ out.values[k]? = buf.values[k]? ∧ fs[k]? = flags[k]?) ∧
      out.units = shownOpt buf.units unitsSize.toNat (shown (some units)) ∧ out.type = shownOpt buf.type typeSize.toNat (shown (some type)) ∧
      out.zone = shownOpt buf.zone zoneSize.toNat (shown (some zone)) := by
  obtain ⟨p1, p2, y, e, buf0, p3, p4, p5, p6, p7, p8, p9, p10, p11, p12⟩ := itsPath_spec hn hp hm
  obtain ⟨jbOf, n0, Gr, h100, hd⟩ := block_grid b
  have h5 : julianOf ⟨5, 1, 1⟩ ≤ julianOf ⟨100, 1, 1⟩ := by decide +kernel
  obtain ⟨s0, a1, a2, a3, a4⟩ := apiTime_spec hs hsec.1 hsec.2.1 (by omega)
  obtain ⟨e0, b1, b2, b3, b4⟩ := apiTime_spec hE hsec.2.2.1 hsec.2.2.2 (by omega)
  obtain ⟨n1, hn1, na1, nb1⟩ := Gr.onto (j := ta.1) (by omega)
  obtain ⟨n2, hn2, na2, nb2⟩ := Gr.onto (j := tb.1) (by omega)
  have hsb := Gr.block n1 _ hn1 na1 nb1
  have heb := Gr.block n2 _ hn2 na2 nb2
  have hlow : julianOf ⟨100, 1, 1⟩ ≤ jbOf n1 := by rw [← h100]; exact Gr.mono_le (by omega) hn1
  obtain ⟨internal, i1, i2⟩ := internal_spec hn p4 p5 p11 p12 m (j := jbOf n1) hlow (by omega)
  obtain ⟨f, f1, f2⟩ := normalized_spec hn p4 p6 p7 p9 hm
  obtain ⟨got, k1, k2, k3, k4, k5⟩ := C64_retrieve_partial gs b hcfg hn.six hn.fits h ⟨ta.1, ta.2, tb.1, tb.2⟩ 0 hw hsec hmin m.loop he hm.path ho i2
    ⟨0, -1, 0, ⟨none, false⟩, ⟨none, false⟩, ⟨none, false⟩, ⟨none, false⟩, ⟨none, false⟩⟩
  simp only at k3
  have hne : got.entries ≠ [] := by
    obtain ⟨t, v, hd1, hd2⟩ := hdata
    obtain ⟨x, hx, _⟩ := (k3 t v).mpr ⟨hd1, hd2⟩
    intro e; rw [e] at hx; cases hx
  have hfound := k4 hne
  have hhead := k5 _ hdesc rfl hfound
  have hg1 : 1 ≤ g := by have := hcfg.gran; omega
  have hgr : got.head.granularity = g := by
    rw [hhead]
    unfold readHead itsApiDesc
    simp only
    rw [if_pos (by omega)]
  -- the day from which times are counted
  have hbase : (got.base = 0 ∧ g ≠ 1 ∧ -365000 ≤ ta.1 ∧ tb.1 ≤ 1168000) ∨ (jbOf n1 ≤ got.base ∧ got.base ≤ jbOf n2) := by
    have k1' := k1
    unfold ztsRetrieveIrregF at k1'
    simp only at k1'
    rw [cleanTime_normal hsec.1 hsec.2.1, cleanTime_normal hsec.2.2.1 hsec.2.2.2, ite_self, ite_self] at k1'
    simp only at k1'
    rw [hsb, heb] at k1'
    obtain ⟨q1, _, k1'⟩ := Option.bind_eq_some_iff.mp k1'
    obtain ⟨q2, _, k1'⟩ := Option.bind_eq_some_iff.mp k1'
    obtain ⟨q3, _, k1'⟩ := Option.bind_eq_some_iff.mp k1'
    have hr60 : retrieveGran 0 ta.1 tb.1 = 60 := by
      unfold retrieveGran
      rw [if_neg (by decide), if_pos hdays]
    rw [hr60] at k1'
    have hle : jbOf n1 ≤ jbOf n2 := by
      rcases Int.lt_or_le n2 n1 with hh | hh
      · exfalso
        have := Gr.mono_le (m := n2 + 1) (n := n1) (by omega) (by omega)
        omega
      · exact Gr.mono_le hn1 hh
    rcases (its_base Gr _ _ _ _ _ _ _ _ hn1 k1').2 rfl hfound with ⟨c1, c2⟩ | c
    · rw [hgr] at c2
      unfold retrieveBase at c1 c2
      split at c1
      · rename_i h0
        rw [if_pos h0] at c2
        rw [if_neg (show ¬ (60 : Int) = 1 by decide), if_pos (show (60 : Int) = 60 from rfl)] at c1 c2
        split at c1
        · exact Or.inr ⟨by omega, by omega⟩
        · rename_i h1
          rw [if_neg h1] at c2
          exact Or.inl ⟨c1, fun hh => c2 ⟨hh, rfl⟩, by omega, by omega⟩
      · rename_i h0
        have hz0 : jbOf n1 = 0 := by
          rcases Int.lt_trichotomy (jbOf n1) 0 with hh | hh | hh
          · exact absurd ⟨rfl, by omega⟩ h0
          · exact hh
          · exact absurd ⟨rfl, by omega⟩ h0
        exact Or.inr ⟨by omega, by omega⟩
    · exact Or.inr c
  have hread : itsRead (create hdrSize maxHash binSize mul).1 cfg env m old path s0 e0 s = some (.got got) := by
    unfold itsRead
    rw [if_neg (by rw [a2, b2]; omega)]
    simp only
    rw [a3, b3, a4, b4, if_neg (by simp; omega), p10, Option.bind_some]
    simp only
    rw [hsb, i1, Option.bind_some, p3, f2, Option.bind_some]
    simp only
    rw [k1, Option.map_some]
    simp only
    rw [hfound, if_pos rfl]
  obtain ⟨n, hn3⟩ : ∃ n : Nat, (n : Int) = min (got.entries.length : Int) size := ⟨(min (got.entries.length : Int) size).toNat, by omega⟩
  have hn4 : max 0 (min (got.entries.length : Int) size) = (n : Int) := by omega
  have hnl : n ≤ got.entries.length := by omega
  -- flags
  have hone : ∀ x ∈ got.entries, cfg.qsz = 1 → ∃ w, x.val.2 = [w] := by
    intro x hx h1
    have hser := ((k3 (got.at x) x.val).mp ⟨x, hx, rfl, rfl⟩).1
    obtain ⟨G, fl, I⟩ := its_history_inv gs hcfg hn.six hn.fits Gr h100 hd h
    have := (I.sizes _ _ hser).2
    rw [h1] at this
    match hv : x.val.2, this with
    | [w], _ => exact ⟨w, rfl⟩
  have hflat : cfg.qsz = 1 → (got.entries.flatMap fun e => e.val.2) = got.entries.map fun e => e.val.2.headD 0 := by
    intro h1
    have : ∀ l : List (Entry ItsVal), (∀ x ∈ l, ∃ w, x.val.2 = [w]) → (l.flatMap fun e => e.val.2) = l.map fun e => e.val.2.headD 0 := by
      intro l
      induction l with
      | nil => intro _; rfl
      | cons a l ih =>
        intro hl
        obtain ⟨w, hw⟩ := hl a (by simp)
        rw [List.flatMap_cons, List.map_cons, ih (fun x hx => hl x (by simp [hx])), hw]
        rfl
    exact this _ fun x hx => hone x hx h1
  obtain ⟨fs, hfs, hfs2⟩ : ∃ fs, (if qualityWidth > 0 ∧ 0 < (n : Int) then
      (if cfg.qsz = 0 then none else copyArray flags n (got.entries.flatMap fun e => e.val.2)) else some flags) = some fs ∧
      fs = (if 0 < qualityWidth then written flags ((got.entries.map fun e => e.val.2.headD 0).take n) else flags) := by
    by_cases hqw : 0 < qualityWidth
    · rcases hq with hq | ⟨q1, q2⟩
      · omega
      · rw [if_pos hqw]
        by_cases hn0 : 0 < (n : Int)
        · rw [if_pos ⟨hqw, hn0⟩, if_neg (by omega), hflat q1, copyArray_first _ _ (by rw [List.length_map]; omega) (by omega)]
          exact ⟨_, rfl, rfl⟩
        · rw [if_neg (by omega)]
          have : n = 0 := by omega
          subst this
          exact ⟨_, rfl, by simp [written]⟩
    · rw [if_neg (by omega), if_neg hqw]
      exact ⟨_, rfl, rfl⟩
  have hlT : (got.entries.map fun e => e.time).length = got.entries.length := List.length_map _
  have hlV : (got.entries.map fun e => e.val.1).length = got.entries.length := List.length_map _
  refine ⟨⟨written buf.times ((got.entries.map fun e => e.time).take n), written buf.values ((got.entries.map fun e => e.val.1).take n), n, got.base, g,
    shownOpt buf.units unitsSize.toNat (shown (some units)), shownOpt buf.type typeSize.toNat (shown (some type)), shownOpt buf.zone zoneSize.toNat (shown (some zone))⟩, fs,
    got.entries.map (fun e => (got.at e, e.val)), ?_, ?_, ?_, ?_, ?_, ?_, rfl, rfl, rfl⟩
  · unfold hecTsRetrieveIrreg
    rw [a1, Option.bind_some, b1, Option.bind_some]
    simp only
    rw [p1, hread, Option.bind_some]
    simp only
    have hu' : got.head.units = setField ⟨none, false⟩ (some (mallocAndCopy units)) := by rw [hhead]; rfl
    have ht' : got.head.type = setField ⟨none, false⟩ (some (mallocAndCopy type)) := by rw [hhead]; rfl
    have hz' : got.head.zone = setField ⟨none, false⟩ (some (mallocAndCopy zone)) := by rw [hhead]; rfl
    rw [hu', put_shown _ hu hus.1 hus.2, Option.bind_some, ht', put_shown _ hty hts.1 hts.2, Option.bind_some, hz', put_shown _ hz hzs.1 hzs.2, Option.bind_some, hn4, hfs, Option.bind_some]
    rw [copyArray_first _ _ (by rw [hlT]; omega) (by omega), Option.bind_some, copyArray_first _ _ (by rw [hlV]; omega) (by omega), Option.map_some, hgr]
  · refine List.pairwise_map.mpr (List.Pairwise.imp ?_ k2)
    intro x y hxy
    unfold ItsGot.at
    rw [hgr]
    have := Int.mul_lt_mul_of_pos_right hxy (show 0 < g by omega)
    simp only
    omega
  · intro t v
    rw [← k3]
    simp only [List.mem_map, Prod.mk.injEq]
  · rw [List.length_map]
    exact hn3
  · intro k hk
    have hk : k < n := by simpa using hk
    have hke : k < got.entries.length := by omega
    have hgetk : got.entries[k]? = some got.entries[k] := List.getElem?_eq_getElem hke
    have hmemk : got.entries[k] ∈ got.entries := List.getElem_mem hke
    have hin := ((k3 _ _).mp ⟨_, hmemk, rfl, rfl⟩).2
    refine ⟨got.at got.entries[k], got.entries[k].val.1, got.entries[k].val.2, ?_, ⟨got.entries[k].time, ?_, ?_, ?_⟩, ?_, ?_⟩
    · rw [List.getElem?_map, hgetk]; rfl
    · unfold written
      simp only
      rw [List.getElem?_append_left (by rw [List.length_take, hlT]; omega), List.getElem?_take, if_pos hk, List.getElem?_map, hgetk]
      rfl
    · unfold ItsGot.at; rw [hgr]
    · intro hor
      have hbd := its_block_days Gr h100 hn1
      refine its_int (base := got.base) (sb := jbOf n1) (eb := jbOf n2) (ja := ta.1) (jb := tb.1) (t := got.at got.entries[k]) hcfg.gran (by unfold ItsGot.at; rw [hgr]) (by omega) (by omega) na1 na2 hdays (by omega) ?_ hbase
      intro hg
      rcases hor with hh | ⟨hh1, hh2⟩
      · omega
      · have := hd n1 hn1 hh1
        omega
    · unfold written
      simp only
      rw [List.getElem?_append_left (by rw [List.length_take, hlV]; omega), List.getElem?_take, if_pos hk, List.getElem?_map, hgetk]
      rfl
    · intro hqw
      rcases hq with hq | ⟨q1, q2⟩
      · omega
      · obtain ⟨w, hw⟩ := hone _ hmemk q1
        refine ⟨w, hw, ?_⟩
        rw [hfs2, if_pos hqw]
        unfold written
        rw [List.getElem?_append_left (by rw [List.length_take, List.length_map]; omega), List.getElem?_take, if_pos hk, List.getElem?_map, hgetk, Option.map_some, hw]
        rfl
  · intro k hk
    have hk : n ≤ k := by simpa using hk
    have hwr : ∀ {α : Type} (dst src : List α), src.length = got.entries.length → (written dst (src.take n))[k]? = dst[k]? := by
      intro α dst src hl
      have l1 : (src.take n).length = n := by rw [List.length_take]; omega
      unfold written
      rw [List.getElem?_append_right (by omega), l1, List.getElem?_drop, show n + (k - n) = k by omega]
    refine ⟨hwr _ _ hlT, hwr _ _ hlV, ?_⟩
    rw [hfs2]
    split
    · exact hwr _ _ (List.length_map _)
    · rfl

end Hec
