import Verif.Props.TsRange
import Verif.Props.Intervals
import Verif.Props.ItsFile
/-!
C70: hec_dss_recordType and hec_dss_dataType.
-/
namespace Hec
set_option linter.unusedSimpArgs false
set_option linter.unusedVariables false
open _root_.Spec (Date Block Period RegInterval RegStore regSeries IrregStore seriesOf DayOf IsBlockName blockLength Op GoodSizes create join SixParts IsPart OldMinute compatible Reachable lastWritten runs Holds Plain)
open Hec.Spec (sameUpToCase)

variable {hdrSize maxHash binSize : Nat} {mul : Nat → Nat}

/-- A pathname of six parts is not the bytes of an address. -/
theorem not_address {ps : List Bytes} (h : SixParts ps) {words : Nat → Nat} (hw : words 0 < 2 ^ 48) :
    ¬ zstringCompare (join ps) (unpackBytes words (join ps).length) (join ps).length = true := by
  have hlen : 7 ≤ (join ps).length := by
    obtain ⟨a, b, c, d, e, f, rfl⟩ := six_list h
    rw [join_six]; omega
  intro hc
  have hul : (unpackBytes words (join ps).length).length = (join ps).length := by unfold unpackBytes; simp
  rw [zstringCompare_iff _ _ _ (by omega) (by omega)] at hc
  have h6 := congrArg (fun l : Bytes => l[6]?) hc
  rw [List.getElem?_take_of_lt (by omega), List.getElem?_take_of_lt (by omega)] at h6
  unfold upper at h6
  rw [List.getElem?_map, List.getElem?_map, List.getElem?_eq_getElem (by omega), List.getElem?_eq_getElem (by omega)] at h6
  simp only [Option.map_some, Option.some.injEq] at h6
  have hb : (unpackBytes words (join ps).length)[6]'(by omega) = 0 := by
    unfold unpackBytes
    rw [List.getElem_map, List.getElem_range]
    show UInt8.ofNat (words 0 / 256 ^ 6 % 256) = 0
    rw [show words 0 / 256 ^ 6 = 0 from Nat.div_eq_of_lt hw]
    rfl
  rw [hb] at h6
  have hn := join_nonzero ps h.2 _ (List.getElem_mem (show 6 < (join ps).length by omega))
  have key : ∀ c : UInt8, toupper c = toupper 0 → c = 0 := fun c => by
    have := forallByte (fun c => decide (toupper c = toupper 0 → c = 0)) (by decide +kernel) c
    exact of_decide_eq_true this
  exact hn (key _ h6)

theorem record_type {c : Cfg} (hc : c.OK) {G : Ghost} {s : Eng} (I : Inv c G s) {ps : List Bytes} (hps : SixParts ps) (hl : (join ps).length ≤ 392)
    (hold : ∀ e, ps[4]? = some e → ¬ OldMinute e) {words : Nat → Nat} (hw : words 0 < 2 ^ 48) :
    ∃ rec, zread c s (join ps) = some rec ∧ hecRecordType c s words (join ps) = some (.type (rec.elim (-1) fun R => toInt32 R.dataType.toNat)) := by
  have hno := not_old hps hold
  refine ⟨_, zread_abs hc I hl, ?_⟩
  unfold hecRecordType
  rw [if_neg (not_address hps hw), zreadInfoName_plain hno]
  cases hr : (abs c G s.disk).live (join ps) with
  | none =>
    obtain ⟨k, k1, k2⟩ := not_found hc I hl (by rw [zread_abs hc I hl, hr])
    have : zreadInfo c s (join ps) REC_STATUS_VALID = some (k, none) := by
      unfold zreadInfo
      rw [k1, Option.map_some, if_neg (by rw [k2]; decide)]
    rw [this]; rfl
  | some R =>
    obtain ⟨k, info, k1, k2, k3, k4, _⟩ := found_info hc I hl (R := R) (by rw [zread_abs hc I hl, hr])
    rw [k3]
    simp only [Option.map_some, Option.elim_some]
    have : R.dataType = lowInt (info kinfoTypeVersion) := by rw [← k4]; rfl
    rw [this, low_i32 (info kinfoTypeVersion)]
    rfl

/-- C70.  hec_dss_recordType gives the type of the record the pathname names, as it was written last, and -1 if there is
none, after any history of writes, deletes, undeletes and renames.  The condition on `words` says that the address of the
entry found last is less than 2^48. -/
theorem C70_record_type (g : GoodSizes hdrSize maxHash binSize) {past : List Op} {s : Eng}
    (R : Reachable (create hdrSize maxHash binSize mul).1 (create hdrSize maxHash binSize mul).2 past s) {ps : List Bytes} (hps : SixParts ps) (hl : (join ps).length ≤ 392)
    (hold : ∀ e, ps[4]? = some e → ¬ OldMinute e) {words : Nat → Nat} (hw : words 0 < 2 ^ 48) :
    ∃ rec, zread (create hdrSize maxHash binSize mul).1 s (join ps) = some rec ∧
      hecRecordType (create hdrSize maxHash binSize mul).1 s words (join ps) = some (.type (rec.elim (-1) fun R => toInt32 R.dataType.toNat)) := by
  obtain ⟨G, H⟩ := reach g R
  exact record_type (create_OK g) H.inv hps hl hold hw

/-- C70 for writes and deletes: the type of the last write of the pathname. -/
theorem C70_last_type (g : GoodSizes hdrSize maxHash binSize) (ops : List Op) (hp : Plain [] ops) {ps : List Bytes} (hps : SixParts ps) (hl : (join ps).length ≤ 392)
    (hold : ∀ e, ps[4]? = some e → ¬ OldMinute e) {words : Nat → Nat} (hw : words 0 < 2 ^ 48) :
    ∃ s ress, runs (create hdrSize maxHash binSize mul).1 (create hdrSize maxHash binSize mul).2 ops = some (s, ress) ∧
      hecRecordType (create hdrSize maxHash binSize mul).1 s words (join ps) = some (.type ((lastWritten (join ps) ops).elim (-1) fun R => toInt32 R.dataType.toNat)) := by
  obtain ⟨s, ress, h1, h2⟩ := C27_last_write_partial (mul := mul) g ops hp
  refine ⟨s, ress, h1, ?_⟩
  obtain ⟨rec, k1, k2⟩ := C70_record_type g (mul := mul) ⟨plain_allowed (create_OK g) ops hp, ress, h1⟩ hps hl hold hw
  rw [h2 _ hl] at k1
  injection k1 with k1
  rw [k1]; exact k2

/-- The E part, as the library reads it. -/
theorem interval_part {ps : List Bytes} (hps : SixParts ps) {e : Bytes} (he : ps[4]? = some e) (h128 : e.length ≤ 128) {buf : Bytes} (hb : 129 ≤ buf.length) (junk : Int) :
    ztsGetInterval (join ps) buf junk = some (if 3 < e.length then ((ePartToSeconds 7 e).elim 0 fun x => x.2.1) else 0) := by
  obtain ⟨b', k1, k2⟩ := getPart_spec ps hps.1 hps.2 4 (by decide) buf hb junk
  have e4 : ps[4]'(by have := hps.1; omega) = e := by
    rw [List.getElem?_eq_getElem (by have := hps.1; omega)] at he
    injection he
  rw [e4, Nat.min_eq_left h128] at k1
  rw [e4, List.take_of_length_le h128] at k2
  have hz : ∀ c ∈ e, c ≠ 0 := by
    have hp := hps.2 e (by rw [← e4]; exact List.getElem_mem _)
    exact fun c hc => (hp c hc).2
  unfold ztsGetInterval
  have k1' : zpathnameGetPart (join ps) 5 buf junk = some (b', ((e.length : Nat) : Int)) := k1
  rw [k1', Option.map_some, cstr_holds k2 hz]
  by_cases h : 3 < e.length
  · rw [if_pos h, if_pos (by omega)]
    cases ePartToSeconds 7 e <;> rfl
  · rw [if_neg h, if_neg (by omega)]

/-- C70.  hec_dss_dataType of a record that is there gives its type, or for time series possibly the one of the other
precision (C70_stale_type_violation). -/
theorem C70_data_type_partial (g : GoodSizes hdrSize maxHash binSize) {past : List Op} {s : Eng}
    (R : Reachable (create hdrSize maxHash binSize mul).1 (create hdrSize maxHash binSize mul).2 past s) {ps : List Bytes} (hps : SixParts ps) (hl : (join ps).length ≤ 392)
    (hold : ∀ e, ps[4]? = some e → ¬ OldMinute e) (buf : Bytes) (junk : Int) {rec : Rec}
    (hz : zread (create hdrSize maxHash binSize mul).1 s (join ps) = some (some rec)) :
    ∃ t : UInt32, hecDataType (create hdrSize maxHash binSize mul).1 s (join ps) buf junk = some (toInt32 t.toNat) ∧ compatible t rec.dataType := by
  obtain ⟨G, H⟩ := reach g R
  obtain ⟨k, info, k1, k2, _, _, k5⟩ := found_info (create_OK g) H.inv hl hz
  refine ⟨_, ?_, k5⟩
  unfold hecDataType
  rw [zcheckName_plain (not_old hps hold), k1]
  simp only [Option.map_some, Option.bind_some, if_pos k2]
  rw [low_i32]

/-- C70.  hec_dss_dataType of a pathname that names no record: 100 if the E part starts with the name of a regular
interval, 110 if it starts with that of an irregular one, or is `~` and an interval, 0 if it is too short, or does not
agree with any name as far as both go. -/
theorem C70_unknown_type (g : GoodSizes hdrSize maxHash binSize) {past : List Op} {s : Eng}
    (R : Reachable (create hdrSize maxHash binSize mul).1 (create hdrSize maxHash binSize mul).2 past s) {ps : List Bytes} (hps : SixParts ps) (hl : (join ps).length ≤ 392)
    {e : Bytes} (he : ps[4]? = some e) (h128 : e.length ≤ 128) (hold : ¬ OldMinute e) {buf : Bytes} (hb : 129 ≤ buf.length) (junk : Int)
    (hz : zread (create hdrSize maxHash binSize mul).1 s (join ps) = some none) :
    ∃ t, hecDataType (create hdrSize maxHash binSize mul).1 s (join ps) buf junk = some t ∧
      (∀ x ∈ intervals7, ∀ name rest, e = name ++ rest → 3 < e.length → upper name = upper x.1 → t = if x.2 > 0 then 100 else 110) ∧
      (∀ x ∈ intervals7, ∀ name, e = 126 :: name → upper name = upper x.1 → t = 110) ∧
      (e.length ≤ 3 → t = 0) ∧ (e.head? ≠ some 126 → (∀ x ∈ intervals7, ¬ Agree e x.1) → t = 0) := by
  obtain ⟨G, H⟩ := reach g R
  obtain ⟨k, k1, k2⟩ := not_found (create_OK g) H.inv hl hz
  have hno : ztsPathCompatible (join ps) = none := not_old hps fun e' h' => by rw [he] at h'; injection h' with h'; rw [← h']; exact hold
  have htab : intervalTable 7 = intervals7 := rfl
  have hz' : ∀ x ∈ intervals7, x.2 ≠ 0 ∧ 3 ≤ x.1.length := by decide +kernel
  have hq : hecDataType (create hdrSize maxHash binSize mul).1 s (join ps) buf junk =
      some ((fun i : Int => if i > 0 then (100 : Int) else if i < 0 then 110 else 0) (if 3 < e.length then ((ePartToSeconds 7 e).elim 0 fun x => x.2.1) else 0)) := by
    unfold hecDataType
    rw [zcheckName_plain hno, k1]
    simp only [Option.map_some, Option.bind_some]
    rw [if_neg (by rw [k2]; decide), interval_part hps he h128 hb junk]
    rfl
  refine ⟨_, hq, ?_⟩
  simp only
  refine ⟨?_, ?_, ?_, ?_⟩
  · intro x hx name rest hn h3 hu
    have := C14_full_name 7 x hx name rest hu
    have h0 := (hz' x hx).1
    have hi : (if 3 < e.length then ((ePartToSeconds 7 e).elim 0 fun x => x.2.1) else 0) = x.2 := by
      rw [if_pos h3, hn, this]; rfl
    rw [hi]
    by_cases hp : x.2 > 0
    · rw [if_pos hp, if_pos hp]
    · rw [if_neg hp, if_neg hp]
      exact if_pos (by omega)
  · intro x hx name hn hu
    obtain ⟨b, hb1, hb2, _⟩ := (C14_pseudo 7 x x hx).1
    have hi := C14_ignores_case 7 (126 :: name) (126 :: x.1) (by unfold upper at hu ⊢; simp only [List.map_cons]; rw [hu])
    have hlen : name.length = x.1.length := by
      have := congrArg List.length hu
      simpa [upper] using this
    have := (hz' x hx).2
    have hj : (if 3 < e.length then ((ePartToSeconds 7 e).elim 0 fun x => x.2.1) else 0) = -b := by
      rw [if_pos (by rw [hn, List.length_cons]; omega), hn, hi, hb1]; rfl
    rw [hj, if_neg (by omega), if_pos (by omega)]
  · intro h3
    have hj : (if 3 < e.length then ((ePartToSeconds 7 e).elim 0 fun x => x.2.1) else 0) = 0 := if_neg (by omega)
    rw [hj]
    decide
  · intro h0 hag
    have hj : (if 3 < e.length then ((ePartToSeconds 7 e).elim 0 fun x => x.2.1) else 0) = 0 := by
      rw [(C14_lookup 7 e h0).2.mpr hag]
      split <;> rfl
    rw [hj]
    decide

/-- C70.  The type of a block of a regular series that has a value: 100 for floats, 105 for doubles. -/
theorem C70_regular_type (g : GoodSizes hdrSize maxHash binSize) {cfg : RegCfg UInt32} {q : Nat} (hcfg : SeriesCfg cfg q) {r : RegInterval} (hr : r.Ok)
    {ps : List Bytes} (hps : SixParts ps) (hl : blockLength ps ≤ 392) (hold : ∀ e, ps[4]? = some e → ¬ OldMinute e) {past : List Op} {s : Eng} {xs : List (TsDesc × RegStore (List UInt32))}
    (h : SeriesHistory (create hdrSize maxHash binSize mul).1 (create hdrSize maxHash binSize mul).2 cfg r q ps past s xs)
    {a : Int} (ha : InRange r a) (hv : cfg.isMissing (regSeries cfg.isMissing cfg.missing (xs.map Prod.snd) a) = false)
    {d : Date} (hd : DayOf julianOf r a d) (hlast : julianOf (r.block.start d) ≤ julianOf ⟨9999, 12, 31⟩) {p : Bytes} (hp : IsBlockName ps (julianOf (r.block.start d)) p)
    {words : Nat → Nat} (hw : words 0 < 2 ^ 48) :
    hecRecordType (create hdrSize maxHash binSize mul).1 s words p = some (.type (if cfg.vsz = 1 then 100 else 105)) := by
  obtain ⟨code, jbOf, edge, n0, Gr, hrange, hdate, hnib⟩ := grid_of r hr
  obtain ⟨G, f, I⟩ := history_inv g hcfg hps hl Gr hrange hdate hnib h
  obtain ⟨n, n1, n2, n3⟩ := Gr.find (hrange a ha)
  rw [block_of hr Gr n1 n2 n3 hd] at hp hlast
  obtain ⟨t, ht, rfl⟩ := hp
  have hjl := low_of hdate n n1
  rw [(dayName_spec hjl hlast).1] at ht
  injection ht with ht
  subst ht
  obtain ⟨b1, b2, b3, b4⟩ := blk_facts (name_ok hps hl) hjl hlast
  obtain ⟨rec, k1, k2⟩ := record_type (create_OK g) I.inv.inv b4 b2 (fun e he => hold e (by rwa [List.getElem?_set_ne (by decide)] at he)) hw
  rw [k2]
  have hsim := I.sim n n1 hlast
  have hholds := I.holds n n1
  cases hf : f (jbOf n) with
  | none =>
    exfalso
    rw [hf] at hholds
    have h2 := hholds.2 (a - edge n - 1).toNat (by unfold nibOf; omega)
    rw [view_readValue (view_none hcfg.ok (nibOf edge n) q), show edge n + 1 + ((a - edge n - 1).toNat : Int) = a by omega] at h2
    have := sameVal_missing h2
    rw [hv, hcfg.ok.miss] at this
    cases this
  | some rc =>
    rw [hf] at hsim
    obtain ⟨R, _, hz, hty, _⟩ := hsim
    have hz' : some rec = some (some R) := k1.symm.trans hz
    injection hz' with hz'
    subst hz'
    simp only [Option.elim_some, hty]
    unfold tsType
    split <;> rfl

/-- C70.  The type of a block of an irregular series that has a value: 110 for floats, 115 for doubles. -/
theorem C70_irregular_type (gs : GoodSizes hdrSize maxHash binSize) {cfg : ItsCfg} (b : Block) {g : Int} (hcfg : ItsSettings cfg g)
    {ps : List Bytes} (hps : SixParts ps) (hl : blockLength ps ≤ 392) (hold : ∀ e, ps[4]? = some e → ¬ OldMinute e) {past : List Op} {s : Eng} {xs : List (TsDesc × IrregStore ItsVal)}
    (h : ItsHistory (create hdrSize maxHash binSize mul).1 (create hdrSize maxHash binSize mul).2 cfg b g ps past s xs)
    {d : Date} (hv : d.Valid) (hy : 100 ≤ d.year) {t : Int} (h1 : julianOf d * 86400 < t) (h2 : t ≤ julianOf d * 86400 + 86400) {v : ItsVal}
    (ht : seriesOf (xs.map Prod.snd) t = some v) (hlast : julianOf (b.start d) ≤ julianOf ⟨9999, 12, 31⟩) {p : Bytes} (hp : IsBlockName ps (julianOf (b.start d)) p)
    {words : Nat → Nat} (hw : words 0 < 2 ^ 48) :
    hecRecordType (create hdrSize maxHash binSize mul).1 s words p = some (.type (if cfg.vsz = 1 then 110 else 115)) := by
  obtain ⟨jbOf, n0, Gr, h100, hd⟩ := block_grid b
  have hlow : ∀ n, n0 ≤ n → julianOf ⟨100, 1, 1⟩ ≤ jbOf n := fun n hn => by rw [← h100]; exact Gr.mono_le (by omega) hn
  obtain ⟨G, f, I⟩ := its_history_inv gs hcfg hps hl Gr h100 hd h
  have hday : julianOf ⟨100, 1, 1⟩ ≤ julianOf d := by
    refine julian_le (jan1_valid 100) hv (by decide) (by omega) ?_
    unfold Date.Valid at hv
    unfold Date.before
    simp only
    omega
  obtain ⟨n, n1, n2, n3⟩ := Gr.onto (j := julianOf d) (by rw [h100]; exact hday)
  have hj : julianOf (b.start d) = jbOf n := by
    rw [← C12_irreg_block_start b d hv (by omega)]
    exact Gr.block n _ n1 n2 n3
  rw [hj] at hp hlast
  obtain ⟨x, hx, rfl⟩ := hp
  rw [(dayName_spec (hlow n n1) hlast).1] at hx
  injection hx with hx
  subst hx
  obtain ⟨b1, b2, b3, b4⟩ := blk_facts (name_ok hps hl) (hlow n n1) hlast
  obtain ⟨rec, k1, k2⟩ := record_type (create_OK gs) I.inv.inv b4 b2 (fun e he => hold e (by rwa [List.getElem?_set_ne (by decide)] at he)) hw
  rw [k2]
  have hsim := I.sim n n1 hlast
  have hholds := I.holds n n1
  cases hf : f (jbOf n) with
  | none =>
    exfalso
    rw [hf] at hholds
    have := hholds t (by omega) (by omega)
    rw [ht] at this
    cases this
  | some rc =>
    rw [hf] at hsim
    obtain ⟨R, _, hz, hty, _⟩ := hsim
    have hz' : some rec = some (some R) := k1.symm.trans hz
    injection hz' with hz'
    subst hz'
    simp only [Option.elim_some, hty]
    unfold itsType
    split <;> rfl

end Hec
