import Verif.Model.TsInfo
import Verif.Props.TsSizes
import Verif.Props.RecordType
/-! C75: units and type of a block of a series. -/
namespace Hec
set_option linter.unusedSimpArgs false
set_option linter.unusedVariables false
open _root_.Spec (Date Block RegInterval RegStore regSeries SameValue Op GoodSizes create join SixParts IsPart IsInt blockLength NamesSeries Holds SeriesName SameBlock IrregStore seriesOf Printable DayOf IsBlockName OldMinute
  apiDesc itsApiDesc readHead Ascii shown shownOpt setField)

theorem zreadName_plain {c : Cfg} {s : Eng} {p : Bytes} (h : ztsPathCompatible p = none) : zreadName c s p = zread c s p := by
  unfold zreadName zread
  rw [zreadInfoName_plain h]
  cases zreadInfo c s p REC_STATUS_VALID <;> rfl

/-- The name of a block is copied as it is, and is no old name of an interval. -/
theorem block_name {ps : List Bytes} (hps : SixParts ps) (hl : blockLength ps ≤ 392) (hold : ∀ e, ps[4]? = some e → ¬ OldMinute e) {j : Int} (h1 : julianOf ⟨100, 1, 1⟩ ≤ j) (h2 : j ≤ julianOf ⟨9999, 12, 31⟩)
    {p : Bytes} (hp : IsBlockName ps j p) : p = blk ps j ∧ mallocAndCopyPath p = p ∧ ztsPathCompatible p = none := by
  obtain ⟨t, ht, rfl⟩ := hp
  obtain ⟨d1, d2, d3, d4⟩ := dayName_spec h1 h2
  rw [d1] at ht
  injection ht with ht
  subst ht
  obtain ⟨b1, b2, b3, b4⟩ := blk_facts (name_ok hps hl) h1 h2
  refine ⟨rfl, malloc_join b4, not_old b4 fun e he => hold e ?_⟩
  rw [List.getElem?_set_ne (by decide)] at he
  exact he

/-- What is read from a header as it was written. -/
theorem info_read {c : Cfg} {s : Eng} {p : Bytes} (hm : mallocAndCopyPath p = p) (ho : ztsPathCompatible p = none) {R : Rec} (hz : zread c s p = some (some R)) (hlen : 17 ≤ R.ih.length ∧ R.ih.length ≤ 200)
    {d : TsDesc} (hun : ∀ behind ca : Bytes, ca.length = 200 → ∀ T : TsHead, ztsInternalHeaderUnpack T (intsToBytes (R.ih.take 200) ++ behind) (min R.ih.length 200) ca = some (readHead d T))
    {units type : Bytes} (hu : Ascii units) (hty : Ascii type) (hd : d.strings.units = some (mallocAndCopy units) ∧ d.strings.type = some (mallocAndCopy type))
    {carray : Bytes} (hca : carray.length = 200) {unitsBuf typeBuf : Bytes} {unitsSize typeSize : Int}
    (hus : 0 ≤ unitsSize ∧ unitsSize ≤ unitsBuf.length) (hts : 0 ≤ typeSize ∧ typeSize ≤ typeBuf.length) :
    hecTsRetrieveInfo c carray p unitsBuf unitsSize typeBuf typeSize s =
      some (.ok, shownOpt unitsBuf unitsSize.toNat (shown (some units)), shownOpt typeBuf typeSize.toNat (shown (some type))) := by
  have h := hun [] carray hca ⟨0, -1, 0, ⟨none, false⟩, ⟨none, false⟩, ⟨none, false⟩, ⟨none, false⟩, ⟨none, false⟩⟩
  rw [List.take_of_length_le hlen.2, List.append_nil, Nat.min_eq_left hlen.2] at h
  unfold hecTsRetrieveInfo
  rw [hm, zreadName_plain ho, hz, Option.bind_some]
  simp only
  rw [if_neg (by omega), if_neg (by omega), h, Option.bind_some]
  unfold readHead
  simp only
  rw [hd.1, hd.2, put_shown _ hu hus.1 hus.2, Option.bind_some, put_shown _ hty hts.1 hts.2]
  rfl

/-- C75, for a regular series whose stores all had the same description, and the pathname of one of its blocks: units and type are those of the
stores; if there is no record, the caller's memory is not changed and the block has no values. -/
theorem C75_regular_partial {hdrSize maxHash binSize : Nat} {mul : Nat → Nat} (g : GoodSizes hdrSize maxHash binSize) {cfg : RegCfg UInt32} {q : Nat} (hcfg : SeriesCfg cfg q) {r : RegInterval} (hr : r.Ok)
    {ps : List Bytes} (hps : SixParts ps) (hl : blockLength ps ≤ 392) (hold : ∀ e, ps[4]? = some e → ¬ OldMinute e) {past : List Op} {s : Eng} {xs : List (TsDesc × RegStore (List UInt32))}
    (h : SeriesHistory (create hdrSize maxHash binSize mul).1 (create hdrSize maxHash binSize mul).2 cfg r q ps past s xs)
    {units type zone : Bytes} (hu : Ascii units) (hty : Ascii type) (hdesc : ∀ x ∈ xs, x.1 = apiDesc r.secs units type zone)
    {a0 : Int} (ha : InRange r a0) {d0 : Date} (hd : DayOf julianOf r a0 d0) (hlast : julianOf (r.block.start d0) ≤ julianOf ⟨9999, 12, 31⟩)
    {p : Bytes} (hp : IsBlockName ps (julianOf (r.block.start d0)) p)
    {carray : Bytes} (hca : carray.length = 200) {unitsBuf typeBuf : Bytes} {unitsSize typeSize : Int}
    (hus : 0 ≤ unitsSize ∧ unitsSize ≤ unitsBuf.length) (hts : 0 ≤ typeSize ∧ typeSize ≤ typeBuf.length) :
    (hecTsRetrieveInfo (create hdrSize maxHash binSize mul).1 carray p unitsBuf unitsSize typeBuf typeSize s = some (.notFound, unitsBuf, typeBuf) ∧
      ∀ x, InRange r x → SameBlock julianOf r a0 x → cfg.isMissing (regSeries cfg.isMissing cfg.missing (xs.map Prod.snd) x) = true) ∨
    hecTsRetrieveInfo (create hdrSize maxHash binSize mul).1 carray p unitsBuf unitsSize typeBuf typeSize s =
      some (.ok, shownOpt unitsBuf unitsSize.toNat (shown (some units)), shownOpt typeBuf typeSize.toNat (shown (some type))) := by
  obtain ⟨code, jbOf, edge, n0, Gr, hrange, hdates, hnib⟩ := grid_of r hr
  obtain ⟨G, f, I⟩ := history_inv g hcfg hps hl Gr hrange hdates hnib h
  have hlow := low_of hdates
  obtain ⟨n, n1, n2, n3⟩ := Gr.find (hrange a0 ha)
  rw [block_of hr Gr n1 n2 n3 hd] at hp hlast
  obtain ⟨e, em, eo⟩ := block_name hps hl hold (hlow n n1) hlast hp
  subst e
  have hsim := I.sim n n1 hlast
  have hholds := I.holds n n1
  cases ho : f (jbOf n) with
  | none =>
    left
    rw [ho] at hsim hholds
    have hz : zread (create hdrSize maxHash binSize mul).1 s (blk ps (jbOf n)) = some none := hsim
    refine ⟨by unfold hecTsRetrieveInfo; rw [em, zreadName_plain eo, hz]; rfl, fun x hxr hsb => ?_⟩
    obtain ⟨x1, x2⟩ := (same_block hr Gr hlow n1 n2 n3 (hrange x hxr)).mp hsb
    have := hholds.2 (x - edge n - 1).toNat (by unfold nibOf; omega)
    rw [show edge n + 1 + ((x - edge n - 1).toNat : Int) = x by omega] at this
    rw [← sameValue_missing this, view_readValue (view_none hcfg.ok (nibOf edge n) q)]
    exact hcfg.ok.miss
  | some rc =>
    right
    rw [ho] at hsim
    obtain ⟨R, d, hz, _, _, hP, hlen, hun⟩ := hsim
    obtain ⟨x, hx, rfl⟩ := List.mem_map.mp hP
    refine info_read em eo hz hlen hun hu hty ?_ hca hus hts
    rw [hdesc x hx]
    exact ⟨rfl, rfl⟩

/-- C75, for an irregular series; here there is a record exactly if the block has a value. -/
theorem C75_irregular_partial {hdrSize maxHash binSize : Nat} {mul : Nat → Nat} (gs : GoodSizes hdrSize maxHash binSize) {cfg : ItsCfg} (b : Block) {g : Int} (hcfg : ItsSettings cfg g)
    {ps : List Bytes} (hps : SixParts ps) (hl : blockLength ps ≤ 392) (hold : ∀ e, ps[4]? = some e → ¬ OldMinute e) {past : List Op} {s : Eng} {xs : List (TsDesc × IrregStore ItsVal)}
    (h : ItsHistory (create hdrSize maxHash binSize mul).1 (create hdrSize maxHash binSize mul).2 cfg b g ps past s xs)
    {units type zone : Bytes} (hu : Ascii units) (hty : Ascii type) (hdesc : ∀ x ∈ xs, x.1 = itsApiDesc g units type zone)
    {d0 : Date} (hv : d0.Valid) (hy : 100 ≤ d0.year) (hlast : julianOf (b.start d0) ≤ julianOf ⟨9999, 12, 31⟩)
    {p : Bytes} (hp : IsBlockName ps (julianOf (b.start d0)) p)
    {carray : Bytes} (hca : carray.length = 200) {unitsBuf typeBuf : Bytes} {unitsSize typeSize : Int}
    (hus : 0 ≤ unitsSize ∧ unitsSize ≤ unitsBuf.length) (hts : 0 ≤ typeSize ∧ typeSize ≤ typeBuf.length) :
    ((∀ t, julianOf (b.start d0) * 86400 < t → t ≤ julianOf (b.next d0) * 86400 → seriesOf (xs.map Prod.snd) t = none) →
      hecTsRetrieveInfo (create hdrSize maxHash binSize mul).1 carray p unitsBuf unitsSize typeBuf typeSize s = some (.notFound, unitsBuf, typeBuf)) ∧
    ((∃ t v, julianOf (b.start d0) * 86400 < t ∧ t ≤ julianOf (b.next d0) * 86400 ∧ seriesOf (xs.map Prod.snd) t = some v) →
      hecTsRetrieveInfo (create hdrSize maxHash binSize mul).1 carray p unitsBuf unitsSize typeBuf typeSize s =
        some (.ok, shownOpt unitsBuf unitsSize.toNat (shown (some units)), shownOpt typeBuf typeSize.toNat (shown (some type)))) := by
  obtain ⟨jbOf, n0, Gr, h100, hd⟩ := block_grid b
  have hlow : ∀ n, n0 ≤ n → julianOf ⟨100, 1, 1⟩ ≤ jbOf n := fun n hn => by rw [← h100]; exact Gr.mono_le (by omega) hn
  obtain ⟨G, f, I⟩ := its_history_inv gs hcfg hps hl Gr h100 hd h
  have hd100 : julianOf ⟨100, 1, 1⟩ ≤ julianOf d0 := by
    refine julian_le (jan1_valid 100) hv (by decide) (by omega) ?_
    have hv2 := hv
    unfold Date.Valid at hv2
    unfold Date.before
    simp only
    omega
  obtain ⟨n, n1, n2, n3⟩ := Gr.onto (j := julianOf d0) (by omega)
  obtain ⟨e1, e2⟩ := block_dates Gr h100 n1 hv hy n2 n3
  rw [← e1] at hp hlast
  rw [← e1, ← e2]
  obtain ⟨e, em, eo⟩ := block_name hps hl hold (hlow n n1) hlast hp
  subst e
  have hsim := I.sim n n1 hlast
  have hholds := I.holds n n1
  cases ho : f (jbOf n) with
  | none =>
    rw [ho] at hsim hholds
    have hz : zread (create hdrSize maxHash binSize mul).1 s (blk ps (jbOf n)) = some none := hsim
    refine ⟨fun _ => by unfold hecTsRetrieveInfo; rw [em, zreadName_plain eo, hz]; rfl, ?_⟩
    rintro ⟨t, v, t1, t2, t3⟩
    rw [hholds t t1 t2] at t3; cases t3
  | some rc =>
    rw [ho] at hsim hholds
    have hex := irreg_sized hsim hholds ⟨by have := Gr.lt n n1; omega, by have := (block_days (b := b) hv hy).1; omega⟩ (by unfold unitOf; split <;> decide)
    obtain ⟨R, d, hz, _, _, _, hP, _, hlen, hun⟩ := hsim
    obtain ⟨_, t, v, t1, t2, t3⟩ := hex.2.2.2.1 R (zread_getD hz)
    refine ⟨fun hno => ?_, fun _ => ?_⟩
    · rw [hno t t1 t2] at t3; cases t3
    · obtain ⟨x, hx, rfl⟩ := List.mem_map.mp hP
      refine info_read em eo hz hlen hun hu hty ?_ hca hus hts
      rw [hdesc x hx]
      exact ⟨rfl, rfl⟩

end Hec
