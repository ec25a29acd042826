import Verif.Proofs.TsSizes
import Verif.Props.TsApi
import Verif.Props.ItsApi
/-! C74: how many values a series has in a window. -/
namespace Hec
set_option linter.unusedSimpArgs false
set_option linter.unusedVariables false
open _root_.Spec (Date Block RegInterval RegStore regSeries SameValue Op GoodSizes create join SixParts IsPart IsInt blockLength NamesSeries Holds SeriesName PathFor TextOf TsMemOk SameBlock IrregStore ItsPathFor seriesOf Reachable Printable)

theorem zread_getD {c : Cfg} {s : Eng} {p : Bytes} {R : Option Rec} (h : zread c s p = some R) : (zread c s p).getD none = R := by rw [h]; rfl

/-- A block of a regular series counts for all its positions if it has a record. -/
theorem reg_sized {c : Cfg} {cfg : RegCfg UInt32} {q : Nat} {P : TsDesc → Prop} {s : Eng} {p : Bytes} {edge : Int → Int} {k : Int} {o : Option (RegRec UInt32)} {val : Int → List UInt32}
    (hsim : SimAt c cfg P s p o) (hb : BlockHolds cfg q edge k o val) (hnib : edge (k + 1) - edge k ≤ 86400) :
    Sized c s p (if ((zread c s p).getD none).isSome then (nibOf edge k : Int) else 0) q ((zread c s p).getD none) := by
  cases o with
  | none =>
    have hz : zread c s p = some none := hsim
    refine ⟨by rw [zread_getD hz]; exact hz, fun _ => by rw [zread_getD hz]; rfl, fun R' h => ?_⟩
    rw [zread_getD hz] at h; cases h
  | some r =>
    obtain ⟨R, d, hz, hty, hrec, hP, h17, _⟩ := hsim
    refine ⟨by rw [zread_getD hz]; exact hz, fun h => ?_, fun R' h => ?_⟩
    · rw [zread_getD hz] at h; cases h
    · rw [zread_getD hz] at h ⊢
      injection h with h
      subst h
      have hr : r = regRecOf R := by
        unfold tsRecord at hrec
        simp only at hrec
        rw [if_pos ⟨hty, by omega⟩] at hrec
        injection hrec with hrec; injection hrec with hrec
        exact hrec.symm
      obtain ⟨S, V, qs, Q, hV, hqs⟩ := hb.1
      have hlog : (R.logicalNumber : Int) = nibOf edge k := by have := hV.logical; rw [hr] at this; have this : R.logicalNumber = nibOf edge k := this; omega
      refine ⟨by omega, ?_, ?_⟩
      · rw [toInt32_small (by unfold nibOf at hlog; omega)]
        simp only [Option.isSome_some, if_true]
        exact hlog
      · obtain ⟨cv, cq, cn, h2, a⟩ := aggregate_shape cfg.pol [] cfg.vsz V qs Q 0 [] hV.vlen hV.ne hV.qlen hV.qnum (by simp) (by simp)
        obtain ⟨_, _, _, _, a5⟩ := a
        have hp := hV.packed
        rw [hr] at hp
        have e : (regRecOf R).packed.head.qualitySize = qs := by rw [hp, a5]
        have e : (headInt R.ih 11).toNat = qs := e
        omega

/-- C74, for a regular series and a window of its positions from `a` to `b`: the number is at least that of the values in the window that are
not missing (but it may be less than that of all positions, and hec_dss_tsRetrieve gives all); it covers the whole window if there is no
position in it whose block has no value; and it is no more than that of the positions in the blocks that the window touches. -/
theorem C74_regular_partial {hdrSize maxHash binSize : Nat} {mul : Nat → Nat} (g : GoodSizes hdrSize maxHash binSize) {cfg : RegCfg UInt32} {q : Nat} (hcfg : SeriesCfg cfg q) {r : RegInterval} (hr : r.Ok)
    {ps : List Bytes} (hn : SeriesName ps) {past : List Op} {s : Eng} {xs : List (TsDesc × RegStore (List UInt32))}
    (h : SeriesHistory (create hdrSize maxHash binSize mul).1 (create hdrSize maxHash binSize mul).2 cfg r q ps past s xs)
    {a b : Int} (ha : InRange r a) (hab : a ≤ b) (hlast : (r.time julianOf b).1 ≤ julianOf ⟨9999, 12, 31⟩)
    {m : TsMem} (hm : TsMemOk m) {path startDate startTime endDate endTime : Bytes} (hp : PathFor ps r.secs path) (hexact : NamesSeries ps path)
    (hs : TextOf startDate startTime (r.time julianOf a)) (hE : TextOf endDate endTime (r.time julianOf b))
    (hdate : ¬ (dateToJulian startDate = 0 ∧ dateToJulian endDate = 0) ∧ ¬ (dateToJulian startDate = -1 ∧ dateToJulian endDate = -1)) :
    ∃ (n quality : Int) (rounds : Nat), (∀ fuel : Nat, rounds ≤ fuel →
        hecTsGetSizes (create hdrSize maxHash binSize mul).1 m path startDate startTime endDate endTime s fuel = some (.ok n quality)) ∧
      (((List.range (b - a + 1).toNat).countP fun k : Nat => ! cfg.isMissing (regSeries cfg.isMissing cfg.missing (xs.map Prod.snd) (a + k)) : Nat) : Int) ≤ n ∧
      ((∀ k, a ≤ k → k ≤ b → ∃ j, InRange r j ∧ SameBlock julianOf r k j ∧ cfg.isMissing (regSeries cfg.isMissing cfg.missing (xs.map Prod.snd) j) = false) → b - a + 1 ≤ n) ∧
      (∀ lo hi, (∀ k j, a ≤ k → k ≤ b → SameBlock julianOf r k j → lo ≤ j ∧ j ≤ hi) → n ≤ hi - lo + 1) ∧
      0 ≤ quality ∧ quality ≤ q := by
  obtain ⟨code, jbOf, edge, n0, Gr, hrange, hdates, hnib⟩ := grid_of r hr
  have ha' := hrange _ ha
  have hlow := low_of hdates
  obtain ⟨G, f, I⟩ := history_inv g hcfg hn.six hn.fits Gr hrange hdates hnib h
  obtain ⟨p1, p2, y, e, b0, p3, p4, p5, p6, p7, p8, p9, p10, p11, p12⟩ := tsPath_spec hn hp hm
  obtain ⟨ta1, ta2⟩ := time_secs r a
  obtain ⟨tb1, tb2⟩ := time_secs r b
  obtain ⟨s0, a1, a2, a3, a4⟩ := apiTime_spec hs ta1 ta2 (in_range_day ha)
  obtain ⟨w1, w2, w3, w0, w4, w5, w6, w7⟩ := start_block Gr hlow ha' hab hlast
  have hbday : julianOf ⟨5, 1, 1⟩ ≤ (r.time julianOf b).1 := by
    have : julianOf ⟨5, 1, 1⟩ ≤ julianOf ⟨100, 1, 1⟩ := by decide +kernel
    omega
  obtain ⟨e0, b1, b2, b3, b4⟩ := apiTime_spec hE tb1 tb2 hbday
  obtain ⟨internal, i1, i2⟩ := internal_spec hn p4 p5 p11 p12 m w1 w2
  obtain ⟨x, buf, u1, u2, u3, u4⟩ := buffer_ok hexact hm.path hn.six.1
  obtain ⟨sa, sa1, -⟩ := hs.says
  obtain ⟨sb, sb1, -⟩ := hE.says
  have es0 : s0 = (dateToJulian startDate, sa) := by
    unfold apiTime at a1
    rw [if_pos (List.length_pos_iff.mpr hs.hasTime), sa1, Option.map_some, if_pos (List.length_pos_iff.mpr hs.hasDate)] at a1
    injection a1 with a1; exact a1.symm
  have ee0 : e0 = (dateToJulian endDate, sb) := by
    unfold apiTime at b1
    rw [if_pos (List.length_pos_iff.mpr hE.hasTime), sb1, Option.map_some, if_pos (List.length_pos_iff.mpr hE.hasDate)] at b1
    injection b1 with b1; exact b1.symm
  rw [es0] at a3; rw [ee0] at b3
  obtain ⟨na, nb, v1, v2, v3, v4, v5, v6, v7⟩ := Gr.windows ha' (show edge n0 < b by omega)
  have v8 : b ≤ edge (nb + 1) := by
    obtain ⟨nb', z1, z2, z3⟩ := Gr.find (show edge n0 < b by omega)
    obtain ⟨_, g2, g3⟩ := Gr.block nb' b z1 z2 z3
    rcases Int.lt_trichotomy nb nb' with hh | hh | hh
    · -- the window is that of the block of `b`
      have hw := congrArg RegWindow.endBlock v4
      unfold regWindow gridWindow at hw
      rw [Gr.std b (by omega)] at hw
      simp only at hw
      rw [(Gr.block nb' b z1 z2 z3).1] at hw
      have := Gr.jb_mono v2 hh
      simp only at hw
      omega
    · rw [hh]; exact z3
    · have := Gr.edge_mono (show n0 ≤ nb' + 1 by omega) (show nb' + 1 < nb + 1 by omega)
      omega
  have hnn : na ≤ nb := by
    rcases Int.lt_or_le nb na with hh | hh
    · have : edge (nb + 1) ≤ edge na := by
        rcases Int.lt_or_le (nb + 1) na with h2 | h2
        · exact Int.le_of_lt (Gr.edge_mono (by omega) h2)
        · rw [show nb + 1 = na by omega]; exact Int.le_refl _
      omega
    · exact hh
  let rec' : Int → Option Rec := fun k => (zread (create hdrSize maxHash binSize mul).1 s (blk ps (jbOf k))).getD none
  let P : Int → Bool := fun k => ! cfg.isMissing (regSeries cfg.isMissing cfg.missing (xs.map Prod.snd) k)
  have hjb : ∀ k, n0 ≤ k → k ≤ nb → jbOf k ≤ julianOf ⟨9999, 12, 31⟩ := by
    intro k k1 k2
    rcases Int.lt_or_le k nb with hh | hh
    · have := Gr.jb_mono k1 hh; omega
    · rw [show k = nb by omega]; omega
  have hsized : ∀ k, n0 ≤ k → k ≤ nb → Sized (create hdrSize maxHash binSize mul).1 s (blk ps (jbOf k)) (heldIn edge rec' k) q (rec' k) := by
    intro k k1 k2
    exact reg_sized (I.sim k k1 (hjb k k1 k2)) (I.holds k k1) (hnib k k1)
  have hmono : ∀ n, n0 ≤ n → (jbOf n ≤ jbOf nb ↔ n ≤ nb) := by
    intro n hn'
    constructor
    · intro hh
      rcases Int.lt_or_le nb n with h2 | h2
      · have := Gr.jb_mono v2 h2; omega
      · exact h2
    · intro hh
      rcases Int.lt_or_le n nb with h2 | h2
      · exact Int.le_of_lt (Gr.jb_mono hn' h2)
      · rw [show n = nb by omega]; exact Int.le_refl _
  have hnone : ∀ k, n0 ≤ k → jbOf k ≤ julianOf ⟨9999, 12, 31⟩ → rec' k = none → ∀ p : Nat, p < nibOf edge k → P (edge k + 1 + p) = false := by
    intro k k1 kj k2 p hp'
    have hsim := I.sim k k1 kj
    have hb := (I.holds k k1).2 p hp'
    generalize f (jbOf k) = o at hsim hb
    cases o with
    | none =>
      show (! cfg.isMissing _) = false
      rw [← sameValue_missing hb, view_readValue (view_none hcfg.ok (nibOf edge k) q), hcfg.ok.miss]
      rfl
    | some rc =>
      obtain ⟨R, d, hz, _⟩ := hsim
      have : rec' k = some R := zread_getD hz
      rw [this] at k2; cases k2
  obtain ⟨j, hj⟩ : ∃ j : Nat, na + (j : Int) = nb + 1 := ⟨(nb + 1 - na).toNat, by omega⟩
  obtain ⟨c1, c2, c3⟩ := held_bounds Gr rec' P j na v1 fun k k1 k2 => hnone k (by omega) (hjb k (by omega) (by omega))
  rw [hj] at c1 c2 c3
  have hrun : ∀ fuel : Nat, j ≤ fuel → ∃ q', hecTsGetSizes (create hdrSize maxHash binSize mul).1 m path startDate startTime endDate endTime s fuel =
      some (.ok (sumFrom (heldIn edge rec') na j) q') ∧ 0 ≤ q' ∧ q' ≤ q := by
    intro fuel hf
    obtain ⟨q', k1, k2, k3, -⟩ := sizesLoop_sum m.loop (name_ok hn.six hn.fits) hlow (fun n h => Gr.next n h) (hjb nb v2 (Int.le_refl _)) hmono hsized j na fuel buf x m.junk 0 0 v1 hj hf
      (Int.le_refl _) (by omega) u4 u3 u2
    refine ⟨q', ?_, k2, k3⟩
    unfold hecTsGetSizes
    simp only
    rw [sa1, sb1, p1, p10]
    simp only [Option.bind_some]
    rw [if_neg (by simp), if_neg (by rintro (hh | hh); exact hdate.1 hh; exact hdate.2 hh), a3, b3, if_neg (by rw [a4, b4]; simp), i1, Option.bind_some, v4]
    unfold getSizes gridWindow
    simp only
    rw [if_pos ((hmono na v1).mpr hnn), u1, Option.bind_some, k1]
    simp
  -- the same quality for every number of rounds
  obtain ⟨Q0, hQ0, hQ1, hQ2⟩ := hrun j (Nat.le_refl _)
  have hmore : ∀ fuel : Nat, j ≤ fuel → hecTsGetSizes (create hdrSize maxHash binSize mul).1 m path startDate startTime endDate endTime s fuel = some (.ok (sumFrom (heldIn edge rec') na j) Q0) := by
    intro fuel hf
    obtain ⟨k, rfl⟩ : ∃ k, fuel = j + k := ⟨fuel - j, by omega⟩
    exact sizes_more hQ0 k
  have hb2 := Gr.edge_mono v1 (show na < nb + 1 by omega)
  refine ⟨_, Q0, j, hmore, ?_, ?_, ?_, hQ1, hQ2⟩
  · have := countFrom_part P (show edge na + 1 ≤ a by omega) v8
    have e : (edge (nb + 1) - (edge na + 1) + 1).toNat = (edge (nb + 1) - edge na).toNat := by omega
    rw [e] at this
    have : (countFrom P a (b - a + 1).toNat : Int) ≤ sumFrom (heldIn edge rec') na j := by omega
    exact this
  · intro hall
    have : sumFrom (heldIn edge rec') na j = edge (nb + 1) - edge na := by
      refine c3 fun k k1 k2 hk => ?_
      -- a position of the window in block k
      have hpos : ∃ t, a ≤ t ∧ t ≤ b ∧ edge k < t ∧ t ≤ edge (k + 1) := by
        rcases Int.lt_or_le (edge k) a with h1 | h1
        · refine ⟨a, Int.le_refl _, hab, h1, ?_⟩
          rcases Int.lt_or_le na k with h2 | h2
          · have : edge (na + 1) ≤ edge k := by
              rcases Int.lt_or_le (na + 1) k with h3 | h3
              · exact Int.le_of_lt (Gr.edge_mono (by omega) h3)
              · rw [show na + 1 = k by omega]; exact Int.le_refl _
            omega
          · rw [show k = na by omega]; exact v6
        · have h3 := Gr.edgeLt k (by omega)
          refine ⟨edge k + 1, by omega, ?_, by omega, by omega⟩
          have : edge k ≤ edge nb := by
            rcases Int.lt_or_le k nb with h4 | h4
            · exact Int.le_of_lt (Gr.edge_mono (by omega) h4)
            · rw [show k = nb by omega]; exact Int.le_refl _
          omega
      obtain ⟨t, t1, t2, t3, t4⟩ := hpos
      obtain ⟨t', tr, ts, tm⟩ := hall t t1 t2
      obtain ⟨x1, x2⟩ := (same_block hr Gr hlow (by omega) t3 t4 (hrange t' tr)).mp ts
      have := hnone k (by omega) (hjb k (by omega) (by omega)) hk (t' - edge k - 1).toNat (by unfold nibOf; omega)
      rw [show edge k + 1 + ((t' - edge k - 1).toNat : Int) = t' by omega] at this
      have : (! cfg.isMissing (regSeries cfg.isMissing cfg.missing (xs.map Prod.snd) t')) = false := this
      rw [tm] at this; cases this
    omega
  · intro lo hi hall
    have h1 := hall a (edge na + 1) (Int.le_refl _) hab ((same_block hr Gr hlow v1 v5 v6 (by
      have : edge n0 ≤ edge na := by
        rcases Int.lt_or_le n0 na with h4 | h4
        · exact Int.le_of_lt (Gr.edge_mono (Int.le_refl _) h4)
        · rw [show na = n0 by omega]; exact Int.le_refl _
      omega)).mpr ⟨by omega, by have := Gr.edgeLt na v1; omega⟩)
    have h2 := hall b (edge (nb + 1)) hab (Int.le_refl _) ((same_block hr Gr hlow v2 v7 v8 (Gr.edge_mono (Int.le_refl _) (by omega))).mpr ⟨Gr.edgeLt nb v2, Int.le_refl _⟩)
    omega

/-- What a block of an irregular series counts for. -/
def countOf : Option Rec → Int
  | none => 0
  | some R => toInt32 R.logicalNumber

/-- The times of the values in a block. -/
def timesOf (u jb : Int) : Option (IrregRec ItsVal) → List Int
  | none => []
  | some r => r.entries.map fun e => jb * 86400 + e.time * u

theorem irreg_sized {c : Cfg} {cfg : ItsCfg} {P : TsDesc → Prop} {s : Eng} {p : Bytes} {o : Option (IrregRec ItsVal)} {a g u jb next : Int} {S : Int → Option ItsVal}
    (hsim : ItsSimAt c cfg P s p o) (hb : BlockOK a g u jb next S o) (hlen : 0 ≤ next - jb ∧ next - jb ≤ 36600) (hu : 0 < u) :
    Sized c s p (countOf ((zread c s p).getD none)) cfg.qsz ((zread c s p).getD none) ∧ ((timesOf u jb o).length : Int) ≤ countOf ((zread c s p).getD none) ∧
      (∀ t v, jb * 86400 < t → t ≤ next * 86400 → S t = some v → t ∈ timesOf u jb o) ∧
      (∀ R, (zread c s p).getD none = some R → headInt R.ih 11 = cfg.qsz ∧ ∃ t v, jb * 86400 < t ∧ t ≤ next * 86400 ∧ S t = some v) ∧ ((zread c s p).getD none = none → o = none) := by
  cases o with
  | none =>
    have hz : zread c s p = some none := hsim
    rw [show (zread c s p).getD none = none from zread_getD hz]
    refine ⟨⟨hz, fun _ => rfl, fun R' h => (by cases h)⟩, by simp [timesOf, countOf], fun t v h1 h2 h3 => ?_, fun R h => (by cases h), fun _ => rfl⟩
    have := hb t h1 h2
    rw [this] at h3; cases h3
  | some r =>
    obtain ⟨R, d, hz, hty, hrec, hnum, hP, hg, h17, _⟩ := hsim
    rw [show (zread c s p).getD none = some R from zread_getD hz]
    unfold irregRecord at hrec
    simp only at hrec
    split at hrec
    case isFalse => cases hrec
    rename_i hq
    injection hrec with hrec; injection hrec with hrec
    obtain ⟨hE, hne, hgr, hlog, hup⟩ := hb
    have hl : r.logical = R.logicalNumber := by rw [← hrec]; rfl
    have hbig : r.logical < 2 ^ 31 := by
      have h1 : (next - jb + 1) * (if next - jb + 1 < 370 then 86400 else 1440) ≤ 60000000 := by split <;> omega
      omega
    have hc : toInt32 R.logicalNumber = R.logicalNumber := toInt32_small (by omega)
    refine ⟨⟨hz, fun h => (by cases h), fun R' h => ?_⟩, ?_, fun t v h1 h2 h3 => ?_, fun R' h => ?_, fun h => (by cases h)⟩
    · injection h with h; subst h
      exact ⟨by omega, rfl, by rw [hq.2.2]; exact Int.le_refl _⟩
    · simp only [timesOf, countOf, List.length_map, hc]; omega
    · obtain ⟨e, e1, e2, e3⟩ := (hE.val t v h1 h2).mp h3
      simp only [timesOf, List.mem_map]
      exact ⟨e, e1, e3⟩
    · injection h with h; subst h
      refine ⟨hq.2.2, ?_⟩
      match hr : r.entries, hne with
      | e :: l, _ =>
        have hp := hE.pos e (by rw [hr]; simp)
        have h1 : jb * 86400 < jb * 86400 + e.time * u := by
          have : 0 < e.time * u := Int.mul_pos hp.1 hu
          omega
        have h2 : jb * 86400 + e.time * u ≤ next * 86400 := by omega
        exact ⟨_, e.val, h1, h2, (hE.val _ _ h1 h2).mpr ⟨e, by rw [hr]; simp, rfl, rfl⟩⟩

/-- The times of the values in `j` blocks. -/
def timesFrom (T : Int → List Int) (n : Int) : Nat → List Int
  | 0 => []
  | j + 1 => T n ++ timesFrom T (n + 1) j

theorem timesFrom_mem {T : Int → List Int} {t : Int} : ∀ (j : Nat) (n k : Int), n ≤ k → k < n + j → t ∈ T k → t ∈ timesFrom T n j
  | 0, n, k, h1, h2, _ => by omega
  | j + 1, n, k, h1, h2, h3 => by
    unfold timesFrom
    rcases Int.lt_or_le n k with h | h
    · exact List.mem_append_right _ (timesFrom_mem j (n + 1) k (by omega) (by omega) h3)
    · rw [show k = n by omega] at h3; exact List.mem_append_left _ h3

theorem timesFrom_length {T : Int → List Int} {cnt : Int → Int} : ∀ (j : Nat) (n : Int), (∀ k, n ≤ k → k < n + j → ((T k).length : Int) ≤ cnt k) → ((timesFrom T n j).length : Int) ≤ sumFrom cnt n j
  | 0, n, _ => by simp [timesFrom, sumFrom]
  | j + 1, n, h => by
    have h1 := h n (by omega) (by omega)
    have h2 := timesFrom_length j (n + 1) fun k k1 k2 => h k (by omega) (by omega)
    simp only [timesFrom, sumFrom, List.length_append]
    omega

theorem sumFrom_zero {cnt : Int → Int} : ∀ (j : Nat) (n : Int), (∀ k, n ≤ k → k < n + j → cnt k = 0) → sumFrom cnt n j = 0
  | 0, n, _ => rfl
  | j + 1, n, h => by
    simp only [sumFrom, h n (by omega) (by omega), sumFrom_zero j (n + 1) fun k k1 k2 => h k (by omega) (by omega)]
    rfl

/-- The blocks of an irregular series are those of the calendar. -/
theorem block_dates {b : Block} {jbOf : Int → Int} {n0 : Int} (Gr : BlockGrid b.code jbOf n0) (h100 : jbOf n0 = julianOf ⟨100, 1, 1⟩) {n : Int} (hn : n0 ≤ n) {d : Date} (hv : d.Valid) (hy : 100 ≤ d.year)
    (h1 : jbOf n ≤ julianOf d) (h2 : julianOf d < jbOf (n + 1)) : jbOf n = julianOf (b.start d) ∧ jbOf (n + 1) = julianOf (b.next d) := by
  have e1 : jbOf n = julianOf (b.start d) := by
    rw [← Gr.block n _ hn h1 h2]; exact C12_irreg_block_start b d hv (by omega)
  refine ⟨e1, ?_⟩
  rw [← Gr.next n hn, e1]; exact C12_step_forward b d hv hy

/-- C74, for an irregular series and a window of time: the number is at least that of the values in the window, and zero if there is none in the
blocks that the window touches; the quality size is that of the stores if there is a value in the window. -/
theorem C74_irregular_partial {hdrSize maxHash binSize : Nat} {mul : Nat → Nat} (gs : GoodSizes hdrSize maxHash binSize) {cfg : ItsCfg} (b : Block) {g : Int} (hcfg : ItsSettings cfg g)
    {ps : List Bytes} (hn : SeriesName ps) {past : List Op} {s : Eng} {xs : List (TsDesc × IrregStore ItsVal)}
    (h : ItsHistory (create hdrSize maxHash binSize mul).1 (create hdrSize maxHash binSize mul).2 cfg b g ps past s xs)
    {ta tb : Int × Int} (hw : julianOf ⟨100, 1, 1⟩ ≤ ta.1 ∧ ta.1 ≤ tb.1 ∧ tb.1 ≤ julianOf ⟨9999, 12, 31⟩)
    (hsec : 1 ≤ ta.2 ∧ ta.2 ≤ 86400 ∧ 1 ≤ tb.2 ∧ tb.2 ≤ 86400)
    {m : TsMem} (hm : TsMemOk m) {path startDate startTime endDate endTime : Bytes} (hp : ItsPathFor ps b path) (hexact : NamesSeries ps path)
    (hs : TextOf startDate startTime ta) (hE : TextOf endDate endTime tb)
    (hdate : ¬ (dateToJulian startDate = 0 ∧ dateToJulian endDate = 0) ∧ ¬ (dateToJulian startDate = -1 ∧ dateToJulian endDate = -1)) :
    ∃ (n quality : Int) (rounds : Nat), (∀ fuel : Nat, rounds ≤ fuel →
        hecTsGetSizes (create hdrSize maxHash binSize mul).1 m path startDate startTime endDate endTime s fuel = some (.ok n quality)) ∧
      (∀ L : List Int, L.Nodup → (∀ t ∈ L, (∃ v, seriesOf (xs.map Prod.snd) t = some v) ∧ ta.1 * 86400 + ta.2 ≤ t ∧ t ≤ tb.1 * 86400 + tb.2) → (L.length : Int) ≤ n) ∧
      (∀ d e : Date, d.Valid → 100 ≤ d.year → e.Valid → 100 ≤ e.year → julianOf d = ta.1 → julianOf e = tb.1 →
        (∀ t, julianOf (b.start d) * 86400 < t → t ≤ julianOf (b.next e) * 86400 → seriesOf (xs.map Prod.snd) t = none) → n = 0 ∧ quality = 0) ∧
      ((∃ t v, seriesOf (xs.map Prod.snd) t = some v ∧ ta.1 * 86400 + ta.2 ≤ t ∧ t ≤ tb.1 * 86400 + tb.2) → quality = cfg.qsz) ∧
      0 ≤ quality ∧ quality ≤ cfg.qsz := by
  obtain ⟨p1, p2, y, e, buf0, p3, p4, p5, p6, p7, p8, p9, p10, p11, p12⟩ := itsPath_spec hn hp hm
  obtain ⟨jbOf, n0, Gr, h100, hd⟩ := block_grid b
  have hlow : ∀ n, n0 ≤ n → julianOf ⟨100, 1, 1⟩ ≤ jbOf n := fun n hn => by rw [← h100]; exact Gr.mono_le (by omega) hn
  obtain ⟨G, f, I⟩ := its_history_inv gs hcfg hn.six hn.fits Gr h100 hd h
  have h5 : julianOf ⟨5, 1, 1⟩ ≤ julianOf ⟨100, 1, 1⟩ := by decide +kernel
  obtain ⟨s0, a1, a2, a3, a4⟩ := apiTime_spec hs hsec.1 hsec.2.1 (by omega)
  obtain ⟨e0, b1, b2, b3, b4⟩ := apiTime_spec hE hsec.2.2.1 hsec.2.2.2 (by omega)
  obtain ⟨na, v1, na1, nb1⟩ := Gr.onto (j := ta.1) (by omega)
  obtain ⟨nb, v2, na2, nb2⟩ := Gr.onto (j := tb.1) (by omega)
  have hsb := Gr.block na _ v1 na1 nb1
  have heb := Gr.block nb _ v2 na2 nb2
  have hnn : na ≤ nb := by
    rcases Int.lt_or_le nb na with hh | hh
    · have := Gr.mono_le (m := nb + 1) (n := na) (by omega) (by omega)
      omega
    · exact hh
  have hnE : jbOf nb ≤ julianOf ⟨9999, 12, 31⟩ := by omega
  have hjb : ∀ k, n0 ≤ k → k ≤ nb → jbOf k ≤ julianOf ⟨9999, 12, 31⟩ := fun k k1 k2 => Int.le_trans (Gr.mono_le k1 k2) hnE
  obtain ⟨internal, i1, i2⟩ := internal_spec hn p4 p5 p11 p12 m (j := jbOf na) (hlow na v1) (hjb na v1 hnn)
  obtain ⟨x, buf, u1, u2, u3, u4⟩ := buffer_ok hexact hm.path hn.six.1
  obtain ⟨sa, sa1, -⟩ := hs.says
  obtain ⟨sb, sb1, -⟩ := hE.says
  have es0 : s0 = (dateToJulian startDate, sa) := by
    unfold apiTime at a1
    rw [if_pos (List.length_pos_iff.mpr hs.hasTime), sa1, Option.map_some, if_pos (List.length_pos_iff.mpr hs.hasDate)] at a1
    injection a1 with a1; exact a1.symm
  have ee0 : e0 = (dateToJulian endDate, sb) := by
    unfold apiTime at b1
    rw [if_pos (List.length_pos_iff.mpr hE.hasTime), sb1, Option.map_some, if_pos (List.length_pos_iff.mpr hE.hasDate)] at b1
    injection b1 with b1; exact b1.symm
  rw [es0] at a3; rw [ee0] at b3
  let rec' : Int → Option Rec := fun k => (zread (create hdrSize maxHash binSize mul).1 s (blk ps (jbOf k))).getD none
  have hblock : ∀ k, n0 ≤ k → k ≤ nb → _ := fun k k1 k2 => irreg_sized (I.sim k k1 (hjb k k1 k2)) (I.holds k k1) (by
    obtain ⟨d, hv, hy, e⟩ := date_of_day (hlow k k1)
    obtain ⟨e1, e2⟩ := block_dates Gr h100 k1 hv hy (by omega) (by have := Gr.lt k k1; omega)
    have := (block_days (b := b) hv hy).1
    have := Gr.lt k k1
    omega) (by unfold unitOf; split <;> decide)
  have hmono : ∀ n, n0 ≤ n → (jbOf n ≤ jbOf nb ↔ n ≤ nb) := fun n hn' => Gr.le_iff hn' v2
  obtain ⟨j, hj⟩ : ∃ j : Nat, na + (j : Int) = nb + 1 := ⟨(nb + 1 - na).toNat, by omega⟩
  have hq0 : (0 : Int) ≤ cfg.qsz := Int.natCast_nonneg _
  obtain ⟨q', k1, k2, k3, k4, k5⟩ := sizesLoop_sum (cnt := fun k => countOf (rec' k)) (rec := rec') m.loop (name_ok hn.six hn.fits) hlow Gr.next hnE hmono
    (fun k k1 k2 => (hblock k k1 k2).1) j na j buf x m.junk 0 0 v1 hj (Nat.le_refl _) (Int.le_refl _) hq0 u4 u3 u2
  have hrun : hecTsGetSizes (create hdrSize maxHash binSize mul).1 m path startDate startTime endDate endTime s j = some (.ok (sumFrom (fun k => countOf (rec' k)) na j) q') := by
    unfold hecTsGetSizes
    simp only
    rw [sa1, sb1, p1, p10]
    simp only [Option.bind_some]
    rw [if_neg (by simp), if_neg (by rintro (hh | hh); exact hdate.1 hh; exact hdate.2 hh), a3, b3, if_neg (by rw [a4, b4]; simp), hsb, heb, i1, Option.bind_some]
    unfold getSizes
    rw [if_pos ((hmono na v1).mpr hnn), u1, Option.bind_some, k1]
    simp
  have hfind : ∀ t, ta.1 * 86400 + ta.2 ≤ t → t ≤ tb.1 * 86400 + tb.2 → ∃ k, na ≤ k ∧ k ≤ nb ∧ jbOf k * 86400 < t ∧ t ≤ jbOf (k + 1) * 86400 := by
    intro t t1 t2
    obtain ⟨k, kk1, kk2, kk3⟩ := Gr.onto (j := (t - 1) / 86400) (by omega)
    have g1 : na ≤ k := by
      rcases Int.lt_or_le k na with hh | hh
      · have := Gr.mono_le (m := k + 1) (n := na) (by omega) (by omega); omega
      · exact hh
    have g2 : k ≤ nb := by
      rcases Int.lt_or_le nb k with hh | hh
      · have := Gr.mono_le (m := nb + 1) (n := k) (by omega) (by omega); omega
      · exact hh
    exact ⟨k, g1, g2, by omega, by omega⟩
  refine ⟨sumFrom (fun k => countOf (rec' k)) na j, q', j, fun fuel hf => ?_, ?_, ?_, ?_, k2, k3⟩
  · obtain ⟨k, rfl⟩ : ∃ k, fuel = j + k := ⟨fuel - j, by omega⟩
    exact sizes_more hrun k
  · intro L hL hall
    have hsub : L ⊆ timesFrom (fun k => timesOf (unitOf b.code) (jbOf k) (f (jbOf k))) na j := by
      intro t ht
      obtain ⟨⟨v, hv⟩, t1, t2⟩ := hall t ht
      obtain ⟨k, g1, g2, g3, g4⟩ := hfind t t1 t2
      exact timesFrom_mem j na k g1 (by omega) ((hblock k (by omega) g2).2.2.1 t v g3 g4 hv)
    have := hL.length_le_of_subset hsub
    have := timesFrom_length (T := fun k => timesOf (unitOf b.code) (jbOf k) (f (jbOf k))) (cnt := fun k => countOf (rec' k)) j na
      fun k h1 h2 => (hblock k (by omega) (by omega)).2.1
    omega
  · intro d e hv hy hve hye hd1 he1 hnone
    obtain ⟨c1, c2⟩ := block_dates Gr h100 v1 hv hy (by omega) (by omega)
    obtain ⟨c3, c4⟩ := block_dates Gr h100 v2 hve hye (by omega) (by omega)
    have hrec : ∀ k, na ≤ k → k ≤ nb → rec' k = none := by
      intro k h1 h2
      cases hR : rec' k with
      | none => rfl
      | some R =>
        obtain ⟨_, t, v, t1, t2, t3⟩ := (hblock k (by omega) h2).2.2.2.1 R hR
        have m1 := Gr.mono_le v1 h1
        have m2 := Gr.mono_le (show n0 ≤ k + 1 by omega) (show k + 1 ≤ nb + 1 by omega)
        rw [hnone t (by omega) (by omega)] at t3; cases t3
    have hz : sumFrom (fun k => countOf (rec' k)) na j = 0 := sumFrom_zero j na fun k h1 h2 => by simp only [hrec k h1 (by omega)]; rfl
    refine ⟨hz, ?_⟩
    rcases k5 with hq | ⟨k, R, h1, h2, h3, -⟩
    · exact hq
    · rw [hrec k h1 h2] at h3; cases h3
  · rintro ⟨t, v, hv, t1, t2⟩
    obtain ⟨k, g1, g2, g3, g4⟩ := hfind t t1 t2
    obtain ⟨c1, c2, c3, c4, c5⟩ := hblock k (by omega) g2
    cases hR : rec' k with
    | none =>
      have := c3 t v g3 g4 hv
      rw [c5 hR] at this; cases this
    | some R =>
      have := k4 k R g1 g2 hR
      rw [(c4 R hR).1] at this
      omega

theorem sizesLoop_endless {c : Cfg} (hc : c.OK) {G : Ghost} {s : Eng} (I : Inv c G s) (m : Around) {ps : List Bytes} (hps : NameOk ps) :
    ∀ (fuel : Nat) (buf x : Bytes) (was n q : Int), Holds buf (join (ps.set 3 x)) → IsPart x → buf.length = 393 → sizesLoop c m 0 0 s fuel buf 0 was n q = some .running := by
  have hj1 : julianOf ⟨100, 1, 1⟩ ≤ 0 := by decide +kernel
  have hj2 : 0 ≤ julianOf ⟨9999, 12, 31⟩ := by decide +kernel
  intro fuel
  induction fuel with
  | zero => intro buf x was n q hb hx hl; unfold sizesLoop; rw [if_pos (by decide)]
  | succ fuel ih =>
    intro buf x was n q hb hx hl
    unfold sizesLoop
    rw [if_pos (by decide)]
    obtain ⟨f1, f2, f3, f4⟩ := blk_facts hps hj1 hj2
    have hset : (ps.set 3 x).set 3 (dayName 0) = ps.set 3 (dayName 0) := set_set ps x _
    obtain ⟨buf', b1, b2, b3, b4⟩ := blockName_spec m (set_part hps.six hx 3) hb hl hj1 hj2 (by rw [hset]; exact f2)
    rw [hset] at b3 b4
    rw [b1, Option.bind_some, b4, zread_abs hc I (show (join (ps.set 3 (dayName 0))).length ≤ 392 from f2), Option.bind_some]
    simp only
    have hinc : ztsIncrementBlock 0 0 = 0 := rfl
    rw [hinc]
    cases (abs c G s.disk).live (join (ps.set 3 (dayName 0))) with
    | none => exact ih _ _ _ _ _ b3 (dayName_spec hj1 hj2).2.2.1 b2
    | some R => exact ih _ _ _ _ _ b3 (dayName_spec hj1 hj2).2.2.1 b2

/-- C74, failing part: if the E part is no interval (or has fewer than four characters), the call does not end, however many rounds it is
watched and whatever is in the file. -/
theorem C74_endless_violation {hdrSize maxHash binSize : Nat} {mul : Nat → Nat} (g : GoodSizes hdrSize maxHash binSize) {past : List Op} {s : Eng}
    (h : Reachable (create hdrSize maxHash binSize mul).1 (create hdrSize maxHash binSize mul).2 past s)
    {ps : List Bytes} (hps : SixParts ps) (hl : ∀ p ∈ ps, p.length ≤ 128) (hP : ∀ p ∈ ps, Printable p) (hlen : (join ps).length ≤ 392) (hfit : blockLength ps ≤ 392)
    (hno : (ps.getD 4 []).length < 4 ∨ ePartToSeconds 7 (ps.getD 4 []) = none) {m : TsMem} (hm : TsMemOk m)
    {startDate startTime endDate endTime : Bytes} (hs : ∃ t, timeStringToSeconds startTime = some t) (he : ∃ t, timeStringToSeconds endTime = some t) (fuel : Nat) :
    hecTsGetSizes (create hdrSize maxHash binSize mul).1 m (join ps) startDate startTime endDate endTime s fuel = some .running := by
  obtain ⟨G, H⟩ := reach g h
  obtain ⟨t1, ht1⟩ := hs
  obtain ⟨t2, ht2⟩ := he
  have hset : ps.set 3 (ps.getD 3 []) = ps := by
    obtain ⟨pa, pb, pc, pd, pe, pf, rfl⟩ := six_list hps
    rfl
  have hpart : IsPart (ps.getD 3 []) := by
    obtain ⟨pa, pb, pc, pd, pe, pf, rfl⟩ := six_list hps
    exact hps.2 pd (by simp)
  obtain ⟨x, buf, u1, u2, u3, u4⟩ := buffer_ok (ps := ps) ⟨ps.getD 3 [], hpart, by rw [hset], hlen⟩ hm.path hps.1
  unfold hecTsGetSizes
  simp only
  rw [ht1, Option.bind_some, ht2, Option.bind_some, malloc_join hps, tsPath_bad hps hl hP hno hm, Option.bind_some, if_pos rfl]
  unfold getSizes
  rw [if_pos (by decide), u1, Option.bind_some]
  exact sizesLoop_endless (create_OK g) H.inv m.loop (name_ok hps hfit) fuel buf x _ _ _ u4 u3 u2

end Hec
