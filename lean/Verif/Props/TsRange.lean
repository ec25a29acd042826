import Verif.Props.TsApi
import Verif.Props.OldNames
import Verif.Spec.TsRange
/-!
C69: hec_dss_tsGetDateTimeRange of a block of a regular series.
-/
namespace Hec
set_option linter.unusedSimpArgs false
set_option linter.unusedVariables false
open _root_.Spec (Date Block Period RegInterval RegStore regSeries SameValue Op GoodSizes create join SixParts IsPart IsInt blockLength DayOf SameBlock IsBlockName NamesDay
  OldMinute IsOldName compatible)
open Hec.Spec (sameUpToCase)

variable {hdrSize maxHash binSize : Nat} {mul : Nat → Nat}

/-- The E part of a pathname decides whether it is one with an old minute interval. -/
theorem not_old_name {ps : List Bytes} (h : SixParts ps) (he : ∀ e, ps[4]? = some e → ¬ OldMinute e) {front e' rest : Bytes} (hh : IsOldName (join ps) front e' rest) : False := by
  obtain ⟨a, b, c, d, e, f, rfl⟩ := six_list h
  obtain ⟨k1, k2, k3, k4⟩ := hh
  have hns : ∀ x ∈ [a, b, c, d, e, f], 47 ∉ x := fun x hx hm => (h.2 x hx 47 hm).1 rfl
  have hz : ∀ x ∈ [a, b, c, d, e, f], x.count 47 = 0 := fun x hx => List.count_eq_zero.mpr (hns x hx)
  have e0 : join [a, b, c, d, e, f] = (47 :: (a ++ 47 :: (b ++ 47 :: (c ++ 47 :: d)))) ++ 47 :: (e ++ 47 :: (f ++ [47])) := by
    unfold join; simp
  rw [e0] at k1
  have := split_unique k1 (by
    rw [k2]
    simp only [List.count_cons, List.count_append, hz a (by simp), hz b (by simp), hz c (by simp), hz d (by simp)]
    decide) (hns e (by simp)) k3
  exact he e rfl (this.2.1 ▸ k4)

theorem not_old {ps : List Bytes} (h : SixParts ps) (he : ∀ e, ps[4]? = some e → ¬ OldMinute e) : ztsPathCompatible (join ps) = none :=
  notOld_none fun _ _ _ hh => not_old_name h he hh

/-- What zcheck and zreadInfo find for a record that is there. -/
theorem found_info {c : Cfg} (hc : c.OK) {G : Ghost} {s : Eng} (I : Inv c G s) {p : Bytes} (hlen : p.length ≤ 392) {R : Rec} (hz : zread c s p = some (some R)) :
    ∃ k info, zcheck c s p REC_STATUS_VALID = some k ∧ k.found = true ∧ zreadInfo c s p REC_STATUS_VALID = some (k, some info) ∧
      readArrays s.disk info = R ∧ compatible (UInt32.ofNat (lo32 (binTypeWord s k))) R.dataType := by
  have hR : (abs c G s.disk).live p = some R := by
    rw [zread_abs hc I hlen] at hz
    injection hz
  obtain ⟨A, B, e, T, hm, _, hA, _⟩ := live_entry hc I hlen hR
  obtain ⟨k, hk, hkf, hki, hE, _⟩ := kill_ok hc I hlen T hm hA
  have htc := T.rcd.ok.tc
  have hte : s.disk (k.pathBinAddress + 4) = e.typeCat := hE.2.2.2.2.1
  unfold zread at hz
  have hzi : zreadInfo c s p REC_STATUS_VALID = some (if s.disk (k.infoAdd + kinfoHash) = c.pHash p then (k, some fun i => s.disk (k.infoAdd + i)) else (k, none)) := by
    unfold zreadInfo
    rw [hk]
    simp only [Option.map_some, if_pos hkf]
  rw [hzi, Option.map_some] at hz
  split at hz
  · rename_i hh
    injection hz with hz
    injection hz with hz
    refine ⟨k, _, rfl.trans hk, hkf, ?_, hz, ?_⟩
    · rw [hzi, if_pos hh]
    · unfold binTypeWord
      rw [hte]
      have e1 : R.dataType = lowInt (s.disk (e.infoAdd + kinfoTypeVersion)) := by rw [← T.rcd.eq]; rfl
      rw [e1]; exact htc
  · cases hz

theorem not_found {c : Cfg} (hc : c.OK) {G : Ghost} {s : Eng} (I : Inv c G s) {p : Bytes} (hlen : p.length ≤ 392) (hz : zread c s p = some none) :
    ∃ k, zcheck c s p REC_STATUS_VALID = some k ∧ k.found = false := by
  have hR : (abs c G s.disk).live p = none := by
    rw [zread_abs hc I hlen] at hz
    injection hz
  obtain ⟨k, hk, hf⟩ := zcheck_found hc I hlen
  rw [hR] at hf
  exact ⟨k, hk, hf⟩

theorem endOfDay_pack {j s : Int} (hj : IsInt j) (hs : IsInt s) (h0 : s ≠ 0) : endOfDay (packInts (i32 j) (i32 s)) = (j, s) := by
  have h1 : lo32 (packInts (i32 j) (i32 s)) = (i32 j).toNat := by
    unfold lo32 packInts
    have := (i32 j).toNat_lt
    omega
  have h2 : hi32 (packInts (i32 j) (i32 s)) = (i32 s).toNat := by
    unfold hi32 packInts
    have := (i32 j).toNat_lt
    omega
  unfold endOfDay
  simp only [h1, h2, toInt32_i32 hj, toInt32_i32 hs, if_neg h0]

theorem low_i32 (n : Nat) : toInt32 n = toInt32 (UInt32.ofNat (lo32 n)).toNat := by
  unfold toInt32 lo32
  have : (UInt32.ofNat (n % 2 ^ 32)).toNat = n % 2 ^ 32 := by simp
  rw [this, Nat.mod_mod]

/-- The interval decides the kind of block. -/
theorem block_code {r : RegInterval} (hr : r.Ok) : ztsRegBlockSize r.secs = r.block.code := by
  cases r with
  | fixed i =>
    obtain ⟨h1, h2⟩ := hr
    have := Int.le_of_dvd (by decide) h2
    show ztsRegBlockSize i = (if i < 900 then Block.day else if i < 86400 then .month else .year).code
    unfold ztsRegBlockSize
    have q1 : SECS_IN_15_MINUTES = 900 := by decide
    have q2 : SECS_IN_1_DAY = 86400 := by decide
    have q3 : SECS_IN_1_WEEK = 604800 := by decide
    by_cases k1 : i < 900
    · rw [if_pos (by omega), if_pos k1]; rfl
    · by_cases k2 : i < 86400
      · rw [if_neg (by omega), if_pos (by omega), if_neg k1, if_pos k2]; rfl
      · rw [if_neg (by omega), if_neg (by omega), if_neg k1, if_neg k2, if_pos (by omega)]; rfl
  | period p => cases p <;> decide

theorem code_inj {a b : Block} (h : a.code = b.code) : a = b := by
  cases a <;> cases b <;> first | rfl | (exfalso; revert h; decide)

/-- The block of a time starts at the start of the block of its day. -/
theorem block_of {r : RegInterval} (hr : r.Ok) {code : Int} {jbOf edge : Int → Int} {n0 : Int} (Gr : Grid r.secs code (r.time julianOf) jbOf edge n0) {n a : Int}
    (h0 : n0 ≤ n) (h1 : edge n < a) (h2 : a ≤ edge (n + 1)) {d : Date} (hd : DayOf julianOf r a d) : julianOf (r.block.start d) = jbOf n := by
  obtain ⟨b, k1, k2⟩ := C12_reg_block_start r.secs d hd.1 (by have := hd.2.1; omega)
  rw [block_code hr] at k2
  have := code_inj k2
  subst this
  have := (Gr.block n a h0 h1 h2).1
  rw [← hd.2.2, k1] at this
  injection this

/-- The times of a block, for a block with this number. -/
theorem same_block {r : RegInterval} (hr : r.Ok) {code : Int} {jbOf edge : Int → Int} {n0 : Int} (Gr : Grid r.secs code (r.time julianOf) jbOf edge n0)
    (hlow : ∀ n, n0 ≤ n → julianOf ⟨100, 1, 1⟩ ≤ jbOf n) {n a : Int} (h0 : n0 ≤ n) (h1 : edge n < a) (h2 : a ≤ edge (n + 1)) {x : Int} (hx : edge n0 < x) :
    SameBlock julianOf r a x ↔ edge n < x ∧ x ≤ edge (n + 1) := by
  obtain ⟨m, m1, m2, m3⟩ := Gr.find hx
  constructor
  · rintro ⟨d, e, hd, he, heq⟩
    rw [block_of hr Gr h0 h1 h2 hd, block_of hr Gr m1 m2 m3 he] at heq
    have : n = m := by
      rcases Int.lt_trichotomy n m with h | h | h
      · have := Gr.jb_mono h0 h; omega
      · exact h
      · have := Gr.jb_mono m1 h; omega
    subst this
    exact ⟨m2, m3⟩
  · rintro ⟨k1, k2⟩
    have day : ∀ y, edge n < y → y ≤ edge (n + 1) → ∃ d, DayOf julianOf r y d := by
      intro y y1 y2
      have hj := (Gr.block n y h0 y1 y2).2.1
      have := hlow n h0
      obtain ⟨d, hv, hy, he⟩ := date_of_day (j := (r.time julianOf y).1) (by omega)
      exact ⟨d, hv, hy, he⟩
    obtain ⟨d, hd⟩ := day a h1 h2
    obtain ⟨e, he⟩ := day x k1 k2
    exact ⟨d, e, hd, he, by rw [block_of hr Gr h0 h1 h2 hd, block_of hr Gr h0 k1 k2 he]⟩

theorem block_range (g : GoodSizes hdrSize maxHash binSize) {cfg : RegCfg UInt32} {q : Nat} (hcfg : SeriesCfg cfg q) {r : RegInterval} (hr : r.Ok) (hyr : r ≠ .period .year)
    {ps : List Bytes} (hps : SixParts ps) (hl : blockLength ps ≤ 392) (hold : ∀ e, ps[4]? = some e → ¬ OldMinute e) {past : List Op} {s : Eng} {xs : List (TsDesc × RegStore (List UInt32))}
    (h : SeriesHistory (create hdrSize maxHash binSize mul).1 (create hdrSize maxHash binSize mul).2 cfg r q ps past s xs)
    (hx : ∀ x ∈ xs, x.2.qualitySize = 0 ∧ x.2.flag ≠ 2) (hk : cfg.keepEmpty = false)
    {a0 : Int} (ha : InRange r a0) {d0 : Date} (hd : DayOf julianOf r a0 d0) (hlast : julianOf (r.block.start d0) ≤ julianOf ⟨9999, 12, 31⟩)
    {p : Bytes} (hp : NamesDay ps (julianOf (r.block.start d0)) p) :
    (ztsGetDateTimeRange (create hdrSize maxHash binSize mul).1 s p = some .notFound ∧ zread (create hdrSize maxHash binSize mul).1 s p = some none ∧
      ∀ x, InRange r x → SameBlock julianOf r a0 x → cfg.isMissing (regSeries cfg.isMissing cfg.missing (xs.map Prod.snd) x) = true) ∨
    ∃ a b, ztsGetDateTimeRange (create hdrSize maxHash binSize mul).1 s p = some (.range (r.time julianOf a) (r.time julianOf b)) ∧ (∃ R, zread (create hdrSize maxHash binSize mul).1 s p = some (some R)) ∧ a ≤ b ∧
      (∀ x d, InRange r x → DayOf julianOf r x d → (julianOf (r.block.start d0) < julianOf (r.block.start d) → b < x) ∧
        (julianOf (r.block.start d) < julianOf (r.block.start d0) → x < a)) ∧
      SameBlock julianOf r a0 a ∧ SameBlock julianOf r a0 b ∧
      cfg.isMissing (regSeries cfg.isMissing cfg.missing (xs.map Prod.snd) a) = false ∧ cfg.isMissing (regSeries cfg.isMissing cfg.missing (xs.map Prod.snd) b) = false ∧
      ∀ x, InRange r x → SameBlock julianOf r a0 x → cfg.isMissing (regSeries cfg.isMissing cfg.missing (xs.map Prod.snd) x) = false → a ≤ x ∧ x ≤ b := by
  obtain ⟨code, jbOf, edge, n0, Gr, hrange, hdate, hnib, htimes⟩ := grid_times r hr
  obtain ⟨G, f, I⟩ := history_inv g hcfg hps hl Gr hrange hdate hnib h
  have hc : ((create hdrSize maxHash binSize mul).1).OK := create_OK g
  have hlow := low_of hdate
  obtain ⟨n, n1, n2, n3⟩ := Gr.find (hrange a0 ha)
  have hj := block_of hr Gr n1 n2 n3 hd
  rw [hj] at hp hlast
  have hjl := hlow n n1
  obtain ⟨_, ⟨t, ht, rfl⟩, hps'⟩ := hp
  obtain ⟨d1, d2, d3, d4⟩ := dayName_spec hjl hlast
  rw [d1] at ht
  injection ht with ht
  subst ht
  obtain ⟨b1, b2, b3, b4⟩ := blk_facts (name_ok hps hl) hjl hlast
  have hno : ztsPathCompatible p = none := by
    refine notOld_none fun a1 a2 a3 hh => ?_
    obtain ⟨f', e', r', hh'⟩ := oldName_case hh (same_iff.mp hps')
    have hold' : ∀ e, (ps.set 3 (dayName (jbOf n)))[4]? = some e → ¬ OldMinute e := fun e he => hold e (by rwa [List.getElem?_set_ne (by decide)] at he)
    exact not_old_name b4 hold' hh'
  have hpl : p.length ≤ 392 := same_len (same_iff.mp hps').symm b2
  have hzp : zread (create hdrSize maxHash binSize mul).1 s p = zread (create hdrSize maxHash binSize mul).1 s (blk ps (jbOf n)) := by
    rw [zread_abs hc I.inv.inv hpl, zread_abs hc I.inv.inv b2, abs_live_same hc I.inv.inv b2 (same_iff.mp hps').symm]
  have hsim := I.sim n n1 hlast
  have hholds := I.holds n n1
  have htight := I.tight hx hk n n1
  have hdates := I.dates (fun x h => (hx x h).1) (htimes hyr) n n1 hlast
  have hcorr := fun x (hxr : InRange r x) => same_block hr Gr hlow n1 n2 n3 (hrange x hxr)
  have hpos : ∀ x, edge n < x → x ≤ edge (n + 1) → ∃ i : Nat, i < nibOf edge n ∧ x = edge n + 1 + i := by
    intro x x1 x2
    exact ⟨(x - edge n - 1).toNat, by unfold nibOf; omega, by omega⟩
  generalize regSeries cfg.isMissing cfg.missing (xs.map Prod.snd) = val at *
  generalize hf : f (jbOf n) = o at *
  cases o with
  | none =>
    left
    obtain ⟨k, hk1, hk2⟩ := not_found hc I.inv.inv hpl (hzp.trans hsim)
    constructor
    · unfold ztsGetDateTimeRange ztsGetFirstLastRecordTimes
      rw [zcheckName_plain hno, hk1]
      simp only [Option.map_some, Option.bind_some, if_pos hk2]
    · refine ⟨hzp.trans hsim, ?_⟩
      intro x hxr hsb
      obtain ⟨x1, x2⟩ := (hcorr x hxr).mp hsb
      obtain ⟨i, i1, rfl⟩ := hpos x x1 x2
      rw [← sameVal_missing (hholds.2 i i1), view_readValue (view_none hcfg.ok (nibOf edge n) q)]
      exact hcfg.ok.miss
  | some rc =>
    right
    obtain ⟨R, d, hz, hty, hrec, hP, _⟩ := hsim
    obtain ⟨k, info, hk1, hk2, hk3, hk4, hk5⟩ := found_info hc I.inv.inv hpl (hzp.trans hz)
    obtain ⟨S, V, qs, Q, hV, hqs⟩ := hholds.1
    have hview := view_some hcfg.ok hV q hqs
    obtain ⟨t1, t2⟩ := htight rc rfl
    obtain ⟨f1, f2⟩ := hdates rc R rfl hz
    have hV0 : 1 ≤ V.length := by
      match V, hV.ne with
      | _ :: _, _ => simp
    have hroom := hV.room
    have hstart := hV.start
    have hstop := hV.stop
    have hnib' : ((nibOf edge n : Nat) : Int) = edge (n + 1) - edge n := by
      unfold nibOf
      have := Gr.edgeLt n n1
      omega
    have eS : rc.startPos = ((S : Nat) : Int) := hstart
    have eE : rc.endPos = ((S + V.length - 1 : Nat) : Int) := by omega
    have hint : ∀ i : Nat, i < nibOf edge n → IsInt (r.time julianOf (edge n + 1 + i)).1 ∧ IsInt (r.time julianOf (edge n + 1 + i)).2 ∧ (r.time julianOf (edge n + 1 + i)).2 ≠ 0 := by
      intro i hi
      obtain ⟨s1, s2⟩ := time_secs r (edge n + 1 + i)
      obtain ⟨_, j1, j2⟩ := Gr.block n (edge n + 1 + i) n1 (by omega) (by omega)
      obtain ⟨dd, v1, v2, v3, v4⟩ := hdate n n1
      have hb := (block_days (b := r.block) v1 v2).1
      have h100 : -1000000 ≤ julianOf ⟨100, 1, 1⟩ := by decide +kernel
      have h9999 : julianOf ⟨9999, 12, 31⟩ ≤ 10000000 := by decide +kernel
      unfold IsInt
      refine ⟨⟨by omega, by omega⟩, ⟨by omega, by omega⟩, by omega⟩
    have hi1 := hint S (by omega)
    have hi2 := hint (S + V.length - 1) (by omega)
    have hbin : ¬ (toInt32 (binTypeWord s k) < 100 ∨ toInt32 (binTypeWord s k) > 199) := by
      rw [low_i32]
      generalize UInt32.ofNat (lo32 (binTypeWord s k)) = T at hk5
      have : T = 100 ∨ T = 105 := by
        rw [hty] at hk5
        unfold tsType at hk5
        unfold compatible at hk5
        have hmem : ∀ T : UInt32, T ∈ [(100 : UInt32), 105] → T = 100 ∨ T = 105 := by intro T hT; simpa using hT
        have hno : ∀ T : UInt32, ¬ ((if cfg.vsz = 1 then (100 : UInt32) else 105) ∈ [(110 : UInt32), 115]) := by
          intro _; split <;> decide
        rcases hk5 with h | h | h
        · rw [h]; split
          · exact Or.inl rfl
          · exact Or.inr rfl
        · exact hmem T h.1
        · exact absurd h.2 (hno T)
      rcases this with rfl | rfl <;> decide
    refine ⟨edge n + 1 + (S : Nat), edge n + 1 + (S + V.length - 1 : Nat), ?_, ⟨R, hzp.trans hz⟩, by omega, ?_, ?_, ?_, ?_, ?_, ?_⟩
    · unfold ztsGetDateTimeRange ztsGetFirstLastRecordTimes
      rw [zcheckName_plain hno, hk1, zreadInfoName_plain hno, hk3]
      simp only [Option.map_some, Option.bind_some]
      rw [if_neg (by rw [hk2]; decide), if_neg hbin]
      have q1 : info kinfoFirstDate = R.firstDate := by rw [← hk4]; rfl
      have q2 : info kinfoLastDate = R.lastDate := by rw [← hk4]; rfl
      rw [q1, q2, f1, f2, eS, eE, endOfDay_pack hi1.1 hi1.2.1 hi1.2.2, endOfDay_pack hi2.1 hi2.2.1 hi2.2.2]
    · intro x dx hxr hdx
      obtain ⟨k, k1, k2, k3⟩ := Gr.find (hrange x hxr)
      rw [hj, block_of hr Gr k1 k2 k3 hdx]
      constructor
      · intro hlt
        have hnk : n < k := by
          rcases Int.lt_trichotomy n k with h' | h' | h'
          · exact h'
          · subst h'; omega
          · have := Gr.jb_mono k1 h'; omega
        have := Gr.edge_le (m := n + 1) (n := k) (by omega) (by omega)
        omega
      · intro hlt
        have hkn : k < n := by
          rcases Int.lt_trichotomy k n with h' | h' | h'
          · exact h'
          · subst h'; omega
          · have := Gr.jb_mono n1 h'; omega
        have := Gr.edge_le (m := k + 1) (n := n) (by omega) (by omega)
        omega
    · exact (same_block hr Gr hlow n1 n2 n3 (by have := Gr.edge_le (Int.le_refl n0) n1; omega)).mpr ⟨by omega, by omega⟩
    · exact (same_block hr Gr hlow n1 n2 n3 (by have := Gr.edge_le (Int.le_refl n0) n1; omega)).mpr ⟨by omega, by omega⟩
    · rw [← sameVal_missing (hholds.2 S (by omega))]
      rw [eS] at t1
      exact t1
    · rw [← sameVal_missing (hholds.2 (S + V.length - 1) (by omega))]
      rw [eE] at t2
      exact t2
    · intro x hxr hsb hne
      obtain ⟨x1, x2⟩ := (hcorr x hxr).mp hsb
      obtain ⟨i, i1, rfl⟩ := hpos x x1 x2
      rw [← sameVal_missing (hholds.2 i i1), view_readValue hview] at hne
      unfold atPos at hne
      split at hne
      · omega
      · rw [hcfg.ok.miss] at hne; cases hne

/-- C69.  After any history of stores of a regular series, and of other calls on the file, hec_dss_tsGetDateTimeRange of
the pathname of a block (without `boolFullSet`) gives the times of its first and its last value that is not missing; it
fails if and only if all values of the block are missing.
Missing: yearly data (see C69_yearly_violation), series stored with quality, stores with flag 2, series with an offset
(the times are those of the standard times), pathnames with an old minute interval, `boolFullSet`, irregular series. -/
theorem C69_block_range_partial (g : GoodSizes hdrSize maxHash binSize) {cfg : RegCfg UInt32} {q : Nat} (hcfg : SeriesCfg cfg q) {r : RegInterval} (hr : r.Ok) (hyr : r ≠ .period .year)
    {ps : List Bytes} (hps : SixParts ps) (hl : blockLength ps ≤ 392) (hold : ∀ e, ps[4]? = some e → ¬ OldMinute e) {past : List Op} {s : Eng} {xs : List (TsDesc × RegStore (List UInt32))}
    (h : SeriesHistory (create hdrSize maxHash binSize mul).1 (create hdrSize maxHash binSize mul).2 cfg r q ps past s xs)
    (hx : ∀ x ∈ xs, x.2.qualitySize = 0 ∧ x.2.flag ≠ 2) (hk : cfg.keepEmpty = false)
    {a0 : Int} (ha : InRange r a0) {d0 : Date} (hd : DayOf julianOf r a0 d0) (hlast : julianOf (r.block.start d0) ≤ julianOf ⟨9999, 12, 31⟩)
    {p : Bytes} (hp : NamesDay ps (julianOf (r.block.start d0)) p) :
    (ztsGetDateTimeRange (create hdrSize maxHash binSize mul).1 s p = some .notFound ∧
      ∀ x, InRange r x → SameBlock julianOf r a0 x → cfg.isMissing (regSeries cfg.isMissing cfg.missing (xs.map Prod.snd) x) = true) ∨
    ∃ a b, ztsGetDateTimeRange (create hdrSize maxHash binSize mul).1 s p = some (.range (r.time julianOf a) (r.time julianOf b)) ∧
      SameBlock julianOf r a0 a ∧ SameBlock julianOf r a0 b ∧
      cfg.isMissing (regSeries cfg.isMissing cfg.missing (xs.map Prod.snd) a) = false ∧ cfg.isMissing (regSeries cfg.isMissing cfg.missing (xs.map Prod.snd) b) = false ∧
      ∀ x, InRange r x → SameBlock julianOf r a0 x → cfg.isMissing (regSeries cfg.isMissing cfg.missing (xs.map Prod.snd) x) = false → a ≤ x ∧ x ≤ b := by
  rcases block_range g hcfg hr hyr hps hl hold h hx hk ha hd hlast hp with ⟨k1, _, k2⟩ | ⟨a, b, k1, _, _, _, k2⟩
  · exact Or.inl ⟨k1, k2⟩
  · exact Or.inr ⟨a, b, k1, k2⟩

end Hec
