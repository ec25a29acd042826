import Verif.Proofs.SeriesLoop
import Verif.Proofs.BlockTimes
/-!
C63: regular time series in a file with other records: any history of stores, and of other calls on the file.
-/
namespace Hec
set_option linter.unusedSimpArgs false
set_option linter.unusedVariables false
open _root_.Spec (Date Block Period RegInterval RegStore regSeries SameValue Op Store Step Steps run runs Allowed AllAllowed Reachable Leads GoodSizes create join SixParts IsPart
  stored oddHeaders IsInt DescOk readHead blockLength AboutSeries NamesSeries TsArrays Holds)
open Hec.Spec (sameUpToCase)

variable {hdrSize maxHash binSize : Nat} {mul : Nat → Nat}

/-- The conditions of a store: those of `StoreOk`, a last day before the year 10000, strings that fit in the header, and
no pathname longer (in units of eight characters) than those of the series was deleted before. -/
structure StoreFits (cfg : RegCfg UInt32) (r : RegInterval) (q : Nat) (ps : List Bytes) (past : List Op) (d : TsDesc) (x : RegStore (List UInt32)) : Prop where
  ok : StoreOk cfg r q x
  last : (r.time julianOf (x.start + x.values.length - 1)).1 ≤ julianOf ⟨9999, 12, 31⟩
  desc : DescOk d
  guard : ∀ p ∈ past.flatMap Op.deletes, (p.length + 7) / 8 ≤ (blockLength ps + 7) / 8

/-- The file `s`, after the calls `past`, in which the series was stored by the stores `xs` (and their descriptions):
at the start there is no block of the series in the file; then the series is stored, or calls are made that are not
about its blocks. -/
inductive SeriesHistory (c : Cfg) (s0 : Eng) (cfg : RegCfg UInt32) (r : RegInterval) (q : Nat) (ps : List Bytes) :
    List Op → Eng → List (TsDesc × RegStore (List UInt32)) → Prop
  | start {past : List Op} {s : Eng} : Reachable c s0 past s → (∀ p, AboutSeries ps p → zread c s p = some none) → SeriesHistory c s0 cfg r q ps past s []
  | store {past more : List Op} {s s' : Eng} {xs : List (TsDesc × RegStore (List UInt32))} {d : TsDesc} {x : RegStore (List UInt32)}
      {env : Int → TsEnv} {m : Around} {old path : Bytes} : SeriesHistory c s0 cfg r q ps past s xs → StoreFits cfg r q ps past d x → TsArrays env →
      old.length = 393 → NamesSeries ps path →
      ztsStoreReg c cfg d env m old path r.secs (r.time julianOf x.start).1 (r.time julianOf x.start).2 x.qualitySize x.values x.quality x.flag s = some (s', true) →
      Leads c past s more s' → SeriesHistory c s0 cfg r q ps (past ++ more) s' (xs ++ [(d, x)])
  | other {past more : List Op} {s s' : Eng} {xs : List (TsDesc × RegStore (List UInt32))} : SeriesHistory c s0 cfg r q ps past s xs →
      Leads c past s more s' → (∀ op ∈ more, ∀ p ∈ op.paths, ¬ AboutSeries ps p) → SeriesHistory c s0 cfg r q ps (past ++ more) s' xs

/-- Settings: floats or doubles, and flags of no more than 1000 words. -/
structure SeriesCfg (cfg : RegCfg UInt32) (q : Nat) : Prop where
  ok : CfgOK cfg
  size : cfg.vsz = 1 ∨ cfg.vsz = 2
  quality : q ≤ 1000

theorem block_length {ps : List Bytes} (h : SixParts ps) {x : Bytes} (hx : x.length = 9) : (join (ps.set 3 x)).length = blockLength ps := by
  unfold blockLength
  rw [join_set h, join_set h]
  simp only [List.length_append, hx, List.length_nil]
  omega

theorem name_ok {ps : List Bytes} (h : SixParts ps) (hl : blockLength ps ≤ 392) : NameOk ps := ⟨h, fun x hx => by rw [block_length h hx]; exact hl⟩

theorem about_blk {ps : List Bytes} {j : Int} (h1 : julianOf ⟨100, 1, 1⟩ ≤ j) (h2 : j ≤ julianOf ⟨9999, 12, 31⟩) : AboutSeries ps (blk ps j) := by
  obtain ⟨_, a2, a3, _⟩ := dayName_spec h1 h2
  exact ⟨dayName j, a2, a3, same_iff.mpr (Same.refl _)⟩

theorem leads_inv {c : Cfg} (hc : c.OK) {G : Ghost} {s s' : Eng} {past more : List Op} (H : HInv c G s past) (h : Leads c past s more s') : ∃ G', HInv c G' s' (past ++ more) := by
  obtain ⟨hall, ress, hr⟩ := h
  obtain ⟨G', s2, ress2, k1, _, k3⟩ := HInv.runs hc more H hall
  have : some (s2, ress2) = some (s', ress) := k1.symm.trans hr
  injection this with this
  injection this with this _
  subst this
  exact ⟨G', k3⟩

theorem buffer_ok {ps : List Bytes} {path old : Bytes} (hp : NamesSeries ps path) (ho : old.length = 393) (h6 : ps.length = 6) :
    ∃ x buf, pathBuffer path old = some buf ∧ buf.length = 393 ∧ IsPart x ∧ Holds buf (join (ps.set 3 x)) := by
  obtain ⟨x, h1, h2, h3⟩ := hp
  have h0 : 0 < path.length := by rw [h2]; unfold join; simp
  obtain ⟨b, k1, k2, k3⟩ := stringCopy_spec old path path.length h0 (Nat.le_refl _) (by omega)
  refine ⟨x, b, by unfold pathBuffer; rw [k1]; rfl, by omega, h1, ?_⟩
  rw [← h2]
  rwa [List.take_of_length_le (Nat.le_refl _)] at k3

variable {i code : Int} {timeAt : Int → Int × Int} {jbOf edge : Int → Int} {n0 : Int}

theorem Grid.windows (G : Grid i code timeAt jbOf edge n0) {a b : Int} (ha : edge n0 < a) (hb : edge n0 < b) :
    ∃ na nb, n0 ≤ na ∧ n0 ≤ nb ∧ jbOf nb ≤ (timeAt b).1 ∧
      regWindow i (timeAt a).1 (timeAt a).2 (timeAt b).1 (timeAt b).2 = gridWindow i code timeAt jbOf a b na nb ∧
      edge na < a ∧ a ≤ edge (na + 1) ∧ edge nb < b := by
  obtain ⟨na, a1, a2, a3⟩ := G.find ha
  obtain ⟨nb, b1, b2, b3⟩ := G.find hb
  refine ⟨na, nb, a1, b1, (G.block nb b b1 b2 b3).2.1, ?_, a2, a3, b2⟩
  unfold regWindow gridWindow
  rw [G.std a ha, G.std b hb]
  simp only
  rw [(G.block na a a1 a2 a3).1, (G.block nb b b1 b2 b3).1]

theorem Grid.window (G : Grid i code timeAt jbOf edge n0) {a b : Int} (ha : edge n0 < a) (hb : edge n0 < b) :
    ∃ na nb, n0 ≤ na ∧ n0 ≤ nb ∧ jbOf nb ≤ (timeAt b).1 ∧
      regWindow i (timeAt a).1 (timeAt a).2 (timeAt b).1 (timeAt b).2 = gridWindow i code timeAt jbOf a b na nb := by
  obtain ⟨na, nb, h1, h2, h3, h4, _⟩ := G.windows ha hb
  exact ⟨na, nb, h1, h2, h3, h4⟩

/-- What holds in a history. -/
structure SeriesInv (c : Cfg) (cfg : RegCfg UInt32) (r : RegInterval) (q : Nat) (ps : List Bytes) (jbOf edge : Int → Int) (n0 : Int) (past : List Op) (s : Eng)
    (xs : List (TsDesc × RegStore (List UInt32))) (G : Ghost) (f : RegFile UInt32) : Prop where
  inv : HInv c G s past
  holds : FileHolds cfg q jbOf edge n0 f (regSeries cfg.isMissing cfg.missing (xs.map Prod.snd))
  sim : ∀ k, n0 ≤ k → jbOf k ≤ julianOf ⟨9999, 12, 31⟩ → SimAt c cfg (fun d => d ∈ xs.map Prod.fst) s (blk ps (jbOf k)) (f (jbOf k))
  tight : (∀ x ∈ xs, x.2.qualitySize = 0 ∧ x.2.flag ≠ 2) → cfg.keepEmpty = false → ∀ k, n0 ≤ k → Tight cfg (f (jbOf k))
  dates : (∀ x ∈ xs, x.2.qualitySize = 0) → (∀ n k, n0 ≤ n → 0 ≤ k → incrementTime r.secs k (jbOf n) r.secs = r.time julianOf (edge n + 1 + k)) →
    ∀ k, n0 ≤ k → jbOf k ≤ julianOf ⟨9999, 12, 31⟩ → DatesAt c s (blk ps (jbOf k)) (f (jbOf k)) (fun p => r.time julianOf (edge k + 1 + p))

theorem store_inv {c : Cfg} (hc : c.OK) {cfg : RegCfg UInt32} {q : Nat} (hcfg : SeriesCfg cfg q) {r : RegInterval} {ps : List Bytes} (hps : SixParts ps)
    (hl : blockLength ps ≤ 392) (Gr : Grid r.secs code (r.time julianOf) jbOf edge n0) (hrange : ∀ a, InRange r a → edge n0 < a)
    (hdate : ∀ n, n0 ≤ n → ∃ d : Date, d.Valid ∧ 100 ≤ d.year ∧ jbOf n = julianOf (r.block.start d) ∧ jbOf (n + 1) = julianOf (r.block.next d))
    (hnib : ∀ n, n0 ≤ n → edge (n + 1) - edge n ≤ 86400) (hlow : ∀ n, n0 ≤ n → julianOf ⟨100, 1, 1⟩ ≤ jbOf n)
    {past : List Op} {s : Eng} {xs : List (TsDesc × RegStore (List UInt32))} {G : Ghost} {f : RegFile UInt32} (I : SeriesInv c cfg r q ps jbOf edge n0 past s xs G f)
    {d : TsDesc} {x : RegStore (List UInt32)} (hx : StoreFits cfg r q ps past d x) {env : Int → TsEnv} (he : TsArrays env) (m : Around) {old path : Bytes}
    (ho : old.length = 393) (hp : NamesSeries ps path) :
    ∃ G' f' s' more,
      ztsStoreReg c cfg d env m old path r.secs (r.time julianOf x.start).1 (r.time julianOf x.start).2 x.qualitySize x.values x.quality x.flag s = some (s', true) ∧
      Leads c past s more s' ∧ SeriesInv c cfg r q ps jbOf edge n0 (past ++ more) s' (xs ++ [(d, x)]) G' f' ∧
      (∀ y, y.length ≤ 392 → ¬ AboutSeries ps y → zread c s' y = zread c s y) ∧ ∀ op ∈ more, ∀ y ∈ op.paths, AboutSeries ps y := by
  obtain ⟨f', h1, h2, h3⟩ := storeAll_holds hcfg.ok (q := q) Gr hrange hdate [x] f _ (by simpa using hx.ok) I.holds
  have hlen : 1 ≤ x.values.length := by
    have := hx.ok.nonempty
    rcases h : x.values with _ | ⟨v, vs⟩
    · exact absurd h this
    · simp
  have ha := hrange _ hx.ok.inRange
  simp only [storeAll] at h1
  cases hst : storeReg cfg r.secs (r.time julianOf x.start).1 (r.time julianOf x.start).2 x.qualitySize x.values x.quality x.flag f with
  | none => rw [hst] at h1; cases h1
  | some f2 =>
    rw [hst] at h1
    injection h1 with h1; subst h1
    obtain ⟨na, nb, w1, w2, w3, w4, w5, w6, w7⟩ := Gr.windows ha (b := x.start + x.values.length - 1) (by omega)
    have hw4 : regWindow r.secs (r.time julianOf x.start).1 (r.time julianOf x.start).2
        (incrementTime r.secs ((x.values.length : Int) - 1) (r.time julianOf x.start).1 (r.time julianOf x.start).2).1
        (incrementTime r.secs ((x.values.length : Int) - 1) (r.time julianOf x.start).1 (r.time julianOf x.start).2).2 =
        gridWindow r.secs code (r.time julianOf) jbOf x.start (x.start + x.values.length - 1) na nb := by
      rw [Gr.inc x.start _ ha (by omega), show x.start + ((x.values.length : Int) - 1) = x.start + x.values.length - 1 by omega, w4]
    unfold storeReg at hst
    rw [if_neg (by omega)] at hst
    simp only [hw4] at hst
    have hlast := hx.last
    have hnb : jbOf nb ≤ julianOf ⟨9999, 12, 31⟩ := by omega
    obtain ⟨y, buf, b1, b2, b3, b4⟩ := buffer_ok hp ho hps.1
    have hsb : (gridWindow r.secs code (r.time julianOf) jbOf x.start (x.start + x.values.length - 1) na nb).startBlock = jbOf na := rfl
    rw [hsb] at hst
    obtain ⟨G', s', more, k1, k2, k3, k4, k5, k6, k7⟩ := storeLoopF_sim hc hcfg.size (P := fun d' => d' ∈ (xs ++ [(d, x)]).map Prod.fst) hx.desc (by simp) he m (name_ok hps hl) Gr hlow hnib hnb
      hcfg.quality ha w2 w7 _ na 0 f f2 buf y s G past w1 (fun _ => by omega) hst (fun k hk => (h2 k hk).1) b4 b3 b2 I.inv (by
        intro z hz k hk hk2
        have := hx.guard z hz
        have e : (blk ps (jbOf k)).length = blockLength ps := block_length hps (dayName_spec (hlow k hk) hk2).2.1
        rw [e]; exact this) (fun k hk hk2 => (I.sim k hk hk2).mono (by intro d' hd'; simp at hd' ⊢; exact Or.inl hd'))
    refine ⟨G', f2, s', more, ?_, k2, ⟨k3, ?_, k4, ?_, ?_⟩, ?_, ?_⟩
    · unfold ztsStoreReg
      rw [if_neg (by omega)]
      simp only [hw4]
      rw [b1, Option.bind_some, hsb]
      exact k1
    · rw [List.map_append]
      unfold regSeries
      rw [List.foldl_append]
      exact h2
    · intro u1 u2
      refine h3 (fun y hy => ?_) u2 (I.tight (fun y hy => u1 y (List.mem_append_left _ hy)) u2)
      rw [List.mem_singleton.1 hy]
      exact u1 (d, x) (by simp)
    · intro u1 u2
      exact k7 (u1 (d, x) (by simp)) u2 (I.dates (fun y hy => u1 y (List.mem_append_left _ hy)) u2)
    · intro y hy hne
      refine k5 y hy (fun k hk hk2 hs => hne ?_)
      obtain ⟨_, a2, a3, _⟩ := dayName_spec (hlow k hk) hk2
      exact ⟨_, a2, a3, sameUp_symm hs⟩
    · intro op hop y hy
      obtain ⟨k, e1, e2, e3⟩ := k6 op hop y (List.mem_append_left _ hy)
      rw [e3]
      exact about_blk (hlow k e1) e2

theorem low_of {r : RegInterval} (hdate : ∀ n, n0 ≤ n → ∃ d : Date, d.Valid ∧ 100 ≤ d.year ∧ jbOf n = julianOf (r.block.start d) ∧ jbOf (n + 1) = julianOf (r.block.next d)) :
    ∀ n, n0 ≤ n → julianOf ⟨100, 1, 1⟩ ≤ jbOf n := by
  intro n hn
  obtain ⟨d, hv, hy, e1, _⟩ := hdate n hn
  rw [e1]
  have hs := Block.start_valid r.block d hv hy
  have hy2 : 100 ≤ (r.block.start d).year := by
    cases r.block <;> simp only [Block.start] <;> omega
  apply Decidable.byContradiction
  intro hlt
  have := julian_before hs.1 (jan1_valid 100) hs.2 (by decide) (by omega)
  unfold Date.before at this
  have h1 := hs.1
  unfold Date.Valid at h1
  simp only at this
  omega

theorem history_inv (g : GoodSizes hdrSize maxHash binSize) {cfg : RegCfg UInt32} {q : Nat} (hcfg : SeriesCfg cfg q) {r : RegInterval} {ps : List Bytes} (hps : SixParts ps)
    (hl : blockLength ps ≤ 392) (Gr : Grid r.secs code (r.time julianOf) jbOf edge n0) (hrange : ∀ a, InRange r a → edge n0 < a)
    (hdate : ∀ n, n0 ≤ n → ∃ d : Date, d.Valid ∧ 100 ≤ d.year ∧ jbOf n = julianOf (r.block.start d) ∧ jbOf (n + 1) = julianOf (r.block.next d))
    (hnib : ∀ n, n0 ≤ n → edge (n + 1) - edge n ≤ 86400) {past : List Op} {s : Eng} {xs : List (TsDesc × RegStore (List UInt32))}
    (h : SeriesHistory (create hdrSize maxHash binSize mul).1 (create hdrSize maxHash binSize mul).2 cfg r q ps past s xs) :
    ∃ G f, SeriesInv (create hdrSize maxHash binSize mul).1 cfg r q ps jbOf edge n0 past s xs G f := by
  have hc : ((create hdrSize maxHash binSize mul).1).OK := create_OK g
  have hlow := low_of hdate
  induction h with
  | start hr hz =>
    obtain ⟨G, H⟩ := reach g hr
    exact ⟨G, fun _ => none, H, holds_empty hcfg.ok q jbOf edge n0, fun k hk hk2 => hz _ (about_blk (hlow k hk) hk2), fun _ _ k _ r' hr' => (by cases hr'), fun _ _ k _ _ r' R' hr' _ => by cases hr'⟩
  | store h0 hx he ho hp hs hL ih =>
    obtain ⟨G, f, I⟩ := ih
    rename_i m _ _
    obtain ⟨G', f', s', more, k1, k2, k3, _⟩ := store_inv hc hcfg hps hl Gr hrange hdate hnib hlow I hx he m ho hp
    rw [hs] at k1
    injection k1 with k1; injection k1 with k1 _; subst k1
    obtain ⟨G2, H2⟩ := leads_inv hc I.inv hL
    exact ⟨G2, f', H2, k3.holds, k3.sim, k3.tight, k3.dates⟩
  | other h0 hL hne ih =>
    obtain ⟨G, f, I⟩ := ih
    obtain ⟨G2, H2⟩ := leads_inv hc I.inv hL
    have hsame := fun (k : Int) (hk : n0 ≤ k) (hk2 : jbOf k ≤ julianOf ⟨9999, 12, 31⟩) =>
      I.inv.kept hc (blk_facts (name_ok hps hl) (hlow k hk) hk2).2.1
        ⟨hL.1, hL.2, fun op hop p hp hs => hne op hop p hp ⟨_, (dayName_spec (hlow k hk) hk2).2.1, (dayName_spec (hlow k hk) hk2).2.2.1, hs⟩⟩ (same_iff.mpr (Same.refl _))
    refine ⟨G2, f, H2, I.holds, fun k hk hk2 => (I.sim k hk hk2).other (hsame k hk hk2), I.tight, fun u1 u2 k hk hk2 r' R' hr' hz => ?_⟩
    rw [hsame k hk hk2] at hz
    exact I.dates u1 u2 k hk hk2 r' R' hr' hz

/-- C63, first half.  A store of a regular series succeeds, whatever was stored before, and leaves every record that is
not a block of the series alone: it is a sequence of calls about blocks of the series.
Missing: the stores excluded by `StoreFits`, weekly data, and series already in the file in another form. -/
theorem C63_store_partial (g : GoodSizes hdrSize maxHash binSize) {cfg : RegCfg UInt32} {q : Nat} (hcfg : SeriesCfg cfg q) {r : RegInterval} (hr : r.Ok)
    {ps : List Bytes} (hps : SixParts ps) (hl : blockLength ps ≤ 392) {past : List Op} {s : Eng} {xs : List (TsDesc × RegStore (List UInt32))}
    (h : SeriesHistory (create hdrSize maxHash binSize mul).1 (create hdrSize maxHash binSize mul).2 cfg r q ps past s xs)
    {d : TsDesc} {x : RegStore (List UInt32)} (hx : StoreFits cfg r q ps past d x) {env : Int → TsEnv} (he : TsArrays env) (m : Around) {old path : Bytes}
    (ho : old.length = 393) (hp : NamesSeries ps path) :
    ∃ s' more,
      ztsStoreReg (create hdrSize maxHash binSize mul).1 cfg d env m old path r.secs (r.time julianOf x.start).1 (r.time julianOf x.start).2 x.qualitySize x.values x.quality x.flag s =
        some (s', true) ∧
      Leads (create hdrSize maxHash binSize mul).1 past s more s' ∧ (∀ op ∈ more, ∀ y ∈ op.paths, AboutSeries ps y) ∧
      ∀ y, y.length ≤ 392 → ¬ AboutSeries ps y → zread (create hdrSize maxHash binSize mul).1 s' y = zread (create hdrSize maxHash binSize mul).1 s y := by
  obtain ⟨code, jbOf, edge, n0, Gr, hrange, hdate, hnib⟩ := grid_of r hr
  obtain ⟨G, f, I⟩ := history_inv g hcfg hps hl Gr hrange hdate hnib h
  obtain ⟨G', f', s', more, k1, k2, _, k4, k5⟩ := store_inv (create_OK g) hcfg hps hl Gr hrange hdate hnib (low_of hdate) I hx he m ho hp
  exact ⟨s', more, k1, k2, k5, k4⟩

/-- C63, second half.  After any such history, retrieving a window gives one value for every standard time of it: the one
the stores of the series leave there.  If all stores gave the same description, so does the retrieve. -/
theorem C63_retrieve_partial (g : GoodSizes hdrSize maxHash binSize) {cfg : RegCfg UInt32} {q : Nat} (hcfg : SeriesCfg cfg q) {r : RegInterval} (hr : r.Ok)
    {ps : List Bytes} (hps : SixParts ps) (hl : blockLength ps ≤ 392) {past : List Op} {s : Eng} {xs : List (TsDesc × RegStore (List UInt32))}
    (h : SeriesHistory (create hdrSize maxHash binSize mul).1 (create hdrSize maxHash binSize mul).2 cfg r q ps past s xs)
    (a b : Int) (ha : InRange r a) (hab : a ≤ b) (hlast : (r.time julianOf b).1 ≤ julianOf ⟨9999, 12, 31⟩)
    (m : Around) {env : Int → Bytes × Bytes} (he : ∀ j, (env j).2.length = 200) {old path : Bytes} (ho : old.length = 393) (hp : NamesSeries ps path) (T : TsHead) :
    ∃ got, ztsRetrieveReg (create hdrSize maxHash binSize mul).1 cfg m env old path T r.secs (r.time julianOf a).1 (r.time julianOf a).2
        (r.time julianOf b).1 (r.time julianOf b).2 s = some (some got) ∧
      (got.values.length : Int) = b - a + 1 ∧
      (∀ k : Nat, k < got.values.length →
        SameValue cfg.isMissing ((got.values[k]?).getD []) (regSeries cfg.isMissing cfg.missing (xs.map Prod.snd) (a + k))) ∧
      (∀ k : Nat, a + k ≤ b → cfg.isMissing (regSeries cfg.isMissing cfg.missing (xs.map Prod.snd) (a + k)) = false → got.found = true) ∧
      (got.found = false → got.head = T) ∧ ∀ d, (∀ x ∈ xs, x.1 = d) → got.found = true → got.head = readHead d T := by
  obtain ⟨code, jbOf, edge, n0, Gr, hrange, hdate, hnib⟩ := grid_of r hr
  obtain ⟨G, f, I⟩ := history_inv g hcfg hps hl Gr hrange hdate hnib h
  obtain ⟨vals, h1, h2, h3⟩ := holds_retrieve hcfg.ok Gr (q := q) (hrange a ha) hab I.holds
  have hlow := low_of hdate
  have ha' := hrange a ha
  obtain ⟨na, nb, w1, w2, w3, w4⟩ := Gr.window ha' (b := b) (by omega)
  unfold retrieveReg at h1
  simp only [w4] at h1
  split at h1
  · cases h1
  · rename_i hnum
    have hsb : (gridWindow r.secs code (r.time julianOf) jbOf a b na nb).startBlock = jbOf na := rfl
    rw [hsb] at h1
    obtain ⟨y, buf, b1, b2, b3, b4⟩ := buffer_ok hp ho hps.1
    obtain ⟨got, k1, k2, k3, k4⟩ := retrieveLoopF_sim he m (name_ok hps hl) Gr hlow (by omega) I.sim _ _ na 0 buf y ⟨[], T, false⟩ vals w1 h1 b4 b3 b2
    subst k2
    have hmiss : got.found = false → ∀ v ∈ got.values, v = cfg.missing := by
      intro hf
      obtain ⟨_, _, l, e, hm⟩ := k3 hf
      rw [e]; simpa using hm
    refine ⟨got, ?_, h2, h3, ?_, fun hf => (k3 hf).2.1, ?_⟩
    · unfold ztsRetrieveReg
      simp only [w4]
      rw [if_neg hnum, b1, Option.bind_some, hsb]
      exact k1
    · intro k hk hv
      cases hf : got.found with
      | true => rfl
      | false =>
        have hkl : k < got.values.length := by omega
        have hs := h3 k hkl
        rw [List.getElem?_eq_getElem hkl, Option.getD_some, hmiss hf _ (List.getElem_mem hkl)] at hs
        have := sameValue_missing hs
        rw [hcfg.ok.miss] at this
        rw [← this] at hv
        cases hv
    · intro d hd hf
      have := k4 d T (by
        intro d' hd'
        obtain ⟨x, hx1, hx2⟩ := List.mem_map.1 hd'
        rw [← hx2]; exact hd x hx1) rfl
      rw [this, if_pos hf]

end Hec
