import Verif.Proofs.ItsLoop
import Verif.Props.SeriesFile
/-!
C64: irregular time series in a file with other records: any history of stores, and of other calls on the file.
-/
namespace Hec
set_option linter.unusedSimpArgs false
set_option linter.unusedVariables false
open _root_.Spec (Date Block IrregStore seriesOf Increasing Op Store Step Steps run runs Allowed AllAllowed Reachable Leads GoodSizes create join SixParts IsPart
  stored oddHeaders IsInt DescOk readHead blockLength AboutSeries NamesSeries TsArrays Holds)
open Hec.Spec (sameUpToCase)

variable {hdrSize maxHash binSize : Nat} {mul : Nat → Nat}

/-- The conditions of a store: those of `IrregStoreOk`, values and flags of the sizes of the series, no time after the
year 9999, strings that fit in the header, and no pathname longer (in units of eight characters) than those of the series
was deleted before. -/
structure ItsStoreFits (cfg : ItsCfg) (b : Block) (g : Int) (ps : List Bytes) (past : List Op) (d : TsDesc) (x : IrregStore ItsVal) : Prop where
  ok : IrregStoreOk b g x
  sizes : ∀ e ∈ x.vals, e.val.1.length = cfg.vsz ∧ e.val.2.length = cfg.qsz
  last : ∀ e ∈ x.vals, x.at e ≤ julianOf ⟨9999, 12, 31⟩ * 86400 + 86400
  desc : DescOk d
  gran : d.granularity = g
  guard : ∀ p ∈ past.flatMap Op.deletes, (p.length + 7) / 8 ≤ (blockLength ps + 7) / 8

/-- The file `s`, after the calls `past`, in which the series was stored by the stores `xs` (and their descriptions):
at the start there is no block of the series in the file; then the series is stored, or calls are made that are not
about its blocks. -/
inductive ItsHistory (c : Cfg) (s0 : Eng) (cfg : ItsCfg) (b : Block) (g : Int) (ps : List Bytes) :
    List Op → Eng → List (TsDesc × IrregStore ItsVal) → Prop
  | start {past : List Op} {s : Eng} : Reachable c s0 past s → (∀ p, AboutSeries ps p → zread c s p = some none) → ItsHistory c s0 cfg b g ps past s []
  | store {past more : List Op} {s s' : Eng} {xs : List (TsDesc × IrregStore ItsVal)} {d : TsDesc} {x : IrregStore ItsVal}
      {env : Int → TsEnv} {m : Around} {old path : Bytes} : ItsHistory c s0 cfg b g ps past s xs → ItsStoreFits cfg b g ps past d x → TsArrays env →
      old.length = 393 → NamesSeries ps path → ztsStoreIrregF c cfg d env m old path b.code x.base x.vals s = some (s', true) →
      Leads c past s more s' → ItsHistory c s0 cfg b g ps (past ++ more) s' (xs ++ [(d, x)])
  | other {past more : List Op} {s s' : Eng} {xs : List (TsDesc × IrregStore ItsVal)} : ItsHistory c s0 cfg b g ps past s xs →
      Leads c past s more s' → (∀ op ∈ more, ∀ p ∈ op.paths, ¬ AboutSeries ps p) → ItsHistory c s0 cfg b g ps (past ++ more) s' xs

/-- Settings: floats or doubles, flags of no more than 4 words, times in seconds, minutes, hours or days. -/
structure ItsSettings (cfg : ItsCfg) (g : Int) : Prop where
  size : cfg.vsz = 1 ∨ cfg.vsz = 2
  quality : cfg.qsz ≤ 4
  gran : g = 1 ∨ g = 60 ∨ g = 3600 ∨ g = 86400

variable {code n0 : Int} {jbOf : Int → Int}

theorem years_len : ∀ (k : Nat) {y : Int}, 5 ≤ y → julianOf ⟨y + k, 1, 1⟩ - julianOf ⟨y, 1, 1⟩ ≤ 366 * k
  | 0, y, _ => by simp
  | k + 1, y, h => by
    have h1 := years_len k h
    have h2 := year_len (y := y + k) (by omega)
    have e : y + ((k + 1 : Nat) : Int) = y + k + 1 := by omega
    rw [e]
    omega

/-- No block has more than 400000000 units of time. -/
theorem block_len {b : Block} (G : BlockGrid b.code jbOf n0) (h100 : jbOf n0 = julianOf ⟨100, 1, 1⟩)
    (hd : ∀ n, n0 ≤ n → b.code < 4 → jbOf (n + 1) - jbOf n + 1 < 370) {n : Int} (hn : n0 ≤ n) :
    (jbOf (n + 1) - jbOf n) * 86400 ≤ 400000000 * unitOf b.code := by
  have hge := G.mono_le (m := n0) (n := n) (by omega) hn
  rw [h100] at hge
  obtain ⟨d, hv, hy, e⟩ := date_of_day hge
  have hlt := G.lt n hn
  have e1 := G.block n _ hn (Int.le_refl _) hlt
  have e2 := G.next n hn
  have e3 := C12_irreg_block_start b d hv (by omega)
  have e4 := C12_step_forward b d hv hy
  rw [e, e1] at e3
  rw [← e3, e2] at e4
  have hu := unit_cases b.code
  cases b with
  | day => have := hd n hn (by decide); simp only [Block.code] at *; omega
  | month => have := hd n hn (by decide); simp only [Block.code] at *; omega
  | year => have := hd n hn (by decide); simp only [Block.code] at *; omega
  | decade =>
    simp only [Block.start, Block.next, Block.code] at *
    have := years_len 10 (y := d.year / 10 * 10) (by omega)
    simp only [Int.cast_ofNat_Int] at this
    omega
  | century =>
    simp only [Block.start, Block.next, Block.code] at *
    have := years_len 100 (y := d.year / 100 * 100) (by omega)
    simp only [Int.cast_ofNat_Int] at this
    omega

theorem kind_of (b : Block) {g : Int} (hg : g = 1 ∨ g = 60 ∨ g = 3600 ∨ g = 86400) : Kind b.code (if b.code < 4 then 1 else 60) g := by
  refine ⟨?_, ?_, hg, rfl⟩ <;> cases b <;> decide

/-- The blocks that hold a series can be written. -/
theorem rec_ok {cfg : ItsCfg} {b : Block} {a g : Int} {S : Int → Option ItsVal} {f : IrregFile ItsVal} (h : FileOK a g b.code jbOf n0 S f)
    (hS : ∀ x v, S x = some v → v.1.length = cfg.vsz ∧ v.2.length = cfg.qsz)
    (hlen : ∀ n, n0 ≤ n → (jbOf (n + 1) - jbOf n) * 86400 ≤ 400000000 * unitOf b.code) {k : Int} {r : IrregRec ItsVal} (hk : n0 ≤ k)
    (hr : f (jbOf k) = some r) : ItsRecOk cfg r := by
  have hb := h k hk
  rw [hr] at hb
  obtain ⟨E, hne, hg, hlog⟩ := hb
  have hl := hlen k hk
  have hu := unit_cases b.code
  have hbound : ∀ e ∈ r.entries, 0 < e.time ∧ e.time ≤ 400000000 := by
    intro e he
    have := E.pos e he
    rcases hu with ⟨hu, _⟩ | ⟨hu, _⟩ <;> rw [hu] at this hl <;> omega
  refine ⟨hne, ?_, ?_, ?_, ?_⟩
  · intro e he
    have hp := E.pos e he
    have hb := hbound e he
    refine hS (jbOf k * 86400 + e.time * unitOf b.code) e.val ((E.val _ _ ?_ ?_).2 ⟨e, he, rfl, rfl⟩)
    · rcases hu with ⟨hu, _⟩ | ⟨hu, _⟩ <;> rw [hu] <;> omega
    · have := hp.2; rw [Int.sub_mul] at this; omega
  · intro e he
    have := hbound e he
    unfold IsInt; omega
  · cases hE : r.entries with
    | nil => simp
    | cons e l =>
      have hi := E.inc
      rw [hE] at hi
      have h1 := spaced (s := 1) (by omega) l e hi (fun x _ => ⟨x.time, by omega⟩)
      have hm : (e :: l).getLast?.getD e ∈ r.entries := by
        rw [hE, List.getLast?_eq_some_getLast (by simp)]
        exact List.getLast_mem (by simp)
      have h2 := hbound _ hm
      have h3 := hbound e (by rw [hE]; simp)
      simp only [List.length_cons]
      omega
  · have : 1 ≤ r.entries.length := by
      cases hE : r.entries with
      | nil => exact absurd hE hne
      | cons _ _ => simp
    omega

/-- The block of a value. -/
theorem time_block (G : BlockGrid code jbOf n0) {g base t : Int} (hg : g = 1 ∨ g = 60 ∨ g = 3600 ∨ g = 86400) (ht : IsTime base t)
    (hr : jbOf n0 * 86400 < base * 86400 + t * g) :
    ∃ n, n0 ≤ n ∧ ztsIrregGetBlockStart (cleanTime base t g).1 code = jbOf n ∧ jbOf n * 86400 < base * 86400 + t * g := by
  have hL : dayLengthOf g = unitsPerDay g := by rcases hg with h | h | h | h <;> subst h <;> decide
  have hL1 : 1 ≤ dayLengthOf g := by rcases hg with h | h | h | h <;> subst h <;> decide
  have hP := perDay_mul hg
  have hc := cleanTime_spec ht hL1
  simp only at hc
  rw [hL] at hc
  generalize cleanTime base t g = q at hc
  obtain ⟨h1, h2, h3⟩ := hc
  have h4 := congrArg (· * g) h3
  simp only [Int.add_mul] at h4
  rw [Int.mul_assoc, Int.mul_assoc, hP] at h4
  have h5 : 1 * g ≤ q.2 * g := Int.mul_le_mul_of_nonneg_right h1 (by omega)
  have h6 : q.2 * g ≤ unitsPerDay g * g := Int.mul_le_mul_of_nonneg_right h2 (by omega)
  rw [hP] at h6
  obtain ⟨n, hn, a1, b1⟩ := G.onto (j := q.1) (by omega)
  exact ⟨n, hn, G.block n _ hn a1 b1, by omega⟩

/-- What holds in a history. -/
structure ItsInv (c : Cfg) (cfg : ItsCfg) (b : Block) (g : Int) (ps : List Bytes) (jbOf : Int → Int) (n0 : Int) (past : List Op) (s : Eng)
    (xs : List (TsDesc × IrregStore ItsVal)) (G : Ghost) (f : IrregFile ItsVal) : Prop where
  inv : HInv c G s past
  holds : FileOK (if b.code < 4 then 1 else 60) g b.code jbOf n0 (seriesOf (xs.map Prod.snd)) f
  sizes : ∀ x v, seriesOf (xs.map Prod.snd) x = some v → v.1.length = cfg.vsz ∧ v.2.length = cfg.qsz
  sim : ∀ k, n0 ≤ k → jbOf k ≤ julianOf ⟨9999, 12, 31⟩ → ItsSimAt c cfg (fun d => d ∈ xs.map Prod.fst) s (blk ps (jbOf k)) (f (jbOf k))

theorem its_store_inv {c : Cfg} (hc : c.OK) {cfg : ItsCfg} {b : Block} {g : Int} (hcfg : ItsSettings cfg g) {ps : List Bytes} (hps : SixParts ps)
    (hl : blockLength ps ≤ 392) (Gr : BlockGrid b.code jbOf n0) (h100 : jbOf n0 = julianOf ⟨100, 1, 1⟩)
    (hd : ∀ n, n0 ≤ n → b.code < 4 → jbOf (n + 1) - jbOf n + 1 < 370)
    {past : List Op} {s : Eng} {xs : List (TsDesc × IrregStore ItsVal)} {G : Ghost} {f : IrregFile ItsVal} (I : ItsInv c cfg b g ps jbOf n0 past s xs G f)
    {d : TsDesc} {x : IrregStore ItsVal} (hx : ItsStoreFits cfg b g ps past d x) {env : Int → TsEnv} (he : TsArrays env) (m : Around) {old path : Bytes}
    (ho : old.length = 393) (hp : NamesSeries ps path) :
    ∃ G' f' s' more, ztsStoreIrregF c cfg d env m old path b.code x.base x.vals s = some (s', true) ∧
      Leads c past s more s' ∧ ItsInv c cfg b g ps jbOf n0 (past ++ more) s' (xs ++ [(d, x)]) G' f' ∧
      (∀ y, y.length ≤ 392 → ¬ AboutSeries ps y → zread c s' y = zread c s y) ∧ ∀ op ∈ more, ∀ y ∈ op.paths, AboutSeries ps y := by
  have hlow : ∀ n, n0 ≤ n → julianOf ⟨100, 1, 1⟩ ≤ jbOf n := fun n hn => by rw [← h100]; exact Gr.mono_le (by omega) hn
  obtain ⟨f', h1, h2⟩ := irregStoreAll_ok Gr h100 hd (kind_of b hcfg.gran) [x] f _ (by simpa using hx.ok) I.holds
  have hser : seriesOf ((xs ++ [(d, x)]).map Prod.snd) = x.apply (seriesOf (xs.map Prod.snd)) := by
    rw [List.map_append]; unfold seriesOf; rw [List.foldl_append]; rfl
  have h2 : FileOK (if b.code < 4 then 1 else 60) g b.code jbOf n0 (seriesOf ((xs ++ [(d, x)]).map Prod.snd)) f' := by rw [hser]; exact h2
  have hsz : ∀ t v, seriesOf ((xs ++ [(d, x)]).map Prod.snd) t = some v → v.1.length = cfg.vsz ∧ v.2.length = cfg.qsz := by
    intro t v hv
    rw [hser] at hv
    unfold IrregStore.apply at hv
    cases hf : x.vals.find? (fun e => decide (x.at e = t)) with
    | none => rw [hf] at hv; exact I.sizes t v hv
    | some e =>
      rw [hf] at hv
      injection hv with hv
      rw [← hv]
      exact hx.sizes e (List.mem_of_find?_eq_some hf)
  have h1 : ztsStoreIrreg f b.code g x.base x.vals = some f' := by
    simp only [irregStoreAll] at h1
    rw [hx.ok.gran] at h1
    cases hst : ztsStoreIrreg f b.code g x.base x.vals with
    | none => rw [hst] at h1; cases h1
    | some f2 => rw [hst] at h1; exact h1
  have hmono : ∀ k, n0 ≤ k → jbOf k ≤ julianOf ⟨9999, 12, 31⟩ → ItsSimAt c cfg (fun d' => d' ∈ (xs ++ [(d, x)]).map Prod.fst) s (blk ps (jbOf k)) (f (jbOf k)) :=
    fun k hk hk2 => (I.sim k hk hk2).mono (by intro d' hd'; simp at hd' ⊢; exact Or.inl hd')
  cases hvals : x.vals with
  | nil =>
    rw [hvals] at h1
    injection h1 with h1; subst h1
    refine ⟨G, f, s, [], rfl, leads_nil, ?_, fun _ _ _ => rfl, by simp⟩
    rw [List.append_nil]
    exact ⟨I.inv, h2, hsz, hmono⟩
  | cons e l =>
    have he' : e ∈ x.vals := by rw [hvals]; simp
    have hlast : x.vals.getLast?.getD e ∈ x.vals := by
      rw [hvals, List.getLast?_eq_some_getLast (by simp)]
      exact List.getLast_mem (by simp)
    have hat : ∀ y : Entry ItsVal, x.at y = x.base * 86400 + y.time * g := by
      intro y; unfold IrregStore.at; rw [hx.ok.gran]
    have hr : ∀ y ∈ x.vals, jbOf n0 * 86400 < x.base * 86400 + y.time * g := by
      intro y hy; rw [h100, ← hat]; exact hx.ok.inRange y hy
    obtain ⟨n1, hn1, e1, _⟩ := time_block Gr hcfg.gran (hx.ok.defined e he') (hr e he')
    obtain ⟨n2, hn2, e2, c2⟩ := time_block Gr hcfg.gran (hx.ok.defined _ hlast) (hr _ hlast)
    have hL := hx.last _ hlast
    rw [hat] at hL
    have hnE : jbOf n2 ≤ julianOf ⟨9999, 12, 31⟩ := by omega
    rw [hvals] at h1 e2
    unfold ztsStoreIrreg at h1
    simp only at h1
    rw [e1, e2] at h1
    obtain ⟨y, buf, b1, b2, b3, b4⟩ := buffer_ok hp ho hps.1
    have h1' : irregStoreLoop b.code d.granularity x.base (jbOf n2) ((jbOf n2 - jbOf n1).toNat + 1) (jbOf n1) (e :: l) f = some f' := by rw [hx.gran]; exact h1
    obtain ⟨G', s', more, k1, k2, k3, k4, k5, k6⟩ := itsLoopF_sim hc hcfg.size hcfg.quality (P := fun d' => d' ∈ (xs ++ [(d, x)]).map Prod.fst) hx.desc (by simp) he m (name_ok hps hl) Gr hlow hnE
      _ n1 _ f f' buf y s G past hn1 h1' (fun k r hk hr => rec_ok h2 hsz (fun n hn => block_len Gr h100 hd hn) hk hr) b4 b3 b2 I.inv (by
        intro z hz k hk hk2
        have := hx.guard z hz
        have e : (blk ps (jbOf k)).length = blockLength ps := block_length hps (dayName_spec (hlow k hk) hk2).2.1
        rw [e]; exact this) hmono
    refine ⟨G', f', s', more, ?_, k2, ⟨k3, h2, hsz, k4⟩, ?_, ?_⟩
    · unfold ztsStoreIrregF
      simp only
      rw [hx.gran, e1, e2, b1, Option.bind_some]
      exact k1
    · intro y hy hne
      refine k5 y hy (fun k hk hk2 hs => hne ?_)
      obtain ⟨_, a2, a3, _⟩ := dayName_spec (hlow k hk) hk2
      exact ⟨_, a2, a3, sameUp_symm hs⟩
    · intro op hop y hy
      obtain ⟨k, e1, e2, e3⟩ := k6 op hop y (List.mem_append_left _ hy)
      rw [e3]
      exact about_blk (hlow k e1) e2

theorem its_history_inv (gs : GoodSizes hdrSize maxHash binSize) {cfg : ItsCfg} {b : Block} {g : Int} (hcfg : ItsSettings cfg g) {ps : List Bytes} (hps : SixParts ps)
    (hl : blockLength ps ≤ 392) (Gr : BlockGrid b.code jbOf n0) (h100 : jbOf n0 = julianOf ⟨100, 1, 1⟩)
    (hd : ∀ n, n0 ≤ n → b.code < 4 → jbOf (n + 1) - jbOf n + 1 < 370) {past : List Op} {s : Eng} {xs : List (TsDesc × IrregStore ItsVal)}
    (h : ItsHistory (create hdrSize maxHash binSize mul).1 (create hdrSize maxHash binSize mul).2 cfg b g ps past s xs) :
    ∃ G f, ItsInv (create hdrSize maxHash binSize mul).1 cfg b g ps jbOf n0 past s xs G f := by
  have hc : ((create hdrSize maxHash binSize mul).1).OK := create_OK gs
  have hlow : ∀ n, n0 ≤ n → julianOf ⟨100, 1, 1⟩ ≤ jbOf n := fun n hn => by rw [← h100]; exact Gr.mono_le (by omega) hn
  induction h with
  | start hr hz =>
    obtain ⟨G, H⟩ := reach gs hr
    exact ⟨G, fun _ => none, H, fun n hn x _ _ => rfl, fun x v hv => by simp [seriesOf] at hv, fun k hk hk2 => hz _ (about_blk (hlow k hk) hk2)⟩
  | store h0 hx he ho hp hs hL ih =>
    obtain ⟨G, f, I⟩ := ih
    rename_i m _ _
    obtain ⟨G', f', s', more, k1, k2, k3, _⟩ := its_store_inv hc hcfg hps hl Gr h100 hd I hx he m ho hp
    rw [hs] at k1
    injection k1 with k1; injection k1 with k1 _; subst k1
    obtain ⟨G2, H2⟩ := leads_inv hc I.inv hL
    exact ⟨G2, f', H2, k3.holds, k3.sizes, k3.sim⟩
  | other h0 hL hne ih =>
    obtain ⟨G, f, I⟩ := ih
    obtain ⟨G2, H2⟩ := leads_inv hc I.inv hL
    refine ⟨G2, f, H2, I.holds, I.sizes, fun k hk hk2 => (I.sim k hk hk2).other ?_⟩
    refine I.inv.kept hc (blk_facts (name_ok hps hl) (hlow k hk) hk2).2.1 ⟨hL.1, hL.2, fun op hop p hp hs => hne op hop p hp ?_⟩ (same_iff.mpr (Same.refl _))
    obtain ⟨_, a2, a3, _⟩ := dayName_spec (hlow k hk) hk2
    exact ⟨_, a2, a3, hs⟩

/-- C64, first half.  A store of an irregular series succeeds, whatever was stored before, and leaves every record that is
not a block of the series alone: it is a sequence of calls about blocks of the series.
Missing: the stores excluded by `ItsStoreFits`, the replacing mode, and series already in the file in another form. -/
theorem C64_store_partial (gs : GoodSizes hdrSize maxHash binSize) {cfg : ItsCfg} (b : Block) {g : Int} (hcfg : ItsSettings cfg g)
    {ps : List Bytes} (hps : SixParts ps) (hl : blockLength ps ≤ 392) {past : List Op} {s : Eng} {xs : List (TsDesc × IrregStore ItsVal)}
    (h : ItsHistory (create hdrSize maxHash binSize mul).1 (create hdrSize maxHash binSize mul).2 cfg b g ps past s xs)
    {d : TsDesc} {x : IrregStore ItsVal} (hx : ItsStoreFits cfg b g ps past d x) {env : Int → TsEnv} (he : TsArrays env) (m : Around) {old path : Bytes}
    (ho : old.length = 393) (hp : NamesSeries ps path) :
    ∃ s' more, ztsStoreIrregF (create hdrSize maxHash binSize mul).1 cfg d env m old path b.code x.base x.vals s = some (s', true) ∧
      Leads (create hdrSize maxHash binSize mul).1 past s more s' ∧ (∀ op ∈ more, ∀ y ∈ op.paths, AboutSeries ps y) ∧
      ∀ y, y.length ≤ 392 → ¬ AboutSeries ps y → zread (create hdrSize maxHash binSize mul).1 s' y = zread (create hdrSize maxHash binSize mul).1 s y := by
  obtain ⟨jbOf, n0, Gr, h100, hd⟩ := block_grid b
  obtain ⟨G, f, I⟩ := its_history_inv gs hcfg hps hl Gr h100 hd h
  obtain ⟨G', f', s', more, k1, k2, _, k4, k5⟩ := its_store_inv (create_OK gs) hcfg hps hl Gr h100 hd I hx he m ho hp
  exact ⟨s', more, k1, k2, k5, k4⟩

/-- The instant of a value that was retrieved. -/
def ItsGot.at (r : ItsGot) (e : Entry ItsVal) : Int := r.base * 86400 + e.time * r.head.granularity

/-- C64, second half.  After any such history, retrieving a window gives, in order of time, the values and quality flags
the stores of the series leave in it, and nothing else.  If all stores gave the same description, so does the retrieve. -/
theorem C64_retrieve_partial (gs : GoodSizes hdrSize maxHash binSize) {cfg : ItsCfg} (b : Block) {g : Int} (hcfg : ItsSettings cfg g)
    {ps : List Bytes} (hps : SixParts ps) (hl : blockLength ps ≤ 392) {past : List Op} {s : Eng} {xs : List (TsDesc × IrregStore ItsVal)}
    (h : ItsHistory (create hdrSize maxHash binSize mul).1 (create hdrSize maxHash binSize mul).2 cfg b g ps past s xs)
    (w : TimeWindow) (base : Int) (hw : julianOf ⟨100, 1, 1⟩ ≤ w.startJulian ∧ w.startJulian ≤ w.endJulian ∧ w.endJulian ≤ julianOf ⟨9999, 12, 31⟩)
    (hsec : 1 ≤ w.startTimeSeconds ∧ w.startTimeSeconds ≤ 86400 ∧ 1 ≤ w.endTimeSeconds ∧ w.endTimeSeconds ≤ 86400)
    (hmin : b = .century → 60 ∣ w.startTimeSeconds)
    (m : Around) {env : Int → Bytes × Bytes} (he : ∀ j, (env j).2.length = 200) {old old2 path : Bytes} (ho : old.length = 393) (ho2 : old2.length = 393)
    (hp : NamesSeries ps path) (T : TsHead) :
    ∃ got, ztsRetrieveIrregF (create hdrSize maxHash binSize mul).1 cfg m env old old2 path b.code w base T s = some (some got) ∧
      Increasing got.entries ∧
      (∀ t v, (∃ e ∈ got.entries, got.at e = t ∧ e.val = v) ↔
        (seriesOf (xs.map Prod.snd) t = some v ∧ w.startJulian * 86400 + w.startTimeSeconds ≤ t ∧ t ≤ w.endJulian * 86400 + w.endTimeSeconds)) ∧
      (got.entries ≠ [] → got.found = true) ∧ ∀ d, (∀ x ∈ xs, x.1 = d) → d.granularity = g → got.found = true → got.head = readHead d T := by
  obtain ⟨jbOf, n0, Gr, h100, hd⟩ := block_grid b
  have hlow : ∀ n, n0 ≤ n → julianOf ⟨100, 1, 1⟩ ≤ jbOf n := fun n hn => by rw [← h100]; exact Gr.mono_le (by omega) hn
  obtain ⟨G, f, I⟩ := its_history_inv gs hcfg hps hl Gr h100 hd h
  have hy : julianOf ⟨100, 1, 1⟩ > UNDEFINED_TIME := by decide
  have hal : unitOf b.code ∣ w.startTimeSeconds := by
    unfold unitOf
    by_cases c : b.code < 5
    · rw [if_pos c]; exact Int.one_dvd _
    · rw [if_neg c]; exact hmin (by cases b <;> simp [Block.code] at c ⊢)
  have hT1 : IsTime w.startJulian w.startTimeSeconds := ⟨by omega, by omega⟩
  have hT2 : IsTime w.endJulian w.endTimeSeconds := ⟨by omega, by omega⟩
  obtain ⟨r, r1, r2, r3⟩ := retrieve_plain Gr (kind_of b hcfg.gran) I.holds w base T.granularity hsec.1 hsec.2.1 hsec.2.2.1 hsec.2.2.2
    (by rw [h100]; exact hw.1) hw.2.1 hT1 hT2 hal
  have c1 : cleanTime w.startJulian w.startTimeSeconds 1 = (w.startJulian, w.startTimeSeconds) := by
    unfold cleanTime
    rw [if_neg hT1.1, if_neg hT1.2, if_neg (by omega), if_pos ⟨rfl, by omega, by unfold SECS_IN_1_DAY; omega⟩]
  have c2 : cleanTime w.endJulian w.endTimeSeconds 1 = (w.endJulian, w.endTimeSeconds) := by
    unfold cleanTime
    rw [if_neg hT2.1, if_neg hT2.2, if_neg (by omega), if_pos ⟨rfl, by omega, by unfold SECS_IN_1_DAY; omega⟩]
  obtain ⟨n1, hn1, a1, b1⟩ := Gr.onto (j := w.startJulian) (by omega)
  obtain ⟨n2, hn2, a2, b2⟩ := Gr.onto (j := w.endJulian) (by omega)
  have hnE : jbOf n2 ≤ julianOf ⟨9999, 12, 31⟩ := by omega
  have q1 : ∀ s : RetrieveSetup, s.flag = 0 → setupSubsequent f b.code s = s := by
    intro s hs; unfold setupSubsequent; rw [if_neg (by omega)]
  have q2 : ∀ s : RetrieveSetup, s.flag = 0 → setupPrevious f b.code s = s := by
    intro s hs; unfold setupPrevious; rw [if_neg (by omega)]
  unfold ztsRetrieveIrreg at r1
  simp only at r1
  rw [c1, c2, ite_self, ite_self] at r1
  simp only at r1
  rw [Gr.block n1 _ hn1 a1 b1, Gr.block n2 _ hn2 a2 b2, q1 _ rfl, q2 _ rfl] at r1
  simp only at r1
  obtain ⟨y, buf, u1, u2, u3, u4⟩ := buffer_ok hp ho hps.1
  have hcs : cstr buf = join (ps.set 3 y) := cstr_holds u4 (join_nonzero _ (set_part hps u3 3).2)
  have hp2 : NamesSeries ps (join (ps.set 3 y)) := by
    refine ⟨y, u3, rfl, ?_⟩
    obtain ⟨tl, ht⟩ := u4
    have := congrArg List.length ht
    simp at this
    omega
  obtain ⟨y', buf2, v1, v2, v3, v4⟩ := buffer_ok hp2 ho2 hps.1
  unfold ztsRetrieveIrregF
  simp only
  rw [c1, c2, ite_self, ite_self]
  simp only
  rw [Gr.block n1 _ hn1 a1 b1, Gr.block n2 _ hn2 a2 b2, u1, Option.bind_some, hcs, v1, Option.bind_some,
    itsSizesF_sim m (name_ok hps hl) Gr hlow hnE I.sim _ n1 buf2 y' hn1 v4 v3 v2]
  cases hsz : irregSizes f b.code (jbOf n2) ((jbOf n2 - jbOf n1).toNat + 1) (jbOf n1) with
  | none => rw [hsz] at r1; cases r1
  | some mx =>
    rw [hsz, Option.bind_some] at r1
    rw [Option.bind_some]
    obtain ⟨got, k1, k2, k3, k4, k5, k6⟩ := itsRetrieveF_sim he m (name_ok hps hl) Gr hlow hnE I.sim _ n1 mx false _
      { T with granularity := retrieveGran T.granularity w.startJulian w.endJulian } buf y r hn1 r1 u4 u3 u2
    refine ⟨got, k1, by rw [k4]; exact r2, ?_, ?_, ?_⟩
    · intro t v
      rw [← r3]
      unfold ItsGot.at
      rw [k2, k3, k4]
    · intro hne
      cases hf : got.found with
      | true => rfl
      | false => exact absurd (by rw [k4]; exact (k5 hf).2.2) hne
    · intro d hd' hdg hf
      have := k6 d _ (by
        intro d' hd2
        obtain ⟨x, hx1, hx2⟩ := List.mem_map.1 hd2
        rw [← hx2]; exact hd' x hx1) rfl
      rw [this, if_pos hf]
      unfold readHead
      simp only
      have : d.granularity > 0 := by have := hcfg.gran; omega
      rw [if_pos this, if_pos this]

end Hec
