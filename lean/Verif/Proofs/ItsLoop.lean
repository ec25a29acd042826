import Verif.Proofs.ItsRec
import Verif.Proofs.SeriesLoop
/-! The loops over the blocks of an irregular time series, on the file and on a map from days to records, do the same. -/
namespace Hec
set_option linter.unusedSimpArgs false
set_option linter.unusedVariables false
open _root_.Spec (Date Block Op Store Step Steps run runs Allowed AllAllowed Reachable Leads join SixParts IsPart stored oddHeaders IsInt cells NoZero setField strings DescOk readHead
  MayStore Holds Increasing)
open Hec.Spec (sameUpToCase)

/-- The record of a block, as `o` says. -/
def ItsSimAt (c : Cfg) (cfg : ItsCfg) (P : TsDesc → Prop) (s : Eng) (p : Bytes) : Option (IrregRec ItsVal) → Prop
  | none => zread c s p = some none
  | some r => ∃ R d, zread c s p = some (some R) ∧ R.dataType = itsType cfg ∧ irregRecord cfg (some R) = some (some r) ∧ R.numberValues = r.entries.length ∧
      P d ∧ d.granularity = r.gran ∧ (17 ≤ R.ih.length ∧ R.ih.length ≤ 200) ∧
      ∀ behind ca : Bytes, ca.length = 200 → ∀ T : TsHead,
        ztsInternalHeaderUnpack T (intsToBytes (R.ih.take 200) ++ behind) (min R.ih.length 200) ca = some (readHead d T)

theorem ItsSimAt.mono {c : Cfg} {cfg : ItsCfg} {P P' : TsDesc → Prop} {s : Eng} {p : Bytes} {o : Option (IrregRec ItsVal)} (h : ItsSimAt c cfg P s p o)
    (hP : ∀ d, P d → P' d) : ItsSimAt c cfg P' s p o := by
  cases o with
  | none => exact h
  | some r => obtain ⟨R, d, h1, h2, h3, h4, h5, h6⟩ := h; exact ⟨R, d, h1, h2, h3, h4, hP d h5, h6⟩

theorem ItsSimAt.other {c : Cfg} {cfg : ItsCfg} {P : TsDesc → Prop} {s s' : Eng} {p : Bytes} {o : Option (IrregRec ItsVal)} (h : ItsSimAt c cfg P s p o)
    (hz : zread c s' p = zread c s p) : ItsSimAt c cfg P s' p o := by
  cases o with
  | none => exact hz.trans h
  | some r => obtain ⟨R, d, h1, h2⟩ := h; exact ⟨R, d, hz.trans h1, h2⟩

theorem ItsSimAt.read {c : Cfg} {cfg : ItsCfg} {P : TsDesc → Prop} {s : Eng} {p : Bytes} {o : Option (IrregRec ItsVal)} (h : ItsSimAt c cfg P s p o) :
    ∃ R, zread c s p = some R ∧ irregRecord cfg R = some o ∧ (R = none ↔ o = none) ∧
      R.map Rec.numberValues = o.map fun r => r.entries.length := by
  cases o with
  | none => exact ⟨none, h, rfl, by simp, rfl⟩
  | some r => obtain ⟨R, d, h1, h2, h3, h4, _⟩ := h; exact ⟨some R, h1, h3, by simp, by simp [h4]⟩

/-- One block. -/
theorem itsBlockF_ok {c : Cfg} (hc : c.OK) {cfg : ItsCfg} (hvs : cfg.vsz = 1 ∨ cfg.vsz = 2) (hqs : cfg.qsz ≤ 4) {P : TsDesc → Prop} {d : TsDesc} (hd : DescOk d) (hP : P d)
    {e : TsEnv} (hca : e.carray.length = 300) (hrest : e.rest.length = 732) {G : Ghost} {s : Eng} {past : List Op} (H : HInv c G s past)
    {p : Bytes} (hp0 : 0 < p.length) (hp : p.length ≤ 392) (hpm : mallocAndCopyPath p = p) (hdel : ∀ x ∈ past.flatMap Op.deletes, (x.length + 7) / 8 ≤ (p.length + 7) / 8)
    {old : Option (IrregRec ItsVal)} (hs : ItsSimAt c cfg P s p old) {bs jb next : Int} {new : List (Entry ItsVal)} {r : IrregRec ItsVal}
    (hst : irregStoreBlock (fun _ => old) bs jb next d.granularity new jb = some r) (hr : ItsRecOk cfg r) (hg : r.gran = d.granularity) :
    ∃ G' s' more, irregStoreBlockF c cfg d e s p bs jb next new = some (s', true) ∧ Leads c past s more s' ∧ HInv c G' s' (past ++ more) ∧
      ItsSimAt c cfg P s' p (some r) ∧
      (∀ x, x.length ≤ 392 → ¬ sameUpToCase p x → zread c s' x = zread c s x) ∧ ∀ op ∈ more, ∀ x ∈ op.paths ++ op.deletes, x = p := by
  obtain ⟨R, z1, z2, z3, _⟩ := hs.read
  unfold irregStoreBlockF
  rw [z1, Option.bind_some, z2]
  simp only
  rw [hst]
  simp only
  obtain ⟨w, w1, w2, w3, w4, w5, w6, w6', w7⟩ := itsReq_ok hd e hca hrest hvs hqs hr hg p
  rw [hpm] at w2
  have hal : Allowed c past s (.write w) := by
    refine ⟨by rw [w2]; exact hp0, by rw [w2]; exact hp, fun _ _ => Or.inl w4, fun _ => by rw [w2]; exact hdel⟩
  obtain ⟨G', s', j1, j2, j3, v, j4⟩ := H.put_in hc w hal (by
    rw [w2, w3, z1]
    intro R' hR'
    injection hR' with hR'
    subst hR'
    cases old with
    | none => exact absurd (z3.2 rfl) (by simp)
    | some o =>
      obtain ⟨R2, d2, y1, y2, _⟩ := hs
      rw [z1] at y1
      injection y1 with y1; injection y1 with y1
      rw [y1]; exact y2)
  rw [w2] at j3 j4
  refine ⟨G', s', [.write w], ?_, ⟨⟨hal, fun _ _ _ => trivial⟩, [.ok], by simp only [runs, run, j1]; rfl⟩, j2.mono (fun x hx => by rw [List.flatMap_append]; exact List.mem_append_left _ hx), ?_, j3, ?_⟩
  · simp only [w1, Option.bind_some, j1, Option.map_some]; rfl
  · exact ⟨stored w v, d, j4, w3, w5 v, w6, hP, hg.symm, w6' v, w7 v⟩
  · simp [Op.paths, Op.deletes, w2]

variable {bs : Int} {jbOf : Int → Int} {n0 : Int}

/-- Blocks before the first one stored are left alone. -/
theorem itsLoop_frame {α : Type} (G : BlockGrid bs jbOf n0) {g base E : Int} :
    ∀ (fuel : Nat) (n : Int) (vals : List (Entry α)) (f f' : IrregFile α), n0 ≤ n →
      irregStoreLoop bs g base E fuel (jbOf n) vals f = some f' → ∀ j, j < jbOf n → f' j = f j := by
  intro fuel
  induction fuel with
  | zero =>
    intro n vals f f' hn h j hj
    unfold irregStoreLoop at h
    split at h
    · cases h
    · injection h with h; rw [h]
  | succ fuel ih =>
    intro n vals f f' hn h j hj
    unfold irregStoreLoop at h
    split at h
    · simp only at h
      rw [G.next n hn] at h
      have := ih (n + 1) _ _ f' (by omega) h j (by have := G.lt n hn; omega)
      rw [this]
      split
      · unfold irregStoreBlock
        exact if_neg (by omega)
      · rfl
    · injection h with h; rw [h]

theorem irregStoreBlock_at {α : Type} (f : IrregFile α) (bs jb next g : Int) (new : List (Entry α)) :
    irregStoreBlock (fun _ => f jb) bs jb next g new jb = irregStoreBlock f bs jb next g new jb := rfl

theorem merge_ne {α : Type} {new stored : List (Entry α)} (h : new ≠ []) : (mergeBlocks new none stored none).map Prod.fst ≠ [] := by
  unfold mergeBlocks
  cases new with
  | nil => exact absurd rfl h
  | cons x l =>
    cases stored with
    | nil => simp [mergeLoop]
    | cons y l' =>
      simp only [List.length_cons]
      rw [show l.length + 1 + (l'.length + 1) = (l.length + l'.length + 1) + 1 by omega]
      simp only [mergeLoop]
      repeat' split
      all_goals simp

theorem write_some {α : Type} {bs jb next g : Int} {l : List (Entry α)} (h : l ≠ []) : ∃ r, irregWrite bs jb next g l = some r ∧ r.gran = g := by
  cases l with
  | nil => exact absurd rfl h
  | cons e l => exact ⟨_, rfl, rfl⟩

theorem store_some {α : Type} (old : Option (IrregRec α)) (bs jb next g : Int) {new : List (Entry α)} (h : new ≠ []) :
    ∃ r, irregStoreBlock (fun _ => old) bs jb next g new jb = some r ∧ r.gran = g := by
  unfold irregStoreBlock
  simp only [if_true]
  apply write_some
  cases old with
  | none => exact h
  | some r =>
    simp only
    split
    · exact h
    · exact merge_ne h

theorem itsLoopF_sim {c : Cfg} (hc : c.OK) {cfg : ItsCfg} (hvs : cfg.vsz = 1 ∨ cfg.vsz = 2) (hqs : cfg.qsz ≤ 4) {P : TsDesc → Prop} {d : TsDesc} (hd : DescOk d) (hP : P d)
    {env : Int → TsEnv} (he : ∀ j, (env j).carray.length = 300 ∧ (env j).rest.length = 732) (m : Around) {ps : List Bytes} (hps : NameOk ps)
    (Gr : BlockGrid bs jbOf n0) (hlow : ∀ n, n0 ≤ n → julianOf ⟨100, 1, 1⟩ ≤ jbOf n)
    {base nE : Int} (hnE : jbOf nE ≤ julianOf ⟨9999, 12, 31⟩) :
    ∀ (fuel : Nat) (n : Int) (vals : List (Entry ItsVal)) (f f' : IrregFile ItsVal) (buf x : Bytes) (s : Eng) (G : Ghost) (past : List Op), n0 ≤ n →
      irregStoreLoop bs d.granularity base (jbOf nE) fuel (jbOf n) vals f = some f' →
      (∀ k r, n0 ≤ k → f' (jbOf k) = some r → ItsRecOk cfg r) →
      Holds buf (join (ps.set 3 x)) → IsPart x → buf.length = 393 → HInv c G s past →
      (∀ y ∈ past.flatMap Op.deletes, ∀ k, n0 ≤ k → jbOf k ≤ julianOf ⟨9999, 12, 31⟩ → (y.length + 7) / 8 ≤ ((blk ps (jbOf k)).length + 7) / 8) →
      (∀ k, n0 ≤ k → jbOf k ≤ julianOf ⟨9999, 12, 31⟩ → ItsSimAt c cfg P s (blk ps (jbOf k)) (f (jbOf k))) →
      ∃ G' s' more, irregStoreLoopF c cfg d env m bs base (jbOf nE) fuel buf (jbOf n) vals s = some (s', true) ∧
        Leads c past s more s' ∧ HInv c G' s' (past ++ more) ∧
        (∀ k, n0 ≤ k → jbOf k ≤ julianOf ⟨9999, 12, 31⟩ → ItsSimAt c cfg P s' (blk ps (jbOf k)) (f' (jbOf k))) ∧
        (∀ y, y.length ≤ 392 → (∀ k, n0 ≤ k → jbOf k ≤ julianOf ⟨9999, 12, 31⟩ → ¬ sameUpToCase (blk ps (jbOf k)) y) → zread c s' y = zread c s y) ∧
        ∀ op ∈ more, ∀ y ∈ op.paths ++ op.deletes, ∃ k, n0 ≤ k ∧ jbOf k ≤ julianOf ⟨9999, 12, 31⟩ ∧ y = blk ps (jbOf k) := by
  intro fuel
  induction fuel with
  | zero =>
    intro n vals f f' buf x s G past hn h hok hb hx hl H hdel hsim
    unfold irregStoreLoop at h
    unfold irregStoreLoopF
    split at h
    · cases h
    · injection h with h; subst h
      rename_i hlt
      rw [if_neg hlt]
      exact ⟨G, s, [], rfl, leads_nil, by rw [List.append_nil]; exact H, hsim, fun _ _ _ => rfl, by simp⟩
  | succ fuel ih =>
    intro n vals f f' buf x s G past hn h hok hb hx hl H hdel hsim
    unfold irregStoreLoop at h
    unfold irregStoreLoopF
    split at h
    · rename_i hle
      rw [if_pos hle]
      simp only at h
      have hj1 := hlow n hn
      have hj2 : jbOf n ≤ julianOf ⟨9999, 12, 31⟩ := by omega
      obtain ⟨f1, f2, f3, f4⟩ := blk_facts hps hj1 hj2
      have hset : (ps.set 3 x).set 3 (dayName (jbOf n)) = ps.set 3 (dayName (jbOf n)) := set_set ps x _
      obtain ⟨buf', b1, b2, b3, b4⟩ := blockName_spec m (set_part hps.six hx 3) hb hl hj1 hj2 (by rw [hset]; exact f2)
      rw [hset] at b3 b4
      have b4 : cstr buf' = blk ps (jbOf n) := b4
      rw [b1, Option.bind_some]
      simp only
      rw [b4]
      rw [Gr.next n hn] at h ⊢
      generalize hnow : vals.takeWhile (fun e => decide (e.time - (jbOf n - base) * unitsPerDay d.granularity ≤ (jbOf (n + 1) - jbOf n) * unitsPerDay d.granularity)) = now at h ⊢
      have hfr := itsLoop_frame Gr fuel (n + 1) _ _ f' (by omega) h (jbOf n) (Gr.lt n hn)
      by_cases hnl : now.length > 0
      · rw [if_pos hnl] at h hfr ⊢
        generalize hconv : now.map (fun e => (⟨if bs = 5 then cdiv ((e.time - (jbOf n - base) * unitsPerDay d.granularity) * d.granularity) SECS_IN_1_MINUTE else (e.time - (jbOf n - base) * unitsPerDay d.granularity) * d.granularity, e.val⟩ : Entry ItsVal)) = conv at h hfr ⊢
        have hcne : conv ≠ [] := by
          rw [← hconv]
          intro hh
          have := congrArg List.length hh
          simp at this
          rw [this] at hnl; simp at hnl
        obtain ⟨r, hr, hrg⟩ := store_some (f (jbOf n)) bs (jbOf n) (jbOf (n + 1)) d.granularity hcne
        rw [← irregStoreBlock_at f, hr] at hfr
        obtain ⟨G1, s1, more1, k1, k2, k3, k4, k5, k6⟩ := itsBlockF_ok hc hvs hqs hd hP (he (jbOf n)).1 (he (jbOf n)).2 H f1 f2 f3
          (fun y hy => hdel y hy n hn hj2) (hsim n hn hj2) hr (hok n r hn hfr) hrg
        rw [k1, Option.bind_some]
        simp only [if_true]
        have hother : ∀ k, n0 ≤ k → jbOf k ≤ julianOf ⟨9999, 12, 31⟩ → jbOf k ≠ jbOf n → zread c s1 (blk ps (jbOf k)) = zread c s (blk ps (jbOf k)) := by
          intro k hk hk2 hne
          exact k5 _ (blk_facts hps (hlow k hk) hk2).2.1 (blocks_differ hps.six hj1 hj2 (hlow k hk) hk2 (fun e => hne e.symm))
        obtain ⟨G2, s2, more2, l1, l2, l3, l4, l5, l6⟩ := ih (n + 1) _ _ f' buf' (dayName (jbOf n)) s1 G1 (past ++ more1) (by omega) h hok b3
          (dayName_spec hj1 hj2).2.2.1 b2 k3 (by
            intro y hy k hk hk2
            rw [List.flatMap_append, List.mem_append] at hy
            rcases hy with hy | hy
            · exact hdel y hy k hk hk2
            · obtain ⟨op, ho1, ho2⟩ := List.mem_flatMap.1 hy
              rw [k6 op ho1 y (List.mem_append_right _ ho2), blk_length hps hj1 hj2 (hlow k hk) hk2]
              exact Nat.le_refl _) (by
            intro k hk hk2
            by_cases he : jbOf k = jbOf n
            · rw [he, ← irregStoreBlock_at f, hr]; exact k4
            · have : irregStoreBlock f bs (jbOf n) (jbOf (n + 1)) d.granularity conv (jbOf k) = f (jbOf k) := by
                unfold irregStoreBlock; exact if_neg he
              rw [this]
              exact (hsim k hk hk2).other (hother k hk hk2 he))
        refine ⟨G2, s2, more1 ++ more2, l1, leads_append k2 l2, by rw [← List.append_assoc]; exact l3, l4, ?_, ?_⟩
        · intro y hy hne
          rw [l5 y hy hne, k5 y hy (hne n hn hj2)]
        · intro op ho y hy
          rcases List.mem_append.1 ho with ho | ho
          · exact ⟨n, hn, hj2, k6 op ho y hy⟩
          · exact l6 op ho y hy
      · rw [if_neg hnl] at h ⊢
        rw [Option.bind_some]
        simp only [if_true]
        obtain ⟨G2, s2, more2, l1, l2, l3, l4, l5, l6⟩ := ih (n + 1) _ _ f' buf' (dayName (jbOf n)) s G past (by omega) h hok b3
          (dayName_spec hj1 hj2).2.2.1 b2 H hdel hsim
        exact ⟨G2, s2, more2, l1, l2, l3, l4, l5, l6⟩
    · injection h with h; subst h
      rename_i hlt
      rw [if_neg hlt]
      exact ⟨G, s, [], rfl, leads_nil, by rw [List.append_nil]; exact H, hsim, fun _ _ _ => rfl, by simp⟩

theorem itsSizesF_sim {c : Cfg} {cfg : ItsCfg} {P : TsDesc → Prop} (m : Around) {ps : List Bytes} (hps : NameOk ps)
    (Gr : BlockGrid bs jbOf n0) (hlow : ∀ n, n0 ≤ n → julianOf ⟨100, 1, 1⟩ ≤ jbOf n) {nE : Int} (hnE : jbOf nE ≤ julianOf ⟨9999, 12, 31⟩)
    {f : IrregFile ItsVal} {s : Eng} (hsim : ∀ k, n0 ≤ k → jbOf k ≤ julianOf ⟨9999, 12, 31⟩ → ItsSimAt c cfg P s (blk ps (jbOf k)) (f (jbOf k))) :
    ∀ (fuel : Nat) (n : Int) (buf x : Bytes), n0 ≤ n → Holds buf (join (ps.set 3 x)) → IsPart x → buf.length = 393 →
      irregSizesF c m bs (jbOf nE) s fuel buf (jbOf n) = irregSizes f bs (jbOf nE) fuel (jbOf n) := by
  intro fuel
  induction fuel with
  | zero => intro n buf x hn hb hx hl; rfl
  | succ fuel ih =>
    intro n buf x hn hb hx hl
    unfold irregSizesF irregSizes
    split
    · rename_i hle
      have hj1 := hlow n hn
      have hj2 : jbOf n ≤ julianOf ⟨9999, 12, 31⟩ := by omega
      obtain ⟨f1, f2, f3, f4⟩ := blk_facts hps hj1 hj2
      have hset : (ps.set 3 x).set 3 (dayName (jbOf n)) = ps.set 3 (dayName (jbOf n)) := set_set ps x _
      obtain ⟨buf', b1, b2, b3, b4⟩ := blockName_spec m (set_part hps.six hx 3) hb hl hj1 hj2 (by rw [hset]; exact f2)
      rw [hset] at b3 b4
      have b4 : cstr buf' = blk ps (jbOf n) := b4
      obtain ⟨R, z1, z2, z3, z4⟩ := (hsim n hn hj2).read
      rw [b1, Option.bind_some, b4, z1, Option.bind_some, Gr.next n hn, ih (n + 1) buf' _ (by omega) b3 (dayName_spec hj1 hj2).2.2.1 b2]
      congr 1
      funext k
      congr 1
      clear z2 z3
      generalize f (jbOf n) = o at z4
      cases R <;> cases o <;> simp at z4 ⊢
      rw [z4]
    · rfl

theorem itsRetrieveF_sim {c : Cfg} {cfg : ItsCfg} {P : TsDesc → Prop} {env : Int → Bytes × Bytes} (he : ∀ j, (env j).2.length = 200) (m : Around)
    {ps : List Bytes} (hps : NameOk ps) (Gr : BlockGrid bs jbOf n0) (hlow : ∀ n, n0 ≤ n → julianOf ⟨100, 1, 1⟩ ≤ jbOf n)
    {nE : Int} (hnE : jbOf nE ≤ julianOf ⟨9999, 12, 31⟩) {f : IrregFile ItsVal} {s : Eng} {w : TimeWindow}
    (hsim : ∀ k, n0 ≤ k → jbOf k ≤ julianOf ⟨9999, 12, 31⟩ → ItsSimAt c cfg P s (blk ps (jbOf k)) (f (jbOf k))) :
    ∀ (fuel : Nat) (n max : Int) (found : Bool) (base : Int) (T : TsHead) (buf x : Bytes) (r : Retrieved ItsVal), n0 ≤ n →
      irregRetrieveLoop f bs (jbOf nE) 0 w fuel (jbOf n) max found base T.granularity false = some r →
      Holds buf (join (ps.set 3 x)) → IsPart x → buf.length = 393 →
      ∃ got, irregRetrieveLoopF c cfg m env bs (jbOf nE) w s fuel buf (jbOf n) max found base T = some (some got) ∧
        got.base = r.base ∧ got.head.granularity = r.gran ∧ got.entries = r.entries ∧
        (got.found = false → found = false ∧ got.head = T ∧ r.entries = []) ∧
        (∀ d T0, (∀ d', P d' → d' = d) → T = (if found then readHead d T0 else T0) → got.head = (if got.found then readHead d T0 else T0)) := by
  intro fuel
  induction fuel with
  | zero =>
    intro n max found base T buf x r hn h hb hx hl
    unfold irregRetrieveLoop at h
    unfold irregRetrieveLoopF
    split at h
    · cases h
    · injection h with h; subst h
      rename_i hlt
      rw [if_neg hlt]
      exact ⟨_, rfl, rfl, rfl, rfl, fun hf => ⟨hf, rfl, rfl⟩, fun d T0 _ hg => hg⟩
  | succ fuel ih =>
    intro n max found base T buf x r hn h hb hx hl
    unfold irregRetrieveLoop at h
    unfold irregRetrieveLoopF
    split at h
    · rename_i hle
      rw [if_pos hle]
      simp only at h
      have hj1 := hlow n hn
      have hj2 : jbOf n ≤ julianOf ⟨9999, 12, 31⟩ := by omega
      obtain ⟨f1, f2, f3, f4⟩ := blk_facts hps hj1 hj2
      have hset : (ps.set 3 x).set 3 (dayName (jbOf n)) = ps.set 3 (dayName (jbOf n)) := set_set ps x _
      obtain ⟨buf', b1, b2, b3, b4⟩ := blockName_spec m (set_part hps.six hx 3) hb hl hj1 hj2 (by rw [hset]; exact f2)
      rw [hset] at b3 b4
      have b4 : cstr buf' = blk ps (jbOf n) := b4
      have hs := hsim n hn hj2
      rw [b1, Option.bind_some]
      simp only
      rw [b4, f3]
      rw [Gr.next n hn] at h ⊢
      cases hf : f (jbOf n) with
      | none =>
        rw [hf] at hs h
        have hs : zread c s (blk ps (jbOf n)) = some none := hs
        rw [hs, Option.bind_some]
        simp only [irregRecord]
        exact ih (n + 1) max found base T buf' _ r (by omega) h b3 (dayName_spec hj1 hj2).2.2.1 b2
      | some rec =>
        rw [hf] at hs h
        obtain ⟨R, d2, y1, y2, y3, y4, y5, y6, _, y7⟩ := hs
        rw [y1, Option.bind_some, y3]
        simp only at h ⊢
        have hsub : (decide (jbOf n = jbOf nE) && (decide ((0 : Int) = 2) || decide ((0 : Int) = 3))) = false := by simp
        rw [hsub] at h
        obtain ⟨T', hT', hTg, hTd, hTf⟩ : ∃ T', itsHead T found R.ih (env (jbOf n)).1 (env (jbOf n)).2 = some T' ∧
            T'.granularity = (if found then T.granularity else if rec.gran > 0 then rec.gran else T.granularity) ∧
            (∀ d T0, (∀ d', P d' → d' = d) → T = (if found then readHead d T0 else T0) → T' = readHead d T0) ∧ True := by
          unfold itsHead
          cases hfd : found with
          | false =>
            simp only [if_true, Bool.false_eq_true, if_false]
            refine ⟨readHead d2 T, y7 _ _ (he _) _, by unfold readHead; simp only [y6], fun d T0 hd hg => ?_, trivial⟩
            rw [hd d2 y5, hg]
          | true =>
            simp only [Bool.true_eq_false, if_false, if_true]
            exact ⟨T, rfl, rfl, fun d T0 hd hg => hg, trivial⟩
        rw [hT', Option.bind_some]
        rw [← hTg] at h
        generalize hl' : irregReadBlock rec bs (jbOf n) w max false false = l at h ⊢
        generalize hb' : (if found = true then base else if base < 0 then jbOf n else if T'.granularity = 1 ∧ base = 0 then jbOf n else base) = base' at h ⊢
        cases hrec : irregRetrieveLoop f bs (jbOf nE) 0 w fuel (jbOf (n + 1)) (max - l.length) true base' T'.granularity false with
        | none => rw [hrec] at h; cases h
        | some r' =>
          rw [hrec] at h
          injection h with h
          obtain ⟨got, l1, l2, l3, l4, l5, l6⟩ := ih (n + 1) _ true base' T' buf' _ r' (by omega) hrec b3 (dayName_spec hj1 hj2).2.2.1 b2
          rw [l1]
          refine ⟨_, rfl, by rw [← h]; exact l2, by rw [← h]; exact l3, by rw [← h]; simp only [l4], fun hfd => absurd (l5 hfd).1 (by simp), fun d T0 hd hg => ?_⟩
          exact l6 d T0 hd (by rw [if_pos rfl]; exact hTd d T0 hd hg)
    · injection h with h; subst h
      rename_i hlt
      rw [if_neg hlt]
      exact ⟨_, rfl, rfl, rfl, rfl, fun hf => ⟨hf, rfl, rfl⟩, fun d T0 _ hg => hg⟩

end Hec
