import Verif.Proofs.SeriesRec
import Verif.Props.Location
/-! The loops over the blocks of a regular time series, on the file and on a map from days to records, do the same. -/
namespace Hec
set_option linter.unusedSimpArgs false
set_option linter.unusedVariables false
open _root_.Spec (Op Store Step Steps run runs Allowed AllAllowed Reachable Leads join SixParts IsPart stored oddHeaders IsInt cells NoZero setField strings DescOk readHead
  MayStore Holds)
open Hec.Spec (sameUpToCase)

/-- The pathname of the block that starts on day `j`. -/
def blk (ps : List Bytes) (j : Int) : Bytes := join (ps.set 3 (dayName j))

/-- The record of a block, as `o` says. -/
def SimAt (c : Cfg) (cfg : RegCfg UInt32) (P : TsDesc → Prop) (s : Eng) (p : Bytes) : Option (RegRec UInt32) → Prop
  | none => zread c s p = some none
  | some r => ∃ R d, zread c s p = some (some R) ∧ R.dataType = tsType cfg ∧ tsRecord cfg (some R) = some (some r) ∧ P d ∧ (17 ≤ R.ih.length ∧ R.ih.length ≤ 200) ∧
      ∀ behind ca : Bytes, ca.length = 200 → ∀ T : TsHead,
        ztsInternalHeaderUnpack T (intsToBytes (R.ih.take 200) ++ behind) (min R.ih.length 200) ca = some (readHead d T)

/-- The dates in the info block of the record of a block are those of its first and last position, at the times `T`. -/
def DatesAt (c : Cfg) (s : Eng) (p : Bytes) (o : Option (RegRec UInt32)) (T : Int → Int × Int) : Prop :=
  ∀ r R, o = some r → zread c s p = some (some R) →
    R.firstDate = packInts (i32 (T r.startPos).1) (i32 (T r.startPos).2) ∧ R.lastDate = packInts (i32 (T r.endPos).1) (i32 (T r.endPos).2)

theorem tsReq_dates {d : TsDesc} {e : TsEnv} {path : Bytes} {type : UInt32} {r : RegRec UInt32} {w : Req} (h : tsReq d e path type r = some w) :
    w.firstDate = e.w.firstDate ∧ w.lastDate = e.w.lastDate := by
  unfold tsReq at h
  cases hp : ztsInternalHeaderPack d.strings e.carray (intsToBytes (headInts d r) ++ e.rest) with
  | none => rw [hp] at h; cases h
  | some x =>
    rw [hp] at h
    injection h with h
    subst h
    exact ⟨rfl, rfl⟩

theorem SimAt.mono {c : Cfg} {cfg : RegCfg UInt32} {P P' : TsDesc → Prop} {s : Eng} {p : Bytes} {o : Option (RegRec UInt32)} (h : SimAt c cfg P s p o)
    (hP : ∀ d, P d → P' d) : SimAt c cfg P' s p o := by
  cases o with
  | none => exact h
  | some r => obtain ⟨R, d, h1, h2, h3, h4, h5⟩ := h; exact ⟨R, d, h1, h2, h3, hP d h4, h5⟩

theorem SimAt.other {c : Cfg} {cfg : RegCfg UInt32} {P : TsDesc → Prop} {s s' : Eng} {p : Bytes} {o : Option (RegRec UInt32)} (h : SimAt c cfg P s p o)
    (hz : zread c s' p = zread c s p) : SimAt c cfg P s' p o := by
  cases o with
  | none => exact hz.trans h
  | some r => obtain ⟨R, d, h1, h2⟩ := h; exact ⟨R, d, hz.trans h1, h2⟩

theorem SimAt.read {c : Cfg} {cfg : RegCfg UInt32} {P : TsDesc → Prop} {s : Eng} {p : Bytes} {o : Option (RegRec UInt32)} (h : SimAt c cfg P s p o) :
    ∃ R, zread c s p = some R ∧ tsRecord cfg R = some o ∧ (R = none ↔ o = none) := by
  cases o with
  | none => exact ⟨none, h, rfl, by simp⟩
  | some r => obtain ⟨R, d, h1, h2, h3, _⟩ := h; exact ⟨some R, h1, h3, by simp⟩

theorem act_delete {cfg : RegCfg UInt32} {old : Option (RegRec UInt32)} {qsz nib pos : Nat} {vals quals : List (List UInt32)} {rb : Bool} {flag : Int}
    (h : regStoreBlock cfg old qsz nib pos vals quals rb flag = .delete) : old.isSome = true := by
  unfold regStoreBlock at h
  simp only at h
  cases ho : old.isSome with
  | true => rfl
  | false =>
    rw [ho] at h
    simp only [Bool.and_false, Bool.false_eq_true, if_false] at h
    repeat' split at h
    all_goals cases h

theorem HInv.delete_ok {c : Cfg} (hc : c.OK) {G : Ghost} {s : Eng} {past : List Op} (H : HInv c G s past) {p : Bytes} (hlen : p.length ≤ 392) {R : Rec}
    (hz : zread c s p = some (some R)) :
    ∃ G' s', zdeleteInternal c s p false = some (s', .ok) ∧ HInv c G' s' (past ++ [.delete p]) ∧
      (∀ q, q.length ≤ 392 → ¬ sameUpToCase p q → zread c s' q = zread c s q) ∧ zread c s' p = some none := by
  obtain ⟨G', s', res, hr, H', h1, h2⟩ := H.delete hc hlen
  obtain ⟨G2, s2, res2, hr2, S, _⟩ := H.step hc (op := .delete p) hlen
  have : run c s (.delete p) = some (s', res) := hr
  rw [this] at hr2
  injection hr2 with hr2; injection hr2 with hs hres; subst hs; subst hres
  have hst := S.step
  have hz' := zread_abs hc H.inv hlen
  have hres : res = .ok := by
    generalize abs c G s.disk = st at hst hz'
    generalize abs c G2 s'.disk = st' at hst
    cases hst with
    | delete _ _ _ => rfl
    | deleteMissing h0 => rw [hz', h0] at hz; simp at hz
  subst hres
  exact ⟨G', s', hr, H', h1, h2⟩

/-- One block. -/
theorem storeBlockF_ok {c : Cfg} (hc : c.OK) {cfg : RegCfg UInt32} (hvs : cfg.vsz = 1 ∨ cfg.vsz = 2) {P : TsDesc → Prop} {d : TsDesc} (hd : DescOk d) (hP : P d)
    {e : TsEnv} (hca : e.carray.length = 300) (hrest : e.rest.length = 732) {G : Ghost} {s : Eng} {past : List Op} (H : HInv c G s past)
    {p : Bytes} (hp0 : 0 < p.length) (hp : p.length ≤ 392) (hpm : mallocAndCopyPath p = p) (hdel : ∀ x ∈ past.flatMap Op.deletes, (x.length + 7) / 8 ≤ (p.length + 7) / 8)
    {old : Option (RegRec UInt32)} (hs : SimAt c cfg P s p old) {b : BlockWhen} {qsz nib pos : Nat} {vals quals : List (List UInt32)} {rb : Bool} {flag : Int} {q : Nat}
    (hok : RegOK cfg nib q ((regStoreBlock cfg old qsz nib pos vals quals rb flag).apply old)) (hq : q ≤ 1000) (hn : nib ≤ 86400) :
    ∃ G' s' more, storeBlockF c cfg d e s p b qsz nib pos vals quals rb flag = some (s', true) ∧ Leads c past s more s' ∧ HInv c G' s' (past ++ more) ∧
      SimAt c cfg P s' p ((regStoreBlock cfg old qsz nib pos vals quals rb flag).apply old) ∧
      (∀ x, x.length ≤ 392 → ¬ sameUpToCase p x → zread c s' x = zread c s x) ∧ (∀ op ∈ more, ∀ x ∈ op.paths ++ op.deletes, x = p) ∧
      ∀ T, (∀ r, regStoreBlock cfg old qsz nib pos vals quals rb flag = .write r → regDates cfg old b qsz nib pos vals quals rb flag = (T r.startPos, T r.endPos)) →
        DatesAt c s p old T → DatesAt c s' p ((regStoreBlock cfg old qsz nib pos vals quals rb flag).apply old) T := by
  obtain ⟨R, z1, z2, z3⟩ := hs.read
  unfold storeBlockF
  rw [z1, Option.bind_some, z2]
  simp only
  cases hact : regStoreBlock cfg old qsz nib pos vals quals rb flag with
  | keep =>
    refine ⟨G, s, [], rfl, leads_nil, by rw [List.append_nil]; exact H, hs, fun _ _ _ => rfl, by simp, fun _ _ h => h⟩
  | write r =>
    rw [hact] at hok
    obtain ⟨S, V, qs, Q, hr, hqs⟩ := hok
    obtain ⟨w, w1, w2, w3, w4, w5, w5', w6⟩ := tsReq_ok hd (e.dated (regDates cfg old b qsz nib pos vals quals rb flag)) hca hrest hvs hr (by omega) hn p
    rw [hpm] at w2
    have hal : Allowed c past s (.write w) := by
      refine ⟨by rw [w2]; exact hp0, by rw [w2]; exact hp, fun _ _ => Or.inl w4, fun _ => by rw [w2]; exact hdel⟩
    obtain ⟨G', s', j1, j2, j3, v, j4⟩ := H.put_in hc w hal (by
      rw [w2, w3, z1]
      intro R' hR'
      injection hR' with hR'
      subst hR'
      cases old with
      | none => exact absurd (z3.2 rfl) (by simp)
      | some o =>
        obtain ⟨R2, d2, y1, y2, _⟩ := hs
        rw [z1] at y1
        injection y1 with y1; injection y1 with y1
        rw [y1]; exact y2)
    rw [w2] at j3 j4
    refine ⟨G', s', [.write w], ?_, ⟨⟨hal, fun _ _ _ => trivial⟩, [.ok], by simp only [runs, run, j1]; rfl⟩, j2.mono (fun x hx => by rw [List.flatMap_append]; exact List.mem_append_left _ hx), ?_, j3, ?_, ?_⟩
    · simp only [w1, Option.bind_some, j1, Option.map_some]; rfl
    · exact ⟨stored w v, d, j4, w3, w5 v, hP, w5' v, w6 v⟩
    · simp [Op.paths, Op.deletes, w2]
    · intro T hT _ r' R' hr' hz'
      injection hr' with hr'
      subst hr'
      rw [j4] at hz'
      injection hz' with hz'; injection hz' with hz'
      subst hz'
      obtain ⟨t1, t2⟩ := tsReq_dates w1
      rw [hT r rfl] at t1 t2
      exact ⟨t1, t2⟩
  | delete =>
    have hold := act_delete hact
    obtain ⟨R', rfl⟩ : ∃ R', R = some R' := by
      cases R with
      | none => rw [z3.1 rfl] at hold; cases hold
      | some R' => exact ⟨R', rfl⟩
    obtain ⟨G', s', j1, j2, j3, j4⟩ := H.delete_ok hc hp z1
    refine ⟨G', s', [.delete p], ?_, leads_delete hp j1, j2, j4, j3, by simp [Op.paths, Op.deletes], fun T _ _ r' R' hr' _ => by cases hr'⟩
    simp only [j1, Option.map_some]; rfl

variable {i code : Int} {timeAt : Int → Int × Int} {jbOf edge : Int → Int} {n0 : Int}

/-- Blocks before the first one stored are left alone. -/
theorem storeLoop_frame {cfg : RegCfg UInt32} (G : Grid i code timeAt jbOf edge n0) {a b na nb : Int} {qsz : Nat} {vals quals : List (List UInt32)} {flag : Int} :
    ∀ (fuel : Nat) (n cur : Int) (f f' : RegFile UInt32), n0 ≤ n →
      storeLoop cfg (gridWindow i code timeAt jbOf a b na nb) qsz vals quals flag fuel (jbOf n) cur f = some f' → ∀ j, j < jbOf n → f' j = f j := by
  intro fuel
  induction fuel with
  | zero =>
    intro n cur f f' hn h j hj
    unfold storeLoop at h
    split at h
    · cases h
    · injection h with h; rw [h]
  | succ fuel ih =>
    intro n cur f f' hn h j hj
    unfold storeLoop at h
    split at h
    · simp only at h
      split at h
      · cases h
      · have hw2 : (gridWindow i code timeAt jbOf a b na nb).blockSize = code := rfl
        rw [hw2, G.next n hn] at h
        have := ih (n + 1) _ _ f' (by omega) h j (by have := G.jbLt n hn; omega)
        rw [this, if_neg (by omega)]
    · injection h with h; rw [h]

/-- What is assumed about the name of a series: its blocks have pathnames that fit. -/
structure NameOk (ps : List Bytes) : Prop where
  six : SixParts ps
  fits : ∀ x : Bytes, x.length = 9 → (join (ps.set 3 x)).length ≤ 392

theorem blk_facts {ps : List Bytes} (hn : NameOk ps) {j : Int} (h1 : julianOf ⟨100, 1, 1⟩ ≤ j) (h2 : j ≤ julianOf ⟨9999, 12, 31⟩) :
    0 < (blk ps j).length ∧ (blk ps j).length ≤ 392 ∧ mallocAndCopyPath (blk ps j) = blk ps j ∧ SixParts (ps.set 3 (dayName j)) := by
  obtain ⟨_, a2, a3, _⟩ := dayName_spec h1 h2
  have h6 := set_part hn.six a3 3
  refine ⟨?_, hn.fits _ a2, by have := C50_trailing_blanks _ h6 0; rwa [show List.replicate 0 (32 : UInt8) = [] from rfl, List.append_nil] at this, h6⟩
  unfold blk join; simp

theorem blk_length {ps : List Bytes} (hn : NameOk ps) {j k : Int} (h1 : julianOf ⟨100, 1, 1⟩ ≤ j) (h2 : j ≤ julianOf ⟨9999, 12, 31⟩)
    (k1 : julianOf ⟨100, 1, 1⟩ ≤ k) (k2 : k ≤ julianOf ⟨9999, 12, 31⟩) : (blk ps j).length = (blk ps k).length :=
  join_set_length hn.six (by rw [(dayName_spec h1 h2).2.1, (dayName_spec k1 k2).2.1])

theorem storeLoopF_sim {c : Cfg} (hc : c.OK) {cfg : RegCfg UInt32} (hvs : cfg.vsz = 1 ∨ cfg.vsz = 2) {P : TsDesc → Prop} {d : TsDesc} (hd : DescOk d) (hP : P d)
    {env : Int → TsEnv} (he : ∀ j, (env j).carray.length = 300 ∧ (env j).rest.length = 732) (m : Around) {ps : List Bytes} (hps : NameOk ps)
    (Gr : Grid i code timeAt jbOf edge n0) (hlow : ∀ n, n0 ≤ n → julianOf ⟨100, 1, 1⟩ ≤ jbOf n) (hnib : ∀ n, n0 ≤ n → edge (n + 1) - edge n ≤ 86400)
    {a b na nb : Int} (hnb : jbOf nb ≤ julianOf ⟨9999, 12, 31⟩) {qsz q : Nat} (hq : q ≤ 1000) {vals quals : List (List UInt32)} {flag : Int}
    (ha : edge n0 < a) (hnb0 : n0 ≤ nb) (hb1 : edge nb < a + vals.length - 1) :
    ∀ (fuel : Nat) (n cur : Int) (f f' : RegFile UInt32) (buf x : Bytes) (s : Eng) (G : Ghost) (past : List Op), n0 ≤ n →
      (n ≤ nb → 0 ≤ cur ∧ edge n < a + cur ∧ a + cur ≤ edge (n + 1) ∧ cur < vals.length) →
      storeLoop cfg (gridWindow i code timeAt jbOf a b na nb) qsz vals quals flag fuel (jbOf n) cur f = some f' →
      (∀ k, n0 ≤ k → RegOK cfg (nibOf edge k) q (f' (jbOf k))) →
      Holds buf (join (ps.set 3 x)) → IsPart x → buf.length = 393 → HInv c G s past →
      (∀ y ∈ past.flatMap Op.deletes, ∀ k, n0 ≤ k → jbOf k ≤ julianOf ⟨9999, 12, 31⟩ → (y.length + 7) / 8 ≤ ((blk ps (jbOf k)).length + 7) / 8) →
      (∀ k, n0 ≤ k → jbOf k ≤ julianOf ⟨9999, 12, 31⟩ → SimAt c cfg P s (blk ps (jbOf k)) (f (jbOf k))) →
      ∃ G' s' more, storeLoopF c cfg d env m (gridWindow i code timeAt jbOf a b na nb) qsz vals quals flag fuel buf (jbOf n) cur s = some (s', true) ∧
        Leads c past s more s' ∧ HInv c G' s' (past ++ more) ∧
        (∀ k, n0 ≤ k → jbOf k ≤ julianOf ⟨9999, 12, 31⟩ → SimAt c cfg P s' (blk ps (jbOf k)) (f' (jbOf k))) ∧
        (∀ y, y.length ≤ 392 → (∀ k, n0 ≤ k → jbOf k ≤ julianOf ⟨9999, 12, 31⟩ → ¬ sameUpToCase (blk ps (jbOf k)) y) → zread c s' y = zread c s y) ∧
        (∀ op ∈ more, ∀ y ∈ op.paths ++ op.deletes, ∃ k, n0 ≤ k ∧ jbOf k ≤ julianOf ⟨9999, 12, 31⟩ ∧ y = blk ps (jbOf k)) ∧
        (qsz = 0 → (∀ n k, n0 ≤ n → 0 ≤ k → incrementTime i k (jbOf n) i = timeAt (edge n + 1 + k)) →
          (∀ k, n0 ≤ k → jbOf k ≤ julianOf ⟨9999, 12, 31⟩ → DatesAt c s (blk ps (jbOf k)) (f (jbOf k)) (fun p => timeAt (edge k + 1 + p))) →
          ∀ k, n0 ≤ k → jbOf k ≤ julianOf ⟨9999, 12, 31⟩ → DatesAt c s' (blk ps (jbOf k)) (f' (jbOf k)) (fun p => timeAt (edge k + 1 + p))) := by
  intro fuel
  induction fuel with
  | zero =>
    intro n cur f f' buf x s G past hn hcur h hok hb hx hl H hdel hsim
    unfold storeLoop at h
    unfold storeLoopF
    split at h
    · cases h
    · injection h with h; subst h
      rename_i hlt
      rw [if_neg hlt]
      exact ⟨G, s, [], rfl, leads_nil, by rw [List.append_nil]; exact H, hsim, fun _ _ _ => rfl, by simp, fun _ _ h => h⟩
  | succ fuel ih =>
    intro n cur f f' buf x s G past hn hcur h hok hb hx hl H hdel hsim
    unfold storeLoop at h
    unfold storeLoopF
    split at h
    · rename_i hle
      rw [if_pos hle]
      simp only at h
      split at h
      · cases h
      · rename_i hbsp
        have hw2 : (gridWindow i code timeAt jbOf a b na nb).blockSize = code := rfl
        have hle' : jbOf n ≤ jbOf nb := hle
        have hj1 := hlow n hn
        have hj2 : jbOf n ≤ julianOf ⟨9999, 12, 31⟩ := by omega
        obtain ⟨f1, f2, f3, f4⟩ := blk_facts hps hj1 hj2
        have hset : (ps.set 3 x).set 3 (dayName (jbOf n)) = ps.set 3 (dayName (jbOf n)) := set_set ps x _
        obtain ⟨buf', b1, b2, b3, b4⟩ := blockName_spec m (set_part hps.six hx 3) hb hl hj1 hj2 (by rw [hset]; exact f2)
        rw [hset] at b3 b4
        have b4 : cstr buf' = blk ps (jbOf n) := b4
        rw [b1, Option.bind_some]
        simp only
        rw [if_neg hbsp, b4]
        rw [hw2, Gr.next n hn] at h ⊢
        rw [Gr.numberInBlock hn] at h ⊢
        have hnn : n ≤ nb := by
          apply Decidable.byContradiction
          intro hlt
          have := Gr.jb_mono hnb0 (show nb < n by omega)
          omega
        obtain ⟨c0, c1, c2, c3⟩ := hcur hnn
        have hbs : blockStartPosition (gridWindow i code timeAt jbOf a b na nb) (jbOf n) cur = a - edge n - 1 + cur := Gr.blockStart hn ha
        generalize hnumber : (if (vals.length : Int) - cur < edge (n + 1) - edge n - blockStartPosition (gridWindow i code timeAt jbOf a b na nb) (jbOf n) cur then (vals.length : Int) - cur else edge (n + 1) - edge n - blockStartPosition (gridWindow i code timeAt jbOf a b na nb) (jbOf n) cur) = number at h ⊢
        have hnext : n + 1 ≤ nb → 0 ≤ cur + number ∧ edge (n + 1) < a + (cur + number) ∧ a + (cur + number) ≤ edge (n + 1 + 1) ∧ cur + number < vals.length := by
          intro h1
          have e1 := Gr.edge_le (m := n + 1) (n := nb) (by omega) h1
          have e2 := Gr.edgeLt (n + 1) (by omega)
          rw [hbs] at hnumber
          by_cases hc : (vals.length : Int) - cur < edge (n + 1) - edge n - (a - edge n - 1 + cur)
          · rw [if_pos hc] at hnumber; omega
          · rw [if_neg hc] at hnumber; omega
        clear hnumber
        generalize blockStartPosition (gridWindow i code timeAt jbOf a b na nb) (jbOf n) cur = bsp at h hbs hbsp ⊢
        generalize (!((decide ((gridWindow i code timeAt jbOf a b na nb).startJulian < jbOf n) && decide ((gridWindow i code timeAt jbOf a b na nb).endJulian > jbOf (n + 1))) && (decide (flag = 0) || decide (flag = 2)))) = rb at h ⊢
        generalize hact : regStoreBlock cfg (f (jbOf n)) qsz (edge (n + 1) - edge n).toNat bsp.toNat ((vals.drop cur.toNat).take number.toNat) ((quals.drop cur.toNat).take number.toNat) rb flag = act at h
        have hfr := storeLoop_frame Gr fuel (n + 1) _ _ f' (by omega) h (jbOf n) (Gr.jbLt n hn)
        rw [if_pos rfl] at hfr
        have hnb1 := hnib n hn
        obtain ⟨G1, s1, more1, k1, k2, k3, k4, k5, k6, k7⟩ := storeBlockF_ok hc hvs hd hP (he (jbOf n)).1 (he (jbOf n)).2 H f1 f2 f3
          (fun y hy => hdel y hy n hn hj2) (hsim n hn hj2) (b := ⟨i, (timeAt a).1, (timeAt a).2, cur, jbOf n⟩) (qsz := qsz) (nib := (edge (n + 1) - edge n).toNat) (pos := bsp.toNat)
          (vals := (vals.drop cur.toNat).take number.toNat) (quals := (quals.drop cur.toNat).take number.toNat) (rb := rb) (flag := flag) (q := q)
          (by rw [hact, ← hfr]; exact hok n hn) hq (by omega)
        rw [show (⟨(gridWindow i code timeAt jbOf a b na nb).interval, (gridWindow i code timeAt jbOf a b na nb).startJulian, (gridWindow i code timeAt jbOf a b na nb).startSeconds, cur, jbOf n⟩ : BlockWhen) = ⟨i, (timeAt a).1, (timeAt a).2, cur, jbOf n⟩ from rfl]
        rw [k1, Option.bind_some]
        simp only [if_true]
        have hother : ∀ k, n0 ≤ k → jbOf k ≤ julianOf ⟨9999, 12, 31⟩ → jbOf k ≠ jbOf n → zread c s1 (blk ps (jbOf k)) = zread c s (blk ps (jbOf k)) := by
          intro k hk hk2 hne
          exact k5 _ (blk_facts hps (hlow k hk) hk2).2.1 (blocks_differ hps.six hj1 hj2 (hlow k hk) hk2 (fun e => hne e.symm))
        obtain ⟨G2, s2, more2, l1, l2, l3, l4, l5, l6, l7⟩ := ih (n + 1) (cur + number) _ f' buf' (dayName (jbOf n)) s1 G1 (past ++ more1) (by omega) hnext h hok b3
          (dayName_spec hj1 hj2).2.2.1 b2 k3 (by
            intro y hy k hk hk2
            rw [List.flatMap_append, List.mem_append] at hy
            rcases hy with hy | hy
            · exact hdel y hy k hk hk2
            · obtain ⟨op, ho1, ho2⟩ := List.mem_flatMap.1 hy
              rw [k6 op ho1 y (List.mem_append_right _ ho2), blk_length hps hj1 hj2 (hlow k hk) hk2]
              exact Nat.le_refl _) (by
            intro k hk hk2
            by_cases he : jbOf k = jbOf n
            · rw [if_pos he, he]
              rw [hact] at k4; exact k4
            · rw [if_neg he]
              exact (hsim k hk hk2).other (hother k hk hk2 he))
        refine ⟨G2, s2, more1 ++ more2, l1, leads_append k2 l2, by rw [← List.append_assoc]; exact l3, l4, ?_, ?_, ?_⟩
        · intro y hy hne
          rw [l5 y hy hne, k5 y hy (hne n hn hj2)]
        · intro op ho y hy
          rcases List.mem_append.1 ho with ho | ho
          · exact ⟨n, hn, hj2, k6 op ho y hy⟩
          · exact l6 op ho y hy
        · intro q1 q2 q3
          refine l7 q1 q2 (fun k hk hk2 => ?_)
          by_cases he : jbOf k = jbOf n
          · have hkn : k = n := by
              apply Decidable.byContradiction
              intro hne
              rcases Int.lt_or_gt_of_ne hne with h | h
              · have := Gr.jb_mono hk h; omega
              · have := Gr.jb_mono hn h; omega
            subst hkn
            rw [if_pos rfl]
            have := k7 (fun p => timeAt (edge k + 1 + p)) (by
              intro r hr
              subst q1
              refine regDates_eq (b := ⟨i, (timeAt a).1, (timeAt a).2, cur, jbOf k⟩) hr (fun p => timeAt (edge k + 1 + p)) (fun j => q2 k j hk (by omega)) (fun j => ?_)
              rw [show (⟨i, (timeAt a).1, (timeAt a).2, cur, jbOf k⟩ : BlockWhen).interval = i from rfl]
              have := Gr.inc a (cur + j) ha (by omega)
              simp only
              rw [this]
              congr 1
              omega) (q3 k hk hk2)
            rw [hact] at this; exact this
          · rw [if_neg he]
            intro r R hr hz
            rw [hother k hk hk2 he] at hz
            exact q3 k hk hk2 r R hr hz
    · injection h with h; subst h
      rename_i hlt
      rw [if_neg hlt]
      exact ⟨G, s, [], rfl, leads_nil, by rw [List.append_nil]; exact H, hsim, fun _ _ _ => rfl, by simp, fun _ _ h => h⟩

theorem readHead_twice (d : TsDesc) (T : TsHead) : readHead d (readHead d T) = readHead d T := by
  have hs : ∀ (f : Field) (x : Option Bytes), setField (setField f x) x = setField f x := by
    intro f x
    unfold setField
    by_cases h : f.allocated = true
    · rw [if_pos h, if_pos h]
    · rw [if_neg h]
      cases hx : _root_.Spec.shown x with
      | none => simp only; rw [if_neg h]
      | some y => simp only; rw [if_pos trivial]
  unfold readHead
  simp only [hs]
  congr 1
  split <;> rfl

theorem retrieveLoopF_sim {c : Cfg} {cfg : RegCfg UInt32} {P : TsDesc → Prop} {env : Int → Bytes × Bytes} (he : ∀ j, (env j).2.length = 200) (m : Around)
    {ps : List Bytes} (hps : NameOk ps) (Gr : Grid i code timeAt jbOf edge n0) (hlow : ∀ n, n0 ≤ n → julianOf ⟨100, 1, 1⟩ ≤ jbOf n)
    {a b na nb : Int} (hnb : jbOf nb ≤ julianOf ⟨9999, 12, 31⟩) {f : RegFile UInt32} {s : Eng}
    (hsim : ∀ k, n0 ≤ k → jbOf k ≤ julianOf ⟨9999, 12, 31⟩ → SimAt c cfg P s (blk ps (jbOf k)) (f (jbOf k))) (number : Int) :
    ∀ (fuel : Nat) (n cur : Int) (buf x : Bytes) (g : TsGot) (vals : List (List UInt32)), n0 ≤ n →
      retrieveLoop cfg (gridWindow i code timeAt jbOf a b na nb) number f fuel (jbOf n) cur g.values = some vals →
      Holds buf (join (ps.set 3 x)) → IsPart x → buf.length = 393 →
      ∃ got, retrieveLoopF c cfg m env (gridWindow i code timeAt jbOf a b na nb) number s fuel buf (jbOf n) cur g = some (some got) ∧ got.values = vals ∧
        (got.found = false → g.found = false ∧ got.head = g.head ∧ ∃ l, vals = g.values ++ l ∧ ∀ v ∈ l, v = cfg.missing) ∧
        (∀ d T, (∀ d', P d' → d' = d) → g.head = (if g.found then readHead d T else T) → got.head = (if got.found then readHead d T else T)) := by
  intro fuel
  induction fuel with
  | zero =>
    intro n cur buf x g vals hn h hb hx hl
    unfold retrieveLoop at h
    unfold retrieveLoopF
    split at h
    · cases h
    · injection h with h
      rename_i hlt
      rw [if_neg hlt]
      exact ⟨g, rfl, h, fun hf => ⟨hf, rfl, [], by rw [List.append_nil, h], by simp⟩, fun d T _ hg => hg⟩
  | succ fuel ih =>
    intro n cur buf x g vals hn h hb hx hl
    unfold retrieveLoop at h
    unfold retrieveLoopF
    split at h
    · rename_i hle
      rw [if_pos hle]
      simp only at h
      split at h
      · cases h
      · rename_i hbsp
        have hw2 : (gridWindow i code timeAt jbOf a b na nb).blockSize = code := rfl
        have hle' : jbOf n ≤ jbOf nb := hle
        have hj1 := hlow n hn
        have hj2 : jbOf n ≤ julianOf ⟨9999, 12, 31⟩ := by omega
        obtain ⟨f1, f2, f3, f4⟩ := blk_facts hps hj1 hj2
        have hset : (ps.set 3 x).set 3 (dayName (jbOf n)) = ps.set 3 (dayName (jbOf n)) := set_set ps x _
        obtain ⟨buf', b1, b2, b3, b4⟩ := blockName_spec m (set_part hps.six hx 3) hb hl hj1 hj2 (by rw [hset]; exact f2)
        rw [hset] at b3 b4
        have b4 : cstr buf' = blk ps (jbOf n) := b4
        rw [b1, Option.bind_some]
        simp only
        rw [if_neg hbsp, b4, f3]
        rw [hw2, Gr.next n hn] at h ⊢
        have hs := hsim n hn hj2
        obtain ⟨R, z1, z2, z3⟩ := hs.read
        rw [z1, Option.bind_some, z2]
        simp only
        generalize hv : (regReadBlock cfg (f (jbOf n)) 0 _ _).1 = v at h ⊢
        generalize (cur + _ : Int) = cur' at h ⊢
        obtain ⟨T', hT', hT2⟩ : ∃ T', headAfter g.head g.found R (env (jbOf n)).1 (env (jbOf n)).2 = some T' ∧
            (R = none → T' = g.head) ∧ ∀ d T, (∀ d', P d' → d' = d) → g.head = (if g.found then readHead d T else T) → T' = (if g.found || R.isSome then readHead d T else T) := by
          cases hf : f (jbOf n) with
          | none =>
            have := z3.2 hf; subst this
            exact ⟨g.head, rfl, fun _ => rfl, fun d T _ hg => by simpa using hg⟩
          | some r =>
            rw [hf] at hs
            obtain ⟨R2, d2, y1, y2, y3, y4, _, y5⟩ := hs
            rw [z1] at y1
            injection y1 with y1; subst y1
            simp only [headAfter, takeHead]
            by_cases hc : g.found = false ∨ g.head.units.val = none
            · rw [if_pos hc]
              refine ⟨readHead d2 g.head, y5 _ _ (he _) _, by simp, fun d T hd hg => ?_⟩
              rw [hd d2 y4, hg]
              cases g.found
              · simp
              · simp [readHead_twice]
            · rw [if_neg hc]
              refine ⟨g.head, rfl, by simp, fun d T hd hg => ?_⟩
              have : g.found = true := by cases hh : g.found with | true => rfl | false => exact absurd (Or.inl hh) hc
              rw [hg, this]; simp
        rw [hT', Option.bind_some]
        obtain ⟨got, l1, l2, l3, l4⟩ := ih (n + 1) cur' buf' (dayName (jbOf n)) ⟨g.values ++ v, T', g.found || R.isSome⟩ vals (by omega) h b3
          (dayName_spec hj1 hj2).2.2.1 b2
        refine ⟨got, l1, l2, fun hf => ?_, fun d T hd hg => l4 d T hd (hT2.2 d T hd hg)⟩
        obtain ⟨m1, m2, l, m3, m4⟩ := l3 hf
        simp only [Bool.or_eq_false_iff] at m1
        have hR : R = none := by cases R with | none => rfl | some _ => simp at m1
        refine ⟨m1.1, by rw [m2, hT2.1 hR], v ++ l, by rw [m3, List.append_assoc], fun w hw => ?_⟩
        rcases List.mem_append.1 hw with hw | hw
        · rw [← hv, z3.1 hR] at hw
          exact List.eq_of_mem_replicate hw
        · exact m4 w hw
    · injection h with h
      rename_i hlt
      rw [if_neg hlt]
      exact ⟨g, rfl, h, fun hf => ⟨hf, rfl, [], by rw [List.append_nil, h], by simp⟩, fun d T _ hg => hg⟩

end Hec
