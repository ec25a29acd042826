import Verif.Proofs.Undelete
import Verif.Props.Catalog
import Verif.Proofs.Paired
/-! Undeleting everything that was deleted (C78). -/
namespace Hec
set_option synthInstance.maxSize 1000
set_option synthInstance.maxHeartbeats 200000
open _root_.Spec (Op Store Step Steps run runs Allowed AllAllowed Reachable GoodSizes create oddHeaders)
open Hec.Spec (sameUpToCase)

variable {c : Cfg} {G : Ghost} {s : Eng}

theorem deleted_status (st : Nat) : zcompareRecordStatus st REC_STATUS_DELETED = decide (st = REC_STATUS_DELETED) := by
  unfold zcompareRecordStatus REC_STATUS_DELETED REC_VALID REC_PRIMARY REC_ANY REC_ALIAS REC_DELETED REC_RENAMED
  by_cases h : st = 11
  · subst h; decide
  · rw [if_neg (by omega), if_neg (by omega), if_neg (by omega), if_neg (by omega)]
    simp [h]

theorem rowsOf_deleted (L : Chain) :
    rowsOf deletedOnes L = ((binsPlaced L).filter fun p => decide (p.1.st = REC_STATUS_DELETED)).map fun p => rowOf p.1 p.2 := by
  unfold rowsOf
  congr 1
  apply List.filter_congr
  intro p _
  unfold want
  rw [show deletedOnes.statusWanted = REC_STATUS_DELETED from rfl, deleted_status, show rowFound deletedOnes (rowOf p.1 p.2) = true from rfl, Bool.and_true]

/-- All bins, in the order of the walk or of the chains. -/
theorem bins_perm {L : Chain} (h2 : ∀ be ∈ L, ∃ h, h < c.maxHash ∧ be ∈ G.chain h) (h3 : L.Pairwise (fun x y => x.1 < y.1))
    (h4 : ∀ h, h < c.maxHash → ∀ be ∈ G.chain h, be ∈ L) (I : Inv c G s) (hi : 0 < c.isize) :
    L.Perm ((List.range c.maxHash).flatMap fun h => G.chain h) := by
  have n1 : L.Nodup := h3.imp (fun {a b} hab he => by subst he; omega)
  have n2 : ((List.range c.maxHash).flatMap fun h => G.chain h).Nodup := by
    unfold List.Nodup
    rw [List.pairwise_flatMap]
    constructor
    · intro h hh
      have := (I.w.chains h (List.mem_range.mp hh)).nodupB
      unfold List.Nodup at this
      rw [List.pairwise_map] at this
      exact this.imp (fun {a b} hab he => hab (by rw [he]))
    · refine List.Pairwise.imp_of_mem ?_ (List.nodup_range (n := c.maxHash))
      intro h1 h2 hh1 hh2 hne x hx y hy he
      subst he
      have a1 := (I.w.chains h1 (List.mem_range.mp hh1)).bins x hx 0 hi
      have a2 := (I.w.chains h2 (List.mem_range.mp hh2)).bins x hy 0 hi
      rw [a1] at a2
      injection a2 with a3 _
      exact hne a3
  rw [List.perm_ext_iff_of_nodup n1 n2]
  intro be
  rw [List.mem_flatMap]
  constructor
  · intro hb; obtain ⟨h, hh, hm⟩ := h2 be hb; exact ⟨h, List.mem_range.mpr hh, hm⟩
  · rintro ⟨h, hh, hm⟩; exact h4 h (List.mem_range.mp hh) be hm

theorem sum_one {n k : Nat} (hk : k < n) (f : Nat → Nat) (h0 : ∀ i, i < n → i ≠ k → f i = 0) : ((List.range n).map f).sum = f k := by
  induction n with
  | zero => omega
  | succ n ih =>
    rw [List.range_succ, List.map_append, List.sum_append]
    simp only [List.map_cons, List.map_nil, List.sum_cons, List.sum_nil, Nat.add_zero]
    by_cases h : k = n
    · subst h
      have : ((List.range k).map f).sum = 0 := by
        rw [List.sum_eq_zero_iff_forall_eq_nat]
        intro x hx
        obtain ⟨i, hi, rfl⟩ := List.mem_map.mp hx
        have := List.mem_range.mp hi
        exact h0 i (by omega) (by omega)
      omega
    · rw [ih (by omega) (fun i hi hne => h0 i (by omega) hne), h0 n (by omega) (by omega), Nat.add_zero]

/-- The rows of a pathname: as many as it has deleted records. -/
theorem deleted_count (hc : c.OK) {L : Chain} (h2 : ∀ be ∈ L, ∃ h, h < c.maxHash ∧ be ∈ G.chain h) (h3 : L.Pairwise (fun x y => x.1 < y.1))
    (h4 : ∀ h, h < c.maxHash → ∀ be ∈ G.chain h, be ∈ L) (I : Inv c G s) {p : Bytes} (hp : p.length ≤ 392) :
    (rowsOf deletedOnes L).countP (fun r => decide (Same p r.path)) = ((abs c G s.disk).trash p).length := by
  have hi := hc.isize
  have hperm := bins_perm h2 h3 h4 I (by omega)
  rw [rowsOf_deleted, List.countP_map, List.countP_filter]
  have e1 : (binsPlaced L).countP (fun a => ((fun r : CatRow => decide (Same p r.path)) ∘ fun p => rowOf p.1 p.2) a && decide (a.1.st = REC_STATUS_DELETED))
      = (centries L).countP fun e => decide (EMatch p REC_STATUS_DELETED e) := by
    rw [← binsPlaced_fst, List.countP_map]
    apply List.countP_congr
    intro x _
    simp only [Function.comp, Bool.and_eq_true, decide_eq_true_eq, EMatch_deleted]
    rfl
  rw [e1]
  have e2 : ∀ C : Chain, (centries C).countP (fun e => decide (EMatch p REC_STATUS_DELETED e)) =
      (C.map fun be => be.2.countP fun e => decide (EMatch p REC_STATUS_DELETED e)).sum := by
    intro C
    induction C with
    | nil => rfl
    | cons be C ih => obtain ⟨b, es⟩ := be; rw [centries_cons, List.countP_append, ih]; rfl
  rw [e2, (hperm.map _).sum_nat, List.map_flatMap]
  have e3 : (List.flatMap (fun a => (G.chain a).map fun be => be.2.countP fun e => decide (EMatch p REC_STATUS_DELETED e)) (List.range c.maxHash)).sum =
      ((List.range c.maxHash).map fun h => (centries (G.chain h)).countP fun e => decide (EMatch p REC_STATUS_DELETED e)).sum := by
    induction List.range c.maxHash with
    | nil => rfl
    | cons h l ih => simp only [List.flatMap_cons, List.sum_append, List.map_cons, List.sum_cons, ih, e2]
  rw [e3, sum_one (hc.tHash_lt p hp)]
  · simp only [abs, if_pos hp, List.length_map, List.countP_eq_length_filter]
  · intro h hh hne
    rw [List.countP_eq_zero]
    intro e he hm
    have hm := EMatch_deleted.mp (of_decide_eq_true hm)
    have := ((I.w.chains h hh).ok e he).hash
    rw [hc.tHash_same _ _ hm.1] at hne
    omega

/-- One pathname of each kind, and how often they are there. -/
theorem classes (l : List Bytes) : ∃ ps : List Bytes, ps.Pairwise (fun p q => ¬ Same p q) ∧ (∀ p ∈ ps, p ∈ l) ∧
    l.length = (ps.map fun p => l.countP fun q => decide (Same p q)).sum := by
  generalize hn : l.length = n
  induction n using Nat.strongRecOn generalizing l with
  | ind n ih =>
    cases l with
    | nil => exact ⟨[], List.Pairwise.nil, by simp, by simpa using hn.symm⟩
    | cons x l =>
      have hlt : (l.filter fun q => decide (¬ Same x q)).length < n := by
        have := List.length_filter_le (fun q => decide (¬ Same x q)) l
        simp only [List.length_cons] at hn
        omega
      obtain ⟨ps, p1, p2, p3⟩ := ih _ hlt (l.filter fun q => decide (¬ Same x q)) rfl
      have hx : ∀ p ∈ ps, ¬ Same x p := fun p hp => by
        have := List.mem_filter.mp (p2 p hp)
        exact of_decide_eq_true this.2
      refine ⟨x :: ps, List.pairwise_cons.mpr ⟨hx, p1⟩, ?_, ?_⟩
      · intro p hp
        rcases List.mem_cons.mp hp with rfl | hp
        · exact List.mem_cons_self ..
        · exact List.mem_cons_of_mem _ (List.mem_filter.mp (p2 p hp)).1
      · rw [← hn, List.map_cons, List.sum_cons, List.countP_cons_of_pos (by simpa using Same.refl x), List.length_cons]
        have e : (ps.map fun p => (x :: l).countP fun q => decide (Same p q)) =
            ps.map fun p => (l.filter fun q => decide (¬ Same x q)).countP fun q => decide (Same p q) := by
          apply List.map_congr_left
          intro p hp
          rw [List.countP_cons_of_neg (by simpa using fun h => hx p hp h.symm), List.countP_filter]
          apply List.countP_congr
          intro q _
          simp only [Bool.and_eq_true, decide_eq_true_eq]
          exact ⟨fun h => ⟨h, fun h' => hx p hp (h'.trans h.symm)⟩, fun h => h.1⟩
        rw [e, ← p3]
        have := List.length_eq_countP_add_countP (fun q => decide (Same x q)) (l := l)
        rw [List.countP_eq_length_filter (p := fun a => decide ¬ decide (Same x a) = true)] at this
        simp only [decide_eq_true_eq] at this
        omega

/-- The catalog of the deleted records: every one is there. -/
theorem deleted_rows (hc : c.OK) (I : Inv c G s) (hb : TrashBound (abs c G s.disk) s.hdr.numberDeletes) :
    ∃ rows, zcatalog c s deletedOnes = some rows ∧ (∀ r ∈ rows, r.path.length ≤ 392) ∧
      ∀ p : Bytes, p.length ≤ 392 → rows.countP (fun r => decide (Same p r.path)) = ((abs c G s.disk).trash p).length := by
  obtain ⟨L, h1, h2, h3, h4⟩ := walk_all hc I
  have hcnt := fun (p : Bytes) (hp : p.length ≤ 392) => deleted_count hc h2 h3 h4 I hp
  have hlen : ∀ r ∈ rowsOf deletedOnes L, r.path.length ≤ 392 := by
    intro r hr
    rw [rowsOf_deleted] at hr
    obtain ⟨p, hp, rfl⟩ := List.mem_map.mp hr
    exact (entry_of_mem hc I h2 (List.mem_filter.mp hp).1).2.2.len
  refine ⟨rowsOf deletedOnes L, ?_, hlen, hcnt⟩
  unfold zcatalog
  rw [h1, Option.map_some, List.take_of_length_le]
  obtain ⟨ps, p1, p2, p3⟩ := classes ((rowsOf deletedOnes L).map (·.path))
  have e : (ps.map fun p => ((rowsOf deletedOnes L).map (·.path)).countP fun q => decide (Same p q)) =
      ps.map fun p => ((abs c G s.disk).trash p).length := by
    apply List.map_congr_left
    intro p hp
    obtain ⟨r, hr, rfl⟩ := List.mem_map.mp (p2 p hp)
    rw [← hcnt _ (hlen r hr), List.countP_map]
    rfl
  rw [e, List.length_map] at p3
  have := hb ps p1
  have e2 : catListSize s deletedOnes = s.hdr.numberRecords + s.hdr.numberRenames + s.hdr.numberDeletes := by simp [catListSize, deletedOnes]
  omega

/-- Every deleted record is as it could be read before a call that deleted it. -/
def Origin (c : Cfg) (s0 : Eng) (past : List Op) (trash : Bytes → List Rec) : Prop :=
  ∀ q R, q.length ≤ 392 → R ∈ trash q → ∃ A op B sA ress, past = A ++ op :: B ∧ runs c s0 A = some (sA, ress) ∧
    (∃ p ∈ op.deletes, sameUpToCase p q) ∧ zread c sA q = some (some R)

theorem Origin.mono {s0 : Eng} {past : List Op} {t t' : Bytes → List Rec} (h : Origin c s0 past t) (op : Op)
    (hs : ∀ q R, R ∈ t' q → R ∈ t q) : Origin c s0 (past ++ [op]) t' := by
  intro q R hq hR
  obtain ⟨A, op', B, sA, ress, h1, h2⟩ := h q R hq (hs q R hR)
  exact ⟨A, op', B ++ [op], sA, ress, by rw [h1]; simp, h2⟩

theorem live_same (hc : c.OK) {G : Ghost} {d : Disk} {p q : Bytes} (h : Same p q) : (abs c G d).live p = (abs c G d).live q := by
  simp only [abs]
  have hl : p.length ≤ 392 ↔ q.length ≤ 392 := ⟨same_len h, same_len h.symm⟩
  by_cases h1 : p.length ≤ 392
  · rw [if_pos h1, if_pos (hl.mp h1), hc.tHash_same _ _ h]
    congr 2
    funext e
    apply decide_eq_decide.mpr
    unfold EMatch
    exact ⟨fun hh => ⟨h.symm.trans hh.1, hh.2⟩, fun hh => ⟨h.trans hh.1, hh.2⟩⟩
  · rw [if_neg h1, if_neg (fun hq => h1 (hl.mpr hq))]

theorem origin_delete (hc : c.OK) {s0 : Eng} {past : List Op} {ress : List Res} {G : Ghost} {s : Eng} (I : Inv c G s) {st' : Store} {p : Bytes} {op : Op} {res : Res}
    (hp : p ∈ op.deletes) (hr : runs c s0 past = some (s, ress)) (h : Step (abs c G s.disk) (.delete p) res st')
    (ho : Origin c s0 past (abs c G s.disk).trash) : Origin c s0 (past ++ [op]) st'.trash := by
  have hL : ∀ q, Same p q → (abs c G s.disk).live p = (abs c G s.disk).live q := fun q h => live_same hc h
  have hT : ∀ q, Same p q → (abs c G s.disk).trash p = (abs c G s.disk).trash q := fun q h => trash_same hc h
  have hz := fun (q : Bytes) (hq : q.length ≤ 392) => zread_abs hc I hq
  generalize abs c G s.disk = st at h ho hL hT hz
  cases h with
  | delete h1 h2 h3 =>
    rename_i R
    intro q R' hq hR'
    by_cases hs : sameUpToCase p q
    · rw [(h3 q).1 hs] at hR'
      rcases List.mem_cons.mp hR' with rfl | hR'
      · exact ⟨past, op, [], s, ress, rfl, hr, ⟨p, hp, hs⟩, by rw [hz q hq, ← hL q (same_iff.mp hs), h1]⟩
      · exact ho.mono op (t' := st.trash) (fun _ _ h => h) q R' hq (by rw [← hT q (same_iff.mp hs)]; exact hR')
    · rw [(h3 q).2 hs] at hR'
      exact ho.mono op (t' := st.trash) (fun _ _ h => h) q R' hq hR'
  | deleteMissing h => exact ho.mono op fun _ _ h => h

theorem drop_mem {f f' : Bytes → List Rec} (h : _root_.Spec.DropOne f f') (q : Bytes) (R : Rec) (hR : R ∈ f' q) : R ∈ f q := by
  obtain ⟨t, i, h⟩ := h
  by_cases hs : sameUpToCase t q
  · rw [(h q).1 hs] at hR; exact List.mem_of_mem_eraseIdx hR
  · rw [(h q).2 hs] at hR; exact hR

theorem step_origin (hc : c.OK) {s0 : Eng} {past : List Op} {ress : List Res} {G G' : Ghost} {s s' : Eng} {op : Op} {res : Res} (I : Inv c G s)
    (hr : runs c s0 past = some (s, ress)) (S : Step (abs c G s.disk) op res (abs c G' s'.disk))
    (ho : Origin c s0 past (abs c G s.disk).trash) : Origin c s0 (past ++ [op]) (abs c G' s'.disk).trash := by
  have hT : ∀ p q, Same p q → (abs c G s.disk).trash p = (abs c G s.disk).trash q := fun p q h => trash_same hc h
  have hD := fun (p : Bytes) (st' : Store) (res : Res) (op : Op) (hp : p ∈ op.deletes) (h : Step (abs c G s.disk) (.delete p) res st') =>
    origin_delete hc I hp hr h ho
  generalize abs c G' s'.disk = st' at S ⊢
  generalize abs c G s.disk = st at S hT hD ho
  cases S with
  | writeNew h1 h2 h3 => exact ho.mono _ (drop_mem h3)
  | overwrite h1 h2 h3 h4 => exact ho.mono _ (fun q R h => by rw [h4] at h; exact h)
  | refused h1 h2 => exact ho.mono _ fun _ _ h => h
  | delete h1 h2 h3 => exact hD _ _ _ _ (by simp [Op.deletes]) (.delete h1 h2 h3)
  | deleteMissing h => exact ho.mono _ fun _ _ h => h
  | @undelete _ p _ _ h1 h2 h3 =>
    refine ho.mono _ (fun q R h => ?_)
    by_cases hs : sameUpToCase p q
    · rw [(h3 q).1 hs] at h
      rw [← hT _ _ (same_iff.mp hs), h1]; exact List.mem_cons_of_mem _ h
    · rw [(h3 q).2 hs] at h; exact h
  | undeleteMissing h => exact ho.mono _ fun _ _ h => h
  | rename h1 h2 h3 h4 h5 =>
    intro q R hq hR
    exact hD _ _ _ _ (by simp [Op.deletes]) h1 q R hq (drop_mem h5 q R hR)
  | renameMissing h1 h2 => exact hD _ _ _ _ (by simp [Op.deletes]) h1

theorem runs_one_more {s0 s s' : Eng} {past : List Op} {ress : List Res} {op : Op} {res : Res} (h : runs c s0 past = some (s, ress))
    (h' : run c s op = some (s', res)) : runs c s0 (past ++ [op]) = some (s', ress ++ [res]) := by
  induction past generalizing s0 ress with
  | nil => simp only [runs, Option.some.injEq, Prod.mk.injEq] at h; obtain ⟨rfl, rfl⟩ := h; simp [runs, h']
  | cons o past ih =>
    simp only [runs] at h
    obtain ⟨p, hp, h⟩ := Option.bind_eq_some_iff.mp h
    obtain ⟨q, hq, h⟩ := Option.map_eq_some_iff.mp h
    simp only [Prod.mk.injEq] at h
    obtain ⟨rfl, rfl⟩ := h
    have := ih (s0 := p.1) (ress := q.2) hq
    simp [runs, hp, this]

/-- What a file in use satisfies. -/
structure TrashKept (c : Cfg) (s0 : Eng) (past : List Op) (G : Ghost) (s : Eng) : Prop where
  inv : HInv c G s past
  bound : TrashBound (abs c G s.disk) s.hdr.numberDeletes
  origin : Origin c s0 past (abs c G s.disk).trash

theorem TrashKept.step (hc : c.OK) {s0 : Eng} {past : List Op} {ress : List Res} (K : TrashKept c s0 past G s) (hr : runs c s0 past = some (s, ress)) {op : Op}
    (ha : Allowed c past s op) : ∃ G' s' res, run c s op = some (s', res) ∧ Step (abs c G s.disk) op res (abs c G' s'.disk) ∧
      TrashKept c s0 (past ++ [op]) G' s' ∧ runs c s0 (past ++ [op]) = some (s', ress ++ [res]) := by
  obtain ⟨G', s', res, h1, S, H⟩ := K.inv.step hc ha
  exact ⟨G', s', res, h1, S.step, ⟨H, step_bound hc K.inv ha h1 S K.bound, step_origin hc K.inv.inv hr S.step K.origin⟩, runs_one_more hr h1⟩

theorem TrashKept.runs (hc : c.OK) {s0 : Eng} (ops : List Op) : ∀ {past : List Op} {ress : List Res} {G : Ghost} {s : Eng}, TrashKept c s0 past G s →
    _root_.Spec.runs c s0 past = some (s, ress) → AllAllowed c past s ops →
    ∃ G' s' ress', _root_.Spec.runs c s ops = some (s', ress') ∧ Steps (abs c G s.disk) ops ress' (abs c G' s'.disk) ∧ TrashKept c s0 (past ++ ops) G' s' ∧
      ∃ r, _root_.Spec.runs c s0 (past ++ ops) = some (s', r) := by
  induction ops with
  | nil => intro past ress G s K hr _; exact ⟨G, s, [], rfl, .nil _, by simpa using K, ress, by simpa using hr⟩
  | cons op ops ih =>
    intro past ress G s K hr ha
    obtain ⟨G1, s1, res, r1, S, K1, e1⟩ := K.step hc hr ha.1
    obtain ⟨G2, s2, ress2, r2, S2, K2, r, e2⟩ := ih K1 e1 (ha.2 s1 res r1)
    refine ⟨G2, s2, res :: ress2, ?_, .cons S S2, by simpa using K2, r, by simpa using e2⟩
    simp [_root_.Spec.runs, r1, r2]

/-- The loop over the rows. -/
theorem undelete_rows (hc : c.OK) {s0 : Eng} (rows : List CatRow) : ∀ {past : List Op} {ress : List Res} {G : Ghost} {s : Eng}, TrashKept c s0 past G s →
    _root_.Spec.runs c s0 past = some (s, ress) → (∀ r ∈ rows, r.path.length ≤ 392) → rows.Pairwise (fun a b => ¬ Same a.path b.path) →
    (∀ r ∈ rows, (abs c G s.disk).live r.path = none) → (∀ r ∈ rows, (abs c G s.disk).trash r.path ≠ []) →
    ∃ G' s', undeleteRows c s rows = some s' ∧ AllAllowed c past s (rows.map fun r => .undelete r.path) ∧
      (∃ ress', _root_.Spec.runs c s (rows.map fun r => .undelete r.path) = some (s', ress')) ∧
      TrashKept c s0 (past ++ rows.map fun r => .undelete r.path) G' s' ∧
      (∀ r ∈ rows, ∀ q, Same r.path q → ∃ R rest, (abs c G s.disk).trash q = R :: rest ∧ (abs c G' s'.disk).live q = some R ∧
        (abs c G' s'.disk).trash q = rest) ∧
      (∀ q, (∀ r ∈ rows, ¬ Same r.path q) → (abs c G' s'.disk).live q = (abs c G s.disk).live q ∧ (abs c G' s'.disk).trash q = (abs c G s.disk).trash q) ∧
      s'.hdr.numberRecords = s.hdr.numberRecords + rows.length := by
  induction rows with
  | nil =>
    intro past ress G s K hr _ _ _ _
    exact ⟨G, s, rfl, trivial, ⟨[], rfl⟩, by simpa using K, by simp, fun q _ => ⟨rfl, rfl⟩, rfl⟩
  | cons r rows ih =>
    intro past ress G s K hr hlen hpw hl ht
    rw [List.pairwise_cons] at hpw
    have hlr := hlen r (List.mem_cons_self ..)
    have ha : Allowed c past s (.undelete r.path) := ⟨hlr, by rw [zread_abs hc K.inv.inv hlr, hl r (List.mem_cons_self ..)]⟩
    obtain ⟨G1, s1, res, r1, S, K1, e1⟩ := K.step hc hr ha
    have htr := ht r (List.mem_cons_self ..)
    have key : res = .ok ∧ (∀ q, Same r.path q → ∃ R rest, (abs c G s.disk).trash q = R :: rest ∧ (abs c G1 s1.disk).live q = some R ∧
        (abs c G1 s1.disk).trash q = rest) ∧
        (∀ q, ¬ Same r.path q → (abs c G1 s1.disk).live q = (abs c G s.disk).live q ∧ (abs c G1 s1.disk).trash q = (abs c G s.disk).trash q) := by
      have hT : ∀ q, Same r.path q → (abs c G s.disk).trash r.path = (abs c G s.disk).trash q := fun q h => trash_same hc h
      generalize abs c G1 s1.disk = st1 at S ⊢
      generalize abs c G s.disk = st at S htr hT ⊢
      cases S with
      | undelete h1 h2 h3 =>
        refine ⟨rfl, fun q hq => ⟨_, _, ?_, (h2 q).1 (same_iff.mpr hq), (h3 q).1 (same_iff.mpr hq)⟩, fun q hq => ?_⟩
        · rw [← hT q hq, h1]
        · exact ⟨(h2 q).2 fun h => hq (same_iff.mp h), (h3 q).2 fun h => hq (same_iff.mp h)⟩
      | undeleteMissing h => exact absurd h htr
    obtain ⟨rfl, k1, k2⟩ := key
    have hrun : zdeleteInternal c s r.path true = some (s1, .ok) := r1
    have hne : ∀ x ∈ rows, ¬ Same r.path x.path := hpw.1
    obtain ⟨G2, s2, f1, f2, ⟨ress2, f3⟩, f4, f5, f6, f7⟩ := ih K1 e1 (fun x hx => hlen x (List.mem_cons_of_mem _ hx)) hpw.2
      (fun x hx => by rw [(k2 _ (hne x hx)).1]; exact hl x (List.mem_cons_of_mem _ hx))
      (fun x hx => by rw [(k2 _ (hne x hx)).2]; exact ht x (List.mem_cons_of_mem _ hx))
    refine ⟨G2, s2, ?_, ⟨ha, ?_⟩, ⟨.ok :: ress2, ?_⟩, ?_, ?_, ?_, ?_⟩
    · simp only [undeleteRows, hrun, Option.bind_some]; exact f1
    · intro s' res' h'
      rw [r1] at h'
      injection h' with h'
      injection h' with h1 h2
      subst h1
      exact f2
    · simp [_root_.Spec.runs, r1, f3]
    · simpa using f4
    · intro x hx q hq
      rcases List.mem_cons.mp hx with rfl | hx
      · obtain ⟨R, rest, g1, g2, g3⟩ := k1 q hq
        have := f6 q (fun y hy hyq => hne y hy (hq.trans hyq.symm))
        exact ⟨R, rest, g1, by rw [this.1, g2], by rw [this.2, g3]⟩
      · obtain ⟨R, rest, g1, g2, g3⟩ := f5 x hx q hq
        rw [(k2 q (fun h => hne x hx (h.trans hq.symm))).2] at g1
        exact ⟨R, rest, g1, g2, g3⟩
    · intro q hq
      have h1 := f6 q (fun y hy => hq y (List.mem_cons_of_mem _ hy))
      have h2 := k2 q (hq r (List.mem_cons_self ..))
      exact ⟨by rw [h1.1, h2.1], by rw [h1.2, h2.2]⟩
    · rw [f7, (undelete_dels hrun).2, List.length_cons, if_pos rfl]; omega

theorem count_one {α : Type} {P : α → Bool} {l : List α} (h : l.countP P ≤ 1) : l.Pairwise fun a b => ¬ (P a = true ∧ P b = true) := by
  induction l with
  | nil => exact List.Pairwise.nil
  | cons a l ih =>
    rw [List.pairwise_cons]
    by_cases ha : P a = true
    · rw [List.countP_cons_of_pos ha] at h
      refine ⟨fun b hb hab => ?_, ih (by omega)⟩
      have := List.countP_pos_iff.mpr ⟨b, hb, hab.2⟩
      omega
    · rw [List.countP_cons_of_neg ha] at h
      exact ⟨fun b _ hab => ha hab.1, ih h⟩

theorem counted (ps : List Bytes) : ∀ l : List Bytes, ps.Pairwise (fun p q => ¬ Same p q) → (∀ x ∈ l, ∃ p ∈ ps, Same p x) →
    l.length = (ps.map fun p => l.countP fun q => decide (Same p q)).sum := by
  induction ps with
  | nil =>
    intro l _ h
    cases l with
    | nil => rfl
    | cons x l => obtain ⟨p, hp, _⟩ := h x (List.mem_cons_self ..); cases hp
  | cons p ps ih =>
    intro l hp h
    rw [List.pairwise_cons] at hp
    have := ih (l.filter fun q => decide (¬ Same p q)) hp.2 (fun x hx => by
      obtain ⟨hx, hn⟩ := List.mem_filter.mp hx
      obtain ⟨p', hp', hs⟩ := h x hx
      rcases List.mem_cons.mp hp' with rfl | hp'
      · exact absurd hs (of_decide_eq_true hn)
      · exact ⟨p', hp', hs⟩)
    have e : (ps.map fun p' => (l.filter fun q => decide (¬ Same p q)).countP fun q => decide (Same p' q)) =
        ps.map fun p' => l.countP fun q => decide (Same p' q) := by
      apply List.map_congr_left
      intro p' hp'
      rw [List.countP_filter]
      apply List.countP_congr
      intro q _
      simp only [Bool.and_eq_true, decide_eq_true_eq]
      exact ⟨fun h => h.1, fun h => ⟨h, fun h' => hp.1 p' hp' (h'.trans h.symm)⟩⟩
    rw [e] at this
    rw [List.map_cons, List.sum_cons, ← this]
    have h2 := List.length_eq_countP_add_countP (fun q => decide (Same p q)) (l := l)
    rw [List.countP_eq_length_filter (p := fun a => decide ¬ decide (Same p a) = true)] at h2
    simp only [decide_eq_true_eq] at h2
    exact h2

/-- All at once, if each deleted record is the only one of its pathname. -/
theorem undelete_all (hc : c.OK) {s0 : Eng} {past : List Op} {ress : List Res} (K : TrashKept c s0 past G s) (hr : runs c s0 past = some (s, ress))
    (hd : ∀ p : Bytes, p.length ≤ 392 → (abs c G s.disk).trash p ≠ [] → (abs c G s.disk).live p = none ∧ ((abs c G s.disk).trash p).length ≤ 1) :
    ∃ rows s' G', zcatalog c s deletedOnes = some rows ∧ zundeleteAll c s = some (s', rows.length) ∧
      (∀ p : Bytes, p.length ≤ 392 → rows.countP (fun r => decide (Same p r.path)) = ((abs c G s.disk).trash p).length) ∧
      AllAllowed c past s (rows.map fun r => .undelete r.path) ∧
      (∃ ress', runs c s (rows.map fun r => .undelete r.path) = some (s', ress')) ∧
      TrashKept c s0 (past ++ rows.map fun r => .undelete r.path) G' s' ∧
      (∀ q : Bytes, q.length ≤ 392 → (abs c G' s'.disk).live q = if (abs c G s.disk).trash q = [] then (abs c G s.disk).live q
        else ((abs c G s.disk).trash q).head?) ∧
      (∀ q : Bytes, q.length ≤ 392 → (abs c G' s'.disk).trash q = []) ∧
      s'.hdr.numberRecords = s.hdr.numberRecords + rows.length ∧ (∀ r ∈ rows, r.path.length ≤ 392) := by
  obtain ⟨rows, r1, r2, r3⟩ := deleted_rows hc K.inv.inv K.bound
  have hpos : ∀ r ∈ rows, (abs c G s.disk).trash r.path ≠ [] := by
    intro r hr' h
    have := r3 r.path (r2 r hr')
    rw [h, List.length_nil, List.countP_eq_zero] at this
    exact this r hr' (by simpa using Same.refl r.path)
  have hpw : rows.Pairwise (fun a b => ¬ Same a.path b.path) := by
    have : ∀ l : List CatRow, (∀ r ∈ l, r ∈ rows) → (∀ p : Bytes, p.length ≤ 392 → l.countP (fun r => decide (Same p r.path)) ≤ 1) →
        l.Pairwise (fun a b => ¬ Same a.path b.path) := by
      intro l
      induction l with
      | nil => intro _ _; exact List.Pairwise.nil
      | cons a l ih =>
        intro hm hl
        rw [List.pairwise_cons]
        constructor
        · intro b hb hab
          have := hl a.path (r2 a (hm a (List.mem_cons_self ..)))
          rw [List.countP_cons_of_pos (by simpa using Same.refl a.path)] at this
          have h1 : 0 < l.countP (fun r => decide (Same a.path r.path)) := List.countP_pos_iff.mpr ⟨b, hb, by simpa using hab⟩
          omega
        · refine ih (fun r hr' => hm r (List.mem_cons_of_mem _ hr')) (fun p hp => Nat.le_trans ?_ (hl p hp))
          exact List.Sublist.countP_le (List.sublist_cons_self ..)
    refine this rows (fun _ h => h) (fun p hp => ?_)
    rw [r3 p hp]
    by_cases h : (abs c G s.disk).trash p = []
    · rw [h]; simp
    · exact (hd p hp h).2
  obtain ⟨G', s', f1, f2, f3, f4, f5, f6, f7⟩ := undelete_rows hc rows K hr r2 hpw (fun r hr' => (hd r.path (r2 r hr') (hpos r hr')).1) hpos
  have key : ∀ q : Bytes, q.length ≤ 392 → ((abs c G' s'.disk).live q = if (abs c G s.disk).trash q = [] then (abs c G s.disk).live q
        else ((abs c G s.disk).trash q).head?) ∧ (abs c G' s'.disk).trash q = [] := by
    intro q hq
    by_cases h : (abs c G s.disk).trash q = []
    · have := f6 q (fun r hr' hs => hpos r hr' (by rw [trash_same hc hs]; exact h))
      rw [if_pos h]
      exact ⟨this.1, by rw [this.2, h]⟩
    · rw [if_neg h]
      have h1 := r3 q hq
      have : 0 < rows.countP (fun r => decide (Same q r.path)) := by
        rw [h1]; exact List.length_pos_iff.mpr h
      obtain ⟨r, hr', hs⟩ := List.countP_pos_iff.mp this
      obtain ⟨R, rest, g1, g2, g3⟩ := f5 r hr' q (of_decide_eq_true hs).symm
      have h2 := (hd q hq h).2
      rw [g1] at h2 ⊢
      refine ⟨by rw [g2]; rfl, ?_⟩
      rw [g3]
      apply List.eq_nil_of_length_eq_zero
      simp only [List.length_cons] at h2
      omega
  exact ⟨rows, s', G', r1, by simp [zundeleteAll, r1, f1], r3, f2, f3, f4, fun q hq => (key q hq).1, fun q hq => (key q hq).2, f7, r2⟩

theorem delete_all (hc : c.OK) {s0 : Eng} (ps : List Bytes) : ∀ {past : List Op} {ress : List Res} {G : Ghost} {s : Eng}, TrashKept c s0 past G s →
    runs c s0 past = some (s, ress) → (∀ p ∈ ps, p.length ≤ 392) → ps.Pairwise (fun a b => ¬ Same a b) →
    (∀ p ∈ ps, (abs c G s.disk).live p ≠ none) →
    ∃ G' s' ress', runs c s (ps.map Op.delete) = some (s', List.replicate ps.length .ok) ∧
      TrashKept c s0 (past ++ ps.map Op.delete) G' s' ∧ runs c s0 (past ++ ps.map Op.delete) = some (s', ress') ∧
      (∀ p ∈ ps, ∀ q, Same p q → ∃ R, (abs c G s.disk).live q = some R ∧ (abs c G' s'.disk).live q = none ∧
        (abs c G' s'.disk).trash q = R :: (abs c G s.disk).trash q) ∧
      (∀ q, (∀ p ∈ ps, ¬ Same p q) → (abs c G' s'.disk).live q = (abs c G s.disk).live q ∧ (abs c G' s'.disk).trash q = (abs c G s.disk).trash q) := by
  induction ps with
  | nil =>
    intro past ress G s K hr _ _ _
    exact ⟨G, s, ress, rfl, by simpa using K, by simpa using hr, by simp, fun q _ => ⟨rfl, rfl⟩⟩
  | cons p ps ih =>
    intro past ress G s K hr hlen hpw hl
    rw [List.pairwise_cons] at hpw
    have ha : Allowed c past s (.delete p) := hlen p (List.mem_cons_self ..)
    obtain ⟨G1, s1, res, r1, S, K1, e1⟩ := K.step hc hr ha
    have hlp := hl p (List.mem_cons_self ..)
    have key : res = .ok ∧ (∀ q, Same p q → ∃ R, (abs c G s.disk).live q = some R ∧ (abs c G1 s1.disk).live q = none ∧
        (abs c G1 s1.disk).trash q = R :: (abs c G s.disk).trash q) ∧
        (∀ q, ¬ Same p q → (abs c G1 s1.disk).live q = (abs c G s.disk).live q ∧ (abs c G1 s1.disk).trash q = (abs c G s.disk).trash q) := by
      have hT : ∀ q, Same p q → (abs c G s.disk).trash p = (abs c G s.disk).trash q := fun q h => trash_same hc h
      have hL : ∀ q, Same p q → (abs c G s.disk).live p = (abs c G s.disk).live q := fun q h => live_same hc h
      generalize abs c G1 s1.disk = st1 at S ⊢
      generalize abs c G s.disk = st at S hlp hT hL ⊢
      cases S with
      | @delete _ _ R h1 h2 h3 =>
        refine ⟨rfl, fun q hq => ⟨R, ?_, (h2 q).1 (same_iff.mpr hq), ?_⟩, fun q hq => ?_⟩
        · exact (hL q hq).symm.trans h1
        · rw [(h3 q).1 (same_iff.mpr hq), hT q hq]
        · exact ⟨(h2 q).2 fun h => hq (same_iff.mp h), (h3 q).2 fun h => hq (same_iff.mp h)⟩
      | deleteMissing h => exact absurd h hlp
    obtain ⟨rfl, k1, k2⟩ := key
    have hne : ∀ x ∈ ps, ¬ Same p x := hpw.1
    obtain ⟨G2, s2, ress2, f3, f4, f4', f5, f6⟩ := ih K1 e1 (fun x hx => hlen x (List.mem_cons_of_mem _ hx)) hpw.2
      (fun x hx => by rw [(k2 _ (hne x hx)).1]; exact hl x (List.mem_cons_of_mem _ hx))
    refine ⟨G2, s2, ress2, ?_, ?_, ?_, ?_, ?_⟩
    · simp [runs, r1, f3, List.replicate_succ]
    · simpa using f4
    · simpa using f4'
    · intro x hx q hq
      rcases List.mem_cons.mp hx with rfl | hx
      · obtain ⟨R, g1, g2, g3⟩ := k1 q hq
        have := f6 q (fun y hy hyq => hne y hy (hq.trans hyq.symm))
        exact ⟨R, g1, by rw [this.1, g2], by rw [this.2, g3]⟩
      · obtain ⟨R, g1, g2, g3⟩ := f5 x hx q hq
        have := k2 q (fun h => hne x hx (h.trans hq.symm))
        rw [this.1] at g1
        rw [this.2] at g3
        exact ⟨R, g1, g2, g3⟩
    · intro q hq
      have h1 := f6 q (fun y hy => hq y (List.mem_cons_of_mem _ hy))
      have h2 := k2 q (hq p (List.mem_cons_self ..))
      exact ⟨by rw [h1.1, h2.1], by rw [h1.2, h2.2]⟩

section
variable {hdrSize maxHash binSize : Nat} {mul : Nat → Nat}

theorem trash_kept (g : GoodSizes hdrSize maxHash binSize) {past : List Op} {s : Eng}
    (R : Reachable (create hdrSize maxHash binSize mul).1 (create hdrSize maxHash binSize mul).2 past s) :
    ∃ G, TrashKept (create hdrSize maxHash binSize mul).1 (create hdrSize maxHash binSize mul).2 past G s := by
  have hc := create_OK (mul := mul) g
  obtain ⟨ha, ress, hr⟩ := R
  have H0 : HInv (create hdrSize maxHash binSize mul).1 (newGhost hdrSize maxHash binSize) (create hdrSize maxHash binSize mul).2 [] :=
    newFile_inv (by have := g.bin; omega)
  have e := newFile_abs (create hdrSize maxHash binSize mul).1 hdrSize maxHash binSize (create hdrSize maxHash binSize mul).2.disk
  have K0 : TrashKept (create hdrSize maxHash binSize mul).1 (create hdrSize maxHash binSize mul).2 [] (newGhost hdrSize maxHash binSize) (create hdrSize maxHash binSize mul).2 := by
    refine ⟨H0, ?_, ?_⟩
    · rw [e]
      intro ps _
      have : (ps.map fun p => (Store.empty.trash p).length).sum = 0 := by
        rw [List.sum_eq_zero_iff_forall_eq_nat]
        intro x hx
        obtain ⟨p, _, rfl⟩ := List.mem_map.mp hx
        rfl
      omega
    · rw [e]
      intro q R _ hR
      cases hR
  obtain ⟨G', s', ress', h1, _, h3, _⟩ := K0.runs hc past rfl ha
  have : some (s', ress') = some (s, ress) := h1.symm.trans hr
  injection this with this
  injection this with this _
  subst this
  exact ⟨G', by simpa using h3⟩

/-- C78, first part: the list of the deleted records.  A pathname under which nothing can be read is in the list (up to
letter case) exactly if undeleting it succeeds; and every pathname in the list was deleted by an earlier call. -/
theorem C78_listed_partial (g : GoodSizes hdrSize maxHash binSize) {past : List Op} {s : Eng}
    (R : Reachable (create hdrSize maxHash binSize mul).1 (create hdrSize maxHash binSize mul).2 past s) :
    ∃ rows, zcatalog (create hdrSize maxHash binSize mul).1 s deletedOnes = some rows ∧
      (∀ r ∈ rows, ∃ op ∈ past, ∃ p ∈ op.deletes, sameUpToCase p r.path) ∧
      ∀ p : Bytes, p.length ≤ 392 → zread (create hdrSize maxHash binSize mul).1 s p = some none →
        ((∃ r ∈ rows, sameUpToCase p r.path) ↔ ∃ s', zdeleteInternal (create hdrSize maxHash binSize mul).1 s p true = some (s', .ok)) := by
  have hc := create_OK (mul := mul) g
  obtain ⟨G, K⟩ := trash_kept g R
  obtain ⟨rows, r1, r2, r3⟩ := deleted_rows hc K.inv.inv K.bound
  have hpos : ∀ r ∈ rows, (abs (create hdrSize maxHash binSize mul).1 G s.disk).trash r.path ≠ [] := by
    intro r hr' h
    have := r3 r.path (r2 r hr')
    rw [h, List.length_nil, List.countP_eq_zero] at this
    exact this r hr' (by simpa using Same.refl r.path)
  refine ⟨rows, r1, fun r hr => ?_, fun p hp hz => ?_⟩
  · obtain ⟨R', hR'⟩ := List.exists_mem_of_ne_nil _ (hpos r hr)
    obtain ⟨A, op, B, sA, ress, e, _, ⟨p, hp, hs⟩, _⟩ := K.origin r.path R' (r2 r hr) hR'
    exact ⟨op, by rw [e]; simp, p, hp, hs⟩
  · obtain ⟨G1, s1, res, h1, S, _⟩ := K.inv.step hc (op := .undelete p) ⟨hp, hz⟩
    have hrun : zdeleteInternal (create hdrSize maxHash binSize mul).1 s p true = some (s1, res) := h1
    have hres : res = .ok ↔ (abs (create hdrSize maxHash binSize mul).1 G s.disk).trash p ≠ [] := by
      have h := S.step
      generalize abs (create hdrSize maxHash binSize mul).1 G1 s1.disk = st1 at h
      generalize abs (create hdrSize maxHash binSize mul).1 G s.disk = st at h ⊢
      cases h with
      | undelete h7 _ _ => rw [h7]; simp
      | undeleteMissing h => rw [h]; simp
    constructor
    · rintro ⟨r, hr, hs⟩
      have := hres.mpr (by rw [trash_same hc (same_iff.mp hs)]; exact hpos r hr)
      exact ⟨s1, by rw [hrun, this]⟩
    · rintro ⟨s', h'⟩
      rw [hrun] at h'
      injection h' with h'
      injection h' with _ h'
      have h2 := hres.mp h'
      have : 0 < rows.countP (fun r => decide (Same p r.path)) := by
        rw [r3 p hp]; exact List.length_pos_iff.mpr h2
      obtain ⟨r, hr, hs⟩ := List.countP_pos_iff.mp this
      exact ⟨r, hr, same_iff.mpr (of_decide_eq_true hs)⟩

/-- C78.  Undeleting everything, in a file whose deleted records have pairwise different pathnames under which
nothing was written since: it returns their number; each of them can be read again, as it could be read before
a call that deleted it; all other reads are as before; the record count has grown by the number returned; no
deleted record is left; and the file is one in use, as after undeleting each of them. -/
theorem C78_undelete_all_partial (g : GoodSizes hdrSize maxHash binSize) {past : List Op} {s : Eng}
    (R : Reachable (create hdrSize maxHash binSize mul).1 (create hdrSize maxHash binSize mul).2 past s) {rows : List CatRow}
    (hrows : zcatalog (create hdrSize maxHash binSize mul).1 s deletedOnes = some rows)
    (hdiff : rows.Pairwise fun a b => ¬ sameUpToCase a.path b.path)
    (hgone : ∀ r ∈ rows, zread (create hdrSize maxHash binSize mul).1 s r.path = some none) :
    ∃ s', zundeleteAll (create hdrSize maxHash binSize mul).1 s = some (s', rows.length) ∧
      (∀ r ∈ rows, ∀ q, sameUpToCase r.path q → ∃ rec A op B sA ress,
        zread (create hdrSize maxHash binSize mul).1 s' q = some (some rec) ∧ past = A ++ op :: B ∧
        runs (create hdrSize maxHash binSize mul).1 (create hdrSize maxHash binSize mul).2 A = some (sA, ress) ∧
        (∃ p ∈ op.deletes, sameUpToCase p q) ∧ zread (create hdrSize maxHash binSize mul).1 sA q = some (some rec)) ∧
      (∀ q : Bytes, q.length ≤ 392 → (∀ r ∈ rows, ¬ sameUpToCase r.path q) →
        zread (create hdrSize maxHash binSize mul).1 s' q = zread (create hdrSize maxHash binSize mul).1 s q) ∧
      s'.hdr.numberRecords = s.hdr.numberRecords + rows.length ∧
      zcatalog (create hdrSize maxHash binSize mul).1 s' deletedOnes = some [] ∧
      Reachable (create hdrSize maxHash binSize mul).1 (create hdrSize maxHash binSize mul).2 (past ++ rows.map fun r => .undelete r.path) s' := by
  have hc := create_OK (mul := mul) g
  obtain ⟨G, K⟩ := trash_kept g R
  obtain ⟨hall, ress, hr⟩ := R
  obtain ⟨rows', r1, r2, r3⟩ := deleted_rows hc K.inv.inv K.bound
  rw [hrows] at r1
  injection r1 with r1
  subst r1
  have row_of : ∀ p : Bytes, p.length ≤ 392 → (abs (create hdrSize maxHash binSize mul).1 G s.disk).trash p ≠ [] → ∃ r ∈ rows, Same p r.path := by
    intro p hp h
    have : 0 < rows.countP (fun r => decide (Same p r.path)) := by
      rw [r3 p hp]; exact List.length_pos_iff.mpr h
    obtain ⟨r, hr, hs⟩ := List.countP_pos_iff.mp this
    exact ⟨r, hr, of_decide_eq_true hs⟩
  have one : ∀ p : Bytes, rows.countP (fun r => decide (Same p r.path)) ≤ 1 := by
    intro p
    clear hrows hgone r2 r3 row_of
    induction rows with
    | nil => simp
    | cons a l ih =>
      rw [List.pairwise_cons] at hdiff
      by_cases h : Same p a.path
      · rw [List.countP_cons_of_pos (by simpa using h)]
        have : l.countP (fun r => decide (Same p r.path)) = 0 := by
          rw [List.countP_eq_zero]
          intro b hb hpb
          exact hdiff.1 b hb (same_iff.mpr (h.symm.trans (of_decide_eq_true hpb)))
        omega
      · rw [List.countP_cons_of_neg (by simpa using h)]
        exact ih hdiff.2
  obtain ⟨rows', s', G', f1, f2, f3, f4, ⟨ress', f5⟩, f6, f7, f8, f9, f10⟩ := undelete_all hc K hr (fun p hp h => by
    obtain ⟨r, hr', hs⟩ := row_of p hp h
    have := hgone r hr'
    rw [zread_abs hc K.inv.inv (r2 r hr')] at this
    injection this with this
    exact ⟨by rw [live_same hc hs]; exact this, by rw [← r3 p hp]; exact one p⟩)
  rw [hrows] at f1
  injection f1 with f1
  subst f1
  refine ⟨s', f2, ?_, ?_, f9, ?_, ?_⟩
  · intro r hr' q hs
    have hq := same_len (same_iff.mp hs) (r2 r hr')
    have hpos : (abs (create hdrSize maxHash binSize mul).1 G s.disk).trash q ≠ [] := by
      intro h
      have := r3 q hq
      rw [h, List.length_nil, List.countP_eq_zero] at this
      exact this r hr' (by simpa using (same_iff.mp hs).symm)
    have h1 := f7 q hq
    rw [if_neg hpos] at h1
    obtain ⟨rec, rest, e⟩ := List.exists_cons_of_ne_nil hpos
    rw [e] at h1
    obtain ⟨A, op, B, sA, ressA, o1, o2, o3, o4⟩ := K.origin q rec hq (by rw [e]; exact List.mem_cons_self ..)
    exact ⟨rec, A, op, B, sA, ressA, by rw [zread_abs hc f6.inv.inv hq, h1]; rfl, o1, o2, o3, o4⟩
  · intro q hq hn
    have h0 : (abs (create hdrSize maxHash binSize mul).1 G s.disk).trash q = [] := by
      apply Classical.byContradiction
      intro h
      obtain ⟨r, hr', hs⟩ := row_of q hq h
      exact hn r hr' (same_iff.mpr hs.symm)
    rw [zread_abs hc f6.inv.inv hq, zread_abs hc K.inv.inv hq, f7 q hq, if_pos h0]
  · obtain ⟨rows2, q1, q2, q3⟩ := deleted_rows hc f6.inv.inv f6.bound
    rw [q1]
    congr 1
    cases rows2 with
    | nil => rfl
    | cons r l =>
      have hl := q2 r (List.mem_cons_self ..)
      have := q3 r.path hl
      rw [f8 _ hl, List.length_nil, List.countP_eq_zero] at this
      exact absurd (by simpa using Same.refl r.path) (this r (List.mem_cons_self ..))
  · exact leads_append (past := []) ⟨hall, ress, hr⟩ ⟨by simpa using f4, ress', f5⟩

/-- C78, third part: in a file without deleted records, deleting pairwise different records that are there and then
undeleting everything changes no read; the number returned is that of the records. -/
theorem C78_restore_partial (g : GoodSizes hdrSize maxHash binSize) {past : List Op} {s : Eng}
    (R : Reachable (create hdrSize maxHash binSize mul).1 (create hdrSize maxHash binSize mul).2 past s)
    (hnone : zcatalog (create hdrSize maxHash binSize mul).1 s deletedOnes = some []) (ps : List Bytes) (hlen : ∀ p ∈ ps, p.length ≤ 392)
    (hdiff : ps.Pairwise fun a b => ¬ sameUpToCase a b)
    (hthere : ∀ p ∈ ps, zread (create hdrSize maxHash binSize mul).1 s p ≠ some none) :
    ∃ s1 s2, runs (create hdrSize maxHash binSize mul).1 s (ps.map Op.delete) = some (s1, List.replicate ps.length .ok) ∧
      (∀ p ∈ ps, zread (create hdrSize maxHash binSize mul).1 s1 p = some none) ∧
      zundeleteAll (create hdrSize maxHash binSize mul).1 s1 = some (s2, ps.length) ∧
      ∀ q : Bytes, q.length ≤ 392 → zread (create hdrSize maxHash binSize mul).1 s2 q = zread (create hdrSize maxHash binSize mul).1 s q := by
  have hc := create_OK (mul := mul) g
  obtain ⟨G, K⟩ := trash_kept g R
  obtain ⟨hall, ress, hr⟩ := R
  obtain ⟨rows, r1, r2, r3⟩ := deleted_rows hc K.inv.inv K.bound
  rw [hnone] at r1
  injection r1 with r1
  subst r1
  have h0 : ∀ q : Bytes, q.length ≤ 392 → (abs (create hdrSize maxHash binSize mul).1 G s.disk).trash q = [] :=
    fun q hq => List.eq_nil_of_length_eq_zero (by rw [← r3 q hq]; rfl)
  obtain ⟨G1, s1, ress1, d1, K1, d2, d3, d4⟩ := delete_all hc ps K hr hlen (hdiff.imp fun h hs => h (same_iff.mpr hs)) (fun p hp h => hthere p hp (by
    rw [zread_abs hc K.inv.inv (hlen p hp), h]))
  have hmem : ∀ q : Bytes, q.length ≤ 392 → (∃ p ∈ ps, Same p q) ∨ (∀ p ∈ ps, ¬ Same p q) := fun q _ => by
    by_cases h : ∃ p ∈ ps, Same p q
    · exact Or.inl h
    · exact Or.inr fun p hp hs => h ⟨p, hp, hs⟩
  obtain ⟨rows', s2, G2, f1, f2, f3, f4, ⟨ress', f5⟩, f6, f7, f8, f9, f10⟩ := undelete_all hc K1 d2 (fun q hq h => by
    rcases hmem q hq with ⟨p, hp, hs⟩ | hn
    · obtain ⟨R, g1, g2, g3⟩ := d3 p hp q hs
      rw [h0 q hq] at g3
      exact ⟨g2, by rw [g3]; simp⟩
    · exact absurd (by rw [(d4 q hn).2, h0 q hq]) h)
  have hcount : rows'.length = ps.length := by
    have e1 := counted ps (rows'.map (·.path)) (hdiff.imp fun h hs => h (same_iff.mpr hs)) (fun x hx => by
      obtain ⟨r, hr', rfl⟩ := List.mem_map.mp hx
      have hl : r.path.length ≤ 392 := f10 r hr'
      rcases hmem r.path hl with h | hn
      · exact h
      · have := f3 r.path hl
        rw [(d4 _ hn).2, h0 _ hl, List.length_nil, List.countP_eq_zero] at this
        exact absurd (by simpa using Same.refl r.path) (this r hr'))
    rw [List.length_map] at e1
    rw [e1, ← Nat.one_mul ps.length, Nat.mul_comm, ← List.sum_replicate_nat, ← List.map_const']
    congr 1
    apply List.map_congr_left
    intro p hp
    obtain ⟨R, g1, g2, g3⟩ := d3 p hp p (Same.refl p)
    rw [List.countP_map]
    have := f3 p (hlen p hp)
    rw [g3, h0 p (hlen p hp)] at this
    exact this
  refine ⟨s1, s2, d1, ?_, by rw [f2, hcount], ?_⟩
  · intro p hp
    obtain ⟨R, g1, g2, g3⟩ := d3 p hp p (Same.refl p)
    rw [zread_abs hc K1.inv.inv (hlen p hp), g2]
  · intro q hq
    rw [zread_abs hc f6.inv.inv hq, zread_abs hc K.inv.inv hq, f7 q hq]
    rcases hmem q hq with ⟨p, hp, hs⟩ | hn
    · obtain ⟨R, g1, g2, g3⟩ := d3 p hp q hs
      rw [if_neg (by rw [g3]; simp), g3, g1]; rfl
    · rw [if_pos (by rw [(d4 q hn).2, h0 q hq]), (d4 q hn).1]

end

end Hec
