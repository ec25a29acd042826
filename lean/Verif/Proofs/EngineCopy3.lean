import Verif.Proofs.EngineCopy2
/-! Copying a file. -/
namespace Hec
set_option linter.unusedSimpArgs false
set_option linter.unusedVariables false
open _root_.Spec (Op Store Step Steps run runs Set DropOne join SixParts NoLookAlikes FullNames NewHeaders stored)

variable {c : Cfg}

/-! ### The logical number of values -/

/-- If the logical number of a record is zero, so is the number of values. -/
def LogOK (st : Store) : Prop :=
  ∀ q R, st.live q = some R ∨ R ∈ st.trash q → R.logicalNumber = 0 → R.numberValues = 0

theorem Set.opt {f f' : Bytes → Option Rec} {p : Bytes} {v : Option Rec} (h : Set f f' p v) {q : Bytes} {R : Rec} (hq : f' q = some R) :
    v = some R ∨ f q = some R := by
  by_cases hs : Spec.sameUpToCase p q
  · left; rw [← (h q).1 hs]; exact hq
  · right; rw [← (h q).2 hs]; exact hq

theorem DropOne.mem {f f' : Bytes → List Rec} (h : DropOne f f') {q : Bytes} {R : Rec} (hq : R ∈ f' q) : R ∈ f q := by
  obtain ⟨t, i, h⟩ := h
  by_cases hs : Spec.sameUpToCase t q
  · rw [(h q).1 hs] at hq; exact List.mem_of_mem_eraseIdx hq
  · rw [(h q).2 hs] at hq; exact hq

theorem LogOK.step {st st' : Store} {op : Op} {res : Res} (h : Step st op res st') : LogOK st → LogOK st' := by
  have hst : ∀ (r : Req) (v : UInt32), (stored r v).logicalNumber = 0 → (stored r v).numberValues = 0 := by
    intro r v
    simp only [stored]
    split <;> omega
  induction h with
  | writeNew h1 h2 h3 =>
    intro L q R hR
    rcases hR with hR | hR
    · rcases Set.opt h2 hR with h | h
      · injection h with h; rw [← h]; exact hst _ _
      · exact L q R (Or.inl h)
    · exact L q R (Or.inr (DropOne.mem h3 hR))
  | overwrite h1 h2 h3 h4 =>
    intro L q R hR
    rcases hR with hR | hR
    · rcases Set.opt h3 hR with h | h
      · injection h with h; rw [← h]; exact hst _ _
      · exact L q R (Or.inl h)
    · rw [h4] at hR; exact L q R (Or.inr hR)
  | refused => exact id
  | @delete st1 p R0 h1 h2 h3 =>
    intro L q R hR
    rcases hR with hR | hR
    · rcases Set.opt h2 hR with h | h
      · cases h
      · exact L q R (Or.inl h)
    · by_cases hs : Spec.sameUpToCase p q
      · rw [(h3 q).1 hs] at hR
        rcases List.mem_cons.mp hR with h | h
        · subst h; exact L p R (Or.inl h1)
        · exact L p R (Or.inr h)
      · rw [(h3 q).2 hs] at hR; exact L q R (Or.inr hR)
  | deleteMissing => exact id
  | @undelete st1 p R0 rest h1 h2 h3 =>
    intro L q R hR
    rcases hR with hR | hR
    · rcases Set.opt h2 hR with h | h
      · injection h with h; subst h
        exact L p _ (Or.inr (by rw [h1]; simp))
      · exact L q R (Or.inl h)
    · by_cases hs : Spec.sameUpToCase p q
      · rw [(h3 q).1 hs] at hR
        exact L p R (Or.inr (by rw [h1]; simp [hR]))
      · rw [(h3 q).2 hs] at hR; exact L q R (Or.inr hR)
  | undeleteMissing => exact id
  | rename h1 h2 h3 h4 h5 ih =>
    intro L q R hR
    have L1 := ih L
    rcases hR with hR | hR
    · rcases Set.opt h4 hR with h | h
      · injection h with h; subst h
        exact L1 _ _ (Or.inl h2)
      · rcases Set.opt h3 h with h | h
        · cases h
        · exact L1 q R (Or.inl h)
    · exact L1 q R (Or.inr (DropOne.mem h5 hR))
  | renameMissing h1 h2 ih => exact ih

theorem LogOK.steps {st st' : Store} {ops : List Op} {ress : List Res} (h : Steps st ops ress st') : LogOK st → LogOK st' := by
  induction h with
  | nil => exact id
  | cons h1 _ ih => exact fun L => ih (LogOK.step h1 L)

/-! ### Entries and addresses -/

/-- The record of a live entry. -/
theorem entry_live (hc : c.OK) {G : Ghost} {s : Eng} (I : Inv c G s) {h : Nat} (hh : h < c.maxHash) {e : BinEnt}
    (he : e ∈ centries (G.chain h)) (hl : live e) {q : Bytes} (hs : Same q e.path) : (abs c G s.disk).live q = some (recAt s.disk e) := by
  have K := I.w.chains h hh
  obtain ⟨A, B, hE⟩ := List.append_of_mem he
  obtain ⟨o1, o2⟩ := order_split K hE
  have hok := K.ok e he
  have hq : c.tHash q = h := by rw [hc.tHash_same _ _ hs]; exact hok.hash
  refine abs_live_of hc I (A := A) (B := B) (same_len hs.symm hok.len) (by rw [hq]; exact hE) (fun x hx hsx => ?_) hs hl
  exact Decidable.byContradiction fun hg => live_not_dead hl (o1 x hx hg (hsx.symm.trans hs))

/-- Two live entries with the same address are the same. -/
theorem entry_unique (hc : c.OK) {G : Ghost} {s : Eng} (I : Inv c G s) {h h' : Nat} (hh : h < c.maxHash) (hh' : h' < c.maxHash) {e e' : BinEnt}
    (he : e ∈ centries (G.chain h)) (he' : e' ∈ centries (G.chain h')) (hg : ¬ gone e) (hg' : ¬ gone e') (ha : e.infoAdd = e'.infoAdd) :
    h = h' ∧ e = e' := by
  have O := (I.w.chains h hh).rcd e he hg
  have O' := (I.w.chains h' hh').rcd e' he' hg'
  have h1 := O.info (i := 0) (by omega)
  have h2 := O'.info (i := 0) (by omega)
  rw [← ha, h1] at h2
  injection h2 with h3 h4
  subst h3
  refine ⟨rfl, ?_⟩
  obtain ⟨A, B, hE⟩ := List.append_of_mem he
  rw [hE] at he'
  rcases List.mem_append.mp he' with h5 | h5
  · exact absurd ha.symm (others_ne (I.w.chains h hh) hE e' (by simp [h5]) hg' hg)
  · rcases List.mem_cons.mp h5 with h6 | h6
    · exact h6.symm
    · exact absurd ha.symm (others_ne (I.w.chains h hh) hE e' (by simp [h6]) hg' hg)

/-- zcheck finds an entry. -/
theorem zcheck_entry (hc : c.OK) {G : Ghost} {s : Eng} (I : Inv c G s) {p : Bytes} (hlen : p.length ≤ 392) {k : Chk}
    (h : zcheck c s p 0 = some k) (hf : k.found = true) :
    ∃ e ∈ centries (G.chain (c.tHash p)), live e ∧ Same p e.path ∧ e.infoAdd = k.infoAdd := by
  have hh := hc.tHash_lt p hlen
  have hl : (G.chain (c.tHash p)).length ≤ s.hdr.totalBins + 1 := by have := I.h.len _ hh; omega
  cases hfd : (centries (G.chain (c.tHash p))).find? fun e => decide (EMatch p REC_STATUS_VALID e) with
  | none =>
    have := zcheck_none hc (hx := c.tHash p) (ax := 0) (wanted := REC_STATUS_VALID) I.w.idle hh (I.last _ hh) hl (fun x hx => by
      have := List.find?_eq_none.mp hfd x hx
      simpa using this)
    have h := (show zcheck c s p REC_STATUS_VALID = some k from h)
    rw [this] at h
    injection h with h
    rw [← h] at hf
    cases hf
  | some e =>
    obtain ⟨A, B, hE, hp, hA⟩ := split_find hfd
    obtain ⟨C1, b, pre, post, C2, hC, hAeq, hBeq⟩ := split_centries hE
    have hm : EMatch p REC_STATUS_VALID e := by simpa using hp
    obtain ⟨ws, hz⟩ := zcheck_some hc (hx := c.tHash p) (ax := 0) I.w.idle hh hC hl (wanted := REC_STATUS_VALID) (by
      rw [← hAeq]; intro x hx; have := hA x hx; simpa using this) hm
    have h := (show zcheck c s p REC_STATUS_VALID = some k from h)
    rw [hz] at h
    injection h with h
    have hmem : e ∈ centries (G.chain (c.tHash p)) := by rw [hE]; simp
    refine ⟨e, hmem, ((EMatch_valid ((I.w.chains _ hh).ok e hmem)).mp hm).2, hm.1, by rw [← h]⟩

theorem isInfoBlock_entry {d : Disk} {e : BinEnt} (hh : HeadOK d e) (hl : live e) (hp : 0 < e.path.length) (hlen : e.path.length ≤ 392) :
    isInfoBlock d e.infoAdd = true := by
  have h0 : d e.infoAdd = DSS_INFO_FLAG := hh.flag
  have h1 : d (e.infoAdd + kinfoPathnameLength) = e.path.length := hh.len
  have h2 : d (e.infoAdd + kinfoStatus) ≤ 1 := hh.live hl
  unfold isInfoBlock
  rw [h1, toInt32_small (by omega), toInt32_small (by omega)]
  simp only [statusValid, Bool.and_eq_true, Bool.or_eq_true, decide_eq_true_iff]
  exact ⟨⟨⟨h0, by omega⟩, by omega⟩, Or.inl (by
    show ((d (e.infoAdd + kinfoStatus) : Nat) : Int) ≤ 1
    omega)⟩

theorem toInt32_cases (w : Nat) : (w % 2 ^ 32 < 2 ^ 31 ∧ toInt32 w = ((w % 2 ^ 32 : Nat) : Int)) ∨ (2 ^ 31 ≤ w % 2 ^ 32 ∧ toInt32 w < 0) := by
  unfold toInt32 lo32
  split
  · left; exact ⟨by assumption, rfl⟩
  · right; omega

theorem isInfoBlock_words {d : Disk} {x : Nat} (h : isInfoBlock d x = true) :
    d x = 2 ^ 64 - 97534 ∧ (d (x + 1) % 2 ^ 32 ≤ 2 ∨ 2 ^ 31 ≤ d (x + 1) % 2 ^ 32) ∧ 0 < d (x + 2) % 2 ^ 32 ∧ d (x + 2) % 2 ^ 32 ≤ 392 := by
  unfold isInfoBlock at h
  simp only [Bool.and_eq_true, decide_eq_true_iff] at h
  obtain ⟨⟨⟨h1, h2⟩, h3⟩, h4⟩ := h
  have h4 : toInt32 (d (x + kinfoStatus)) ≤ 1 ∨ toInt32 (d (x + kinfoStatus)) = 2 := by
    simp only [statusValid, Bool.or_eq_true, decide_eq_true_iff] at h4
    exact h4
  refine ⟨h1, ?_, ?_, ?_⟩
  · show d (x + kinfoStatus) % 2 ^ 32 ≤ 2 ∨ 2 ^ 31 ≤ d (x + kinfoStatus) % 2 ^ 32
    rcases toInt32_cases (d (x + kinfoStatus)) with ⟨k1, k2⟩ | ⟨k1, k2⟩ <;> omega
  · show 0 < d (x + kinfoPathnameLength) % 2 ^ 32
    rcases toInt32_cases (d (x + kinfoPathnameLength)) with ⟨k1, k2⟩ | ⟨k1, k2⟩ <;> omega
  · show d (x + kinfoPathnameLength) % 2 ^ 32 ≤ 392
    rcases toInt32_cases (d (x + kinfoPathnameLength)) with ⟨k1, k2⟩ | ⟨k1, k2⟩ <;> omega

/-! ### The loop -/

/-- Number of records with an address below `x`. -/
def below (c : Cfg) (G : Ghost) (x : Nat) : Nat :=
  ((List.range c.maxHash).map fun h => (centries (G.chain h)).countP fun e => decide (live e ∧ e.infoAdd < x)).sum

theorem countP_congr' {l : List BinEnt} {P Q : BinEnt → Bool} (h : ∀ e ∈ l, P e = Q e) : l.countP P = l.countP Q := by
  induction l with
  | nil => rfl
  | cons a l ih =>
    simp only [List.countP_cons, h a (by simp)]
    rw [ih fun e he => h e (by simp [he])]

theorem below_same {G : Ghost} {x : Nat} (h : ∀ h, h < c.maxHash → ∀ e ∈ centries (G.chain h), live e → e.infoAdd ≠ x) :
    below c G (x + 1) = below c G x := by
  unfold below
  congr 1
  apply List.map_congr_left
  intro i hi
  apply countP_congr'
  intro e he
  apply decide_eq_decide.mpr
  constructor
  · rintro ⟨h1, h2⟩
    have := h i (List.mem_range.mp hi) e he h1
    exact ⟨h1, by omega⟩
  · rintro ⟨h1, h2⟩; exact ⟨h1, by omega⟩

theorem below_one (hc : c.OK) {G : Ghost} {s : Eng} (I : Inv c G s) {h : Nat} (hh : h < c.maxHash) {e : BinEnt}
    (he : e ∈ centries (G.chain h)) (hl : live e) : below c G (e.infoAdd + 1) = below c G e.infoAdd + 1 := by
  have hcong : ∀ i, i < c.maxHash → i ≠ h →
      (centries (G.chain i)).countP (fun f => decide (live f ∧ f.infoAdd < e.infoAdd + 1)) = (centries (G.chain i)).countP fun f => decide (live f ∧ f.infoAdd < e.infoAdd) := by
    intro i hi hne
    apply countP_congr'
    intro f hf
    apply decide_eq_decide.mpr
    constructor
    · rintro ⟨h1, h2⟩
      refine ⟨h1, ?_⟩
      have : f.infoAdd ≠ e.infoAdd := fun ha => hne (entry_unique hc I hi hh hf he (live_not_gone h1) (live_not_gone hl) ha).1
      omega
    · rintro ⟨h1, h2⟩; exact ⟨h1, by omega⟩
  have hsum := sum_map_congr (f := fun i => (centries (G.chain i)).countP fun f => decide (live f ∧ f.infoAdd < e.infoAdd + 1))
    (g := fun i => (centries (G.chain i)).countP fun f => decide (live f ∧ f.infoAdd < e.infoAdd)) hh hcong
  obtain ⟨A, B, hE⟩ := List.append_of_mem he
  have hAB : ∀ f ∈ A ++ B, decide (live f ∧ f.infoAdd < e.infoAdd + 1) = decide (live f ∧ f.infoAdd < e.infoAdd) := by
    intro f hf
    apply decide_eq_decide.mpr
    constructor
    · rintro ⟨h1, h2⟩
      have := others_ne (I.w.chains h hh) hE f hf (live_not_gone h1) (live_not_gone hl)
      exact ⟨h1, by omega⟩
    · rintro ⟨h1, h2⟩; exact ⟨h1, by omega⟩
  simp only [hE, List.countP_append, List.countP_cons] at hsum
  rw [countP_congr' (l := A) (fun f hf => hAB f (by simp [hf])), countP_congr' (l := B) (fun f hf => hAB f (by simp [hf]))] at hsum
  rw [decide_eq_true (p := live e ∧ e.infoAdd < e.infoAdd + 1) ⟨hl, by omega⟩, decide_eq_false (p := live e ∧ e.infoAdd < e.infoAdd) (by rintro ⟨_, h⟩; omega)] at hsum
  simp only [if_true, Bool.false_eq_true, if_false] at hsum
  unfold below
  omega

theorem below_all {G : Ghost} {s : Eng} (I : Inv c G s) : below c G s.hdr.fileSize = liveCount c G := by
  unfold below liveCount
  congr 1
  apply List.map_congr_left
  intro i hi
  apply countP_congr'
  intro e he
  apply decide_eq_decide.mpr
  constructor
  · exact fun h => h.1
  · intro hl
    refine ⟨hl, Decidable.byContradiction fun hx => ?_⟩
    have h1 := I.h.beyond e.infoAdd (by omega)
    have h2 := ((I.w.chains i (List.mem_range.mp hi)).rcd e he (live_not_gone hl)).info (i := 0) (by omega)
    rw [Nat.add_zero, h1] at h2
    cases h2

/-- The destination after the addresses below `x`. -/
structure Copied (c cd : Cfg) (G : Ghost) (s : Eng) (Gd : Ghost) (t : Eng) (x : Nat) : Prop where
  inv : HInv cd Gd t []
  there : ∀ h, h < c.maxHash → ∀ e ∈ centries (G.chain h), live e → e.infoAdd < x → ∀ q, Same q e.path →
    (abs cd Gd t.disk).live q = some (recAt s.disk e)
  only : ∀ q, (∀ h, h < c.maxHash → ∀ e ∈ centries (G.chain h), live e → Same q e.path → x ≤ e.infoAdd) → (abs cd Gd t.disk).live q = none
  number : t.hdr.numberRecords = below c G x

theorem copyFrom_ok {cd : Cfg} (hc : c.OK) (hcd : cd.OK) {G : Ghost} {s : Eng} {past : List Op} (H : HInv c G s past)
    (hlog : LogOK (abs c G s.disk)) (hlook : NoLookAlikes c s) (hfull : FullNames c s) (hnew : NewHeaders c s) (env : CopyEnv) :
    ∀ n x Gd t, x + n = s.hdr.fileSize → Copied c cd G s Gd t x →
      ∃ Gd' t', copyFrom cd s.disk env n x t = some t' ∧ Copied c cd G s Gd' t' s.hdr.fileSize := by
  intro n
  induction n with
  | zero =>
    intro x Gd t hx C
    rw [Nat.add_zero] at hx
    exact ⟨Gd, t, rfl, by rw [← hx]; exact C⟩
  | succ n ih =>
    intro x Gd t hx C
    simp only [copyFrom]
    by_cases hb : isInfoBlock s.disk x = true
    · rw [if_pos hb]
      obtain ⟨w1, w2, w3, w4⟩ := isInfoBlock_words hb
      obtain ⟨p, k, hp, hk, hkf, hka⟩ := hlook x (by omega) w1 w2 w3 w4
      obtain ⟨e, he, hl, hs, ha⟩ := zcheck_entry hc H.inv hp hk hkf
      rw [hka] at ha
      have hh := hc.tHash_lt p hp
      generalize c.tHash p = h at *
      have hok := (H.inv.w.chains h hh).ok e he
      have hrd := entry_live hc H.inv hh he hl (q := e.path) rfl
      have hzr : zread c s e.path = some (some (recAt s.disk e)) := by rw [zread_abs hc H.inv hok.len, hrd]
      have huniq : ∀ h', h' < c.maxHash → ∀ f ∈ centries (G.chain h'), live f → f.infoAdd = x → f = e := by
        intro h' hh' f hf hlf hfa
        exact (entry_unique hc H.inv hh' hh hf he (live_not_gone hlf) (live_not_gone hl) (by omega)).2
      have hpeq : ∀ h', h' < c.maxHash → ∀ f ∈ centries (G.chain h'), live f → Same e.path f.path → f = e := by
        intro h' hh' f hf hlf hsf
        have hok' := (H.inv.w.chains h' hh').ok f hf
        have h1 : h' = h := by rw [← hok'.hash, ← hok.hash]; exact (hc.tHash_same _ _ hsf).symm
        subst h1
        obtain ⟨A, B, hE⟩ := List.append_of_mem he
        obtain ⟨o1, o2⟩ := order_split (H.inv.w.chains h' hh') hE
        rw [hE] at hf
        rcases List.mem_append.mp hf with h5 | h5
        · exact absurd (o1 f h5 (live_not_gone hlf) hsf.symm) (live_not_dead hl)
        · rcases List.mem_cons.mp h5 with h6 | h6
          · exact h6
          · exact absurd (o2 f h6 (live_not_gone hl) hsf) (live_not_dead hlf)
      have hnone : (abs cd Gd t.disk).live e.path = none := by
        refine C.only _ fun h' hh' f hf hlf hsf => ?_
        have := hpeq h' hh' f hf hlf hsf
        rw [this, ha]; exact Nat.le_refl _
      obtain ⟨Gd1, t1, hcp, H1, S1, N1⟩ := copy_one hc hcd H hh he hl C.inv hnone
        (hfull e.path _ hok.len hzr) (fun h1 h2 h3 => hnew e.path _ hok.len hzr h1 h2 h3)
        (hlog e.path _ (Or.inl hrd)) env
      rw [ha] at hcp
      rw [hcp]
      simp only [Option.bind_some]
      refine ih (x + 1) Gd1 t1 (by omega) ⟨H1, ?_, ?_, ?_⟩
      · intro h' hh' f hf hlf hfx q hq
        by_cases hfa : f.infoAdd = x
        · have := huniq h' hh' f hf hlf hfa
          subst this
          exact (S1 q).1 (same_iff.mpr hq.symm)
        · rw [(S1 q).2 (fun h => hfa (by
            have := hpeq h' hh' f hf hlf ((same_iff.mp h).trans hq)
            rw [this, ha]))]
          exact C.there h' hh' f hf hlf (by omega) q hq
      · intro q hq
        have hnq : ¬ Spec.sameUpToCase e.path q := by
          intro hsq
          have := hq h hh e he hl (same_iff.mp hsq).symm
          omega
        rw [(S1 q).2 hnq]
        refine C.only q fun h' hh' f hf hlf hsf => ?_
        have := hq h' hh' f hf hlf hsf
        omega
      · rw [N1, C.number, ← ha]
        exact (below_one hc H.inv hh he hl).symm
    · rw [if_neg hb]
      simp only [Option.bind_some]
      have hno : ∀ h, h < c.maxHash → ∀ e ∈ centries (G.chain h), live e → e.infoAdd ≠ x := by
        intro h hh e he hl hx'
        have hok := (H.inv.w.chains h hh).ok e he
        have := isInfoBlock_entry (H.heads h hh e he (live_not_gone hl)) hl hok.pos hok.len
        rw [hx'] at this
        exact hb this
      refine ih (x + 1) Gd t (by omega) ⟨C.inv, ?_, ?_, ?_⟩
      · intro h hh e he hl hx' q hq
        have := hno h hh e he hl
        exact C.there h hh e he hl (by omega) q hq
      · intro q hq
        refine C.only q fun h hh e he hl hs => ?_
        have := hq h hh e he hl hs
        omega
      · rw [C.number, below_same hno]

theorem permWrite_HInv {Gd : Ghost} {t : Eng} {past : List Op} (hc : c.OK) (H : HInv c Gd t past) :
    HInv c Gd (t.permWrite c) past ∧ (abs c Gd (t.permWrite c).disk).live = (abs c Gd t.disk).live := by
  have I := H.inv
  have hh := hc.tHash_lt [] (by simp)
  have I0 : InvW c Gd t.disk (c.tHash []) 0 := I.w.idle
  have S0 : St c [] Gd t (c.tHash []) 0 Gd t 0 := St.start I0 hh hc
  have hq : ∀ i, i < c.hdrSize → Gd.own (0 + i) = .sys := fun i hi => by rw [Nat.zero_add]; exact I.w.sys i hi
  have S1 : St c [] Gd t (c.tHash []) 0 Gd (t.permWrite c) 0 := S0.quiet hc I0 (fun i hi => Or.inr (Or.inl (hq i hi)))
  have D : Done c [] 0 Gd t Gd (t.permWrite c) := ⟨S1, I.h, I.last⟩
  have hz : ∀ x ∈ centries (Gd.chain (c.tHash [])), ¬ gone x → x.infoAdd ≠ 0 := fun x hx => I.w.info_ne hc hh hx
  have E : EditAt c [] Gd t Gd (t.permWrite c) (centries (Gd.chain (c.tHash []))) [] [] [] :=
    .of_done hc hh I D (by simp) (by simp) (by simpa using hz)
  refine ⟨⟨D.inv, H.count, Heads.edit hc D (A := centries (Gd.chain (c.tHash []))) (B := []) (o := []) (n := []) (by simp) (by simp) (by simpa using hz) (by simp) H.heads, H.trash⟩, ?_⟩
  funext q; exact E.live hc (by simp) (by simp)

end Hec
