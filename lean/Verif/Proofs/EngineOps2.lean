import Verif.Proofs.EngineOps
/-! The operations on existing records. -/
namespace Hec
set_option linter.unusedSimpArgs false
set_option linter.unusedVariables false

variable {c : Cfg} {p : Bytes} {G0 : Ghost} {s0 : Eng} {hx a0 : Nat}

theorem InvW.weaken (hc : c.OK) (hh : hx < c.maxHash) {G : Ghost} {d : Disk} (I : InvW c G d hx 0) (ax : Nat) : InvW c G d hx ax := by
  refine ⟨I.sys, I.tab, I.free, fun h' hh' => ?_, I.blk⟩
  have k := I.chains h' hh'
  refine ⟨k.at_, k.bins, k.ok, k.rcd, k.nodupB, k.nodupR, k.order, ?_⟩
  intro e he hg _
  exact k.recs e he hg (by simp only [ite_self]; exact I.info_ne hc hh' he hg)

theorem St.weaken (hc : c.OK) (hh : hx < c.maxHash) {G : Ghost} {s : Eng} (S : St c p G0 s0 hx a0 G s 0) :
    St c p G0 s0 hx a0 G s a0 :=
  S.ghost (S.inv.weaken hc hh a0) (fun _ _ _ h => h) (fun _ _ _ => rfl) (fun _ _ => ⟨rfl, rfl⟩) S.near.edit (Or.inl rfl)

/-- Fields of an entry on disk are changed. -/
theorem EntryAt_update {d d' : Disk} {x : Nat} {e : BinEnt} (h : EntryAt c d x e)
    (hd : ∀ i, i ≠ 1 → i ≠ 3 → i ≠ 5 → i ≠ 6 → d' (x + i) = d (x + i)) :
    EntryAt c d' x { e with st := d' (x + 1), infoAdd := d' (x + 3), lastWrite := d' (x + 5), dates := d' (x + 6) } := by
  obtain ⟨h0, h1, h2, h3, h4, h5, h6, h7⟩ := h
  refine ⟨?_, rfl, ?_, rfl, ?_, rfl, rfl, ?_⟩
  · rw [← h0]; exact hd 0 (by omega) (by omega) (by omega) (by omega)
  · rw [← h2]; exact hd 2 (by omega) (by omega) (by omega) (by omega)
  · rw [← h4]; exact hd 4 (by omega) (by omega) (by omega) (by omega)
  · refine Eq.trans (unpackBytes_congr fun j hj => ?_) h7
    rw [Nat.add_assoc]
    exact hd (7 + j) (by omega) (by omega) (by omega) (by omega)

theorem entry_at {G : Ghost} {s : Eng} {ax b : Nat} {C1 C2 : Chain} {pre post : List BinEnt} {e : BinEnt}
    (I : InvW c G s.disk hx ax) (hh : hx < c.maxHash) (hC : G.chain hx = C1 ++ (b, pre ++ e :: post) :: C2) :
    EntryAt c s.disk (b + esize pre) e := by
  have k := I.chains hx hh
  rw [hC] at k
  obtain ⟨hbin, _⟩ := ChainAt_bin C1 k.at_
  exact (EntriesAt_append.mp hbin.entries).2.1

/-- One write into an entry of the chain. -/
theorem modify_ok (hc : c.OK) (I0 : InvW c G0 s0.disk hx 0) (hh : hx < c.maxHash) {G : Ghost} {s : Eng} {ax ax' b : Nat}
    (S : St c p G0 s0 hx a0 G s ax) {C1 C2 : Chain} {pre post : List BinEnt} {e e' e0 : BinEnt}
    (hC : G.chain hx = C1 ++ (b, pre ++ e :: post) :: C2) (hp : e'.path = e.path) (hsame : Same p e.path)
    (hst : live e' ∨ dead e')
    {off n : Nat} {f : Nat → Nat} (hoff : off + n ≤ 7)
    (hat : EntryAt c (s.put (b + esize pre + off) n f).disk (b + esize pre) e')
    (hrcd : ¬ gone e' → Owned G.own hx (G.room e'.infoAdd) e')
    (hnew : ∀ g ∈ (centries C1 ++ pre) ++ (post ++ centries C2), ¬ gone g → ¬ gone e' → g.infoAdd ≠ e'.infoAdd)
    (hordA : ∀ g ∈ centries C1 ++ pre, ¬ gone g → Same g.path e'.path → dead e')
    (hordB : ∀ g ∈ post ++ centries C2, ¬ gone e' → Same e'.path g.path → dead g)
    (hrec : ¬ gone e' → e'.infoAdd ≠ ax' → RecOK c s.disk (G.room e'.infoAdd) e')
    (hax : ax = ax' ∨ ∀ g ∈ (centries C1 ++ pre) ++ (post ++ centries C2), ¬ gone g → g.infoAdd ≠ ax)
    (hE0 : centries (G0.chain hx) = (centries C1 ++ pre) ++ e0 :: (post ++ centries C2)) (hs0 : Same p e0.path)
    (hlen : (G.chain hx).length = (G0.chain hx).length)
    (hfresh : ax' = a0 ∨ ∀ g ∈ centries (G0.chain hx), ¬ gone g → g.infoAdd ≠ ax') :
    St c p G0 s0 hx a0 { G with chain := (fun h => if h = hx then C1 ++ (b, pre ++ e' :: post) :: C2 else G.chain h), last := (fun h => if h = hx then G.last hx else G.last h) } (s.put (b + esize pre + off) n f) ax' := by
  have hi := hc.isize
  have K := S.inv.chains hx hh
  rw [hC] at K
  obtain ⟨hbin, _⟩ := ChainAt_bin C1 K.at_
  have hfit := hbin.fits
  simp only [esize_append, esize, BinEnt.size] at hfit
  have hok0 : EntryOK c hx e := K.ok e (by simp)
  have hbown : ∀ i, i < n → G.own (b + esize pre + off + i) = .bin hx b := by
    intro i hi'
    have := K.bins (b, pre ++ e :: post) (by simp) (esize pre + off + i) (by omega)
    rw [show b + esize pre + off + i = b + (esize pre + off + i) by omega]; exact this
  have hinv := S.inv.replace hc hh (d' := (s.put (b + esize pre + off) n f).disk) (ax' := ax') (e' := e') hC
    (by simp only [BinEnt.size, hp]) hat
    (by
      intro x
      by_cases hx' : b + esize pre + off ≤ x ∧ x < b + esize pre + off + n
      · right; simp only [BinEnt.size]; omega
      · left; rw [put_disk]; exact apply_out hx')
    ⟨by rw [hp]; exact hok0.hash, by rw [hp]; exact hok0.pos, by rw [hp]; exact hok0.len, hst⟩ hrcd hnew hordA hordB
    (fun hge hne => RecOK_congr rfl rfl rfl rfl (fun i hi' => by
      have hcol := (hrcd hge).info hi'
      rw [put_disk]; apply apply_out
      rintro ⟨h1, h2⟩
      simp only at h1 h2
      have := hbown (e'.infoAdd + i - (b + esize pre + off)) (by omega)
      rw [show b + esize pre + off + (e'.infoAdd + i - (b + esize pre + off)) = e'.infoAdd + i by omega, hcol] at this
      cases this) (hrec hge hne)) hax
  refine S.step hc I0 hinv (fun _ _ _ h => h) (fun _ _ _ => rfl) ?_ ?_ ?_ hfresh
  · intro h hne; simp [hne]
  · intro i hi' h b' hb
    rw [hbown i hi'] at hb; cases hb
  · simp only [if_true]
    rw [hC] at hlen
    refine ⟨by rw [← hlen]; simp, centries C1 ++ pre, post ++ centries C2, [e0], [e'], by rw [hE0]; simp, by simp, ?_, ?_⟩
    · intro y hy; simp at hy; rw [hy]; exact Or.inl hs0
    · intro y hy; simp at hy; rw [hy, hp]; exact hsame

/-- A record is found: what zreadInfo gives. -/
theorem zreadInfo_some (hc : c.OK) {G : Ghost} {s : Eng} {ax : Nat} {q : Bytes} (I : InvW c G s.disk hx ax)
    {wanted : Nat} (hh : c.tHash q < c.maxHash) {C1 C2 : Chain} {b : Nat} {pre post : List BinEnt} {e : BinEnt}
    (hC : G.chain (c.tHash q) = C1 ++ (b, pre ++ e :: post) :: C2)
    (hlen : (G.chain (c.tHash q)).length ≤ s.hdr.totalBins + 1)
    (hno : ∀ x ∈ centries C1 ++ pre, ¬ EMatch q wanted x) (hm : EMatch q wanted e)
    (hr : s.disk (e.infoAdd + kinfoHash) = c.pHash e.path) :
    ∃ ws, zreadInfo c s q wanted = some (⟨true, s.disk (c.hashStart + c.tHash q), b, ws, b + esize pre, e.infoAdd⟩,
      some fun i => s.disk (e.infoAdd + i)) := by
  obtain ⟨ws, h⟩ := zcheck_some hc I hh hC hlen hno hm
  refine ⟨ws, ?_⟩
  unfold zreadInfo
  rw [h]
  simp only [Option.map_some, if_true]
  rw [if_pos]
  rw [hr]
  exact (hc.pHash_same _ _ hm.1).symm

/-- Everything about the entry an operation works on. -/
structure Target (c : Cfg) (G : Ghost) (d : Disk) (p : Bytes) (A B : List BinEnt) (e : BinEnt) (R : Rec) : Prop where
  ents : centries (G.chain (c.tHash p)) = A ++ e :: B
  same : Same p e.path
  rcd : RecIs c d (G.room e.infoAdd) e R

theorem numberInfo_same {p q : Bytes} (h : Same p q) : numberInfo p = numberInfo q := by
  simp only [numberInfo, h.length]

theorem others_ne {own : Nat → Own} {room : Nat → Ext} {d : Disk} {h last ax : Nat} {C : Chain} {A B : List BinEnt} {e : BinEnt}
    (k : ChainOK c own room d h last ax C) (hE : centries C = A ++ e :: B) : ∀ g ∈ A ++ B, ¬ gone g → ¬ gone e → g.infoAdd ≠ e.infoAdd := by
  intro g hg hgg hge
  have hn := k.nodupR
  rw [hE, List.pairwise_append] at hn
  rcases List.mem_append.mp hg with h | h
  · exact hn.2.2 g h e (by simp) hgg hge
  · exact fun he => (List.pairwise_cons.mp hn.2.1).1 g h hge hgg he.symm

theorem order_split {own : Nat → Own} {room : Nat → Ext} {d : Disk} {h last ax : Nat} {C : Chain} {A B : List BinEnt} {e : BinEnt}
    (k : ChainOK c own room d h last ax C) (hE : centries C = A ++ e :: B) :
    (∀ g ∈ A, ¬ gone g → Same g.path e.path → dead e) ∧ (∀ g ∈ B, ¬ gone e → Same e.path g.path → dead g) := by
  have ho := k.order
  rw [hE, List.pairwise_append] at ho
  refine ⟨fun g hg => ho.2.2 g hg e (by simp), fun g hg => ?_⟩
  exact (List.pairwise_cons.mp ho.2.1).1 g hg

/-- The record of an entry with the same path and address after the entry was changed. -/
theorem RecIs_bin {G : Ghost} {s : Eng} {a n : Nat} {f : Nat → Nat} {e e' : BinEnt} {R : Rec}
    (hcol : Owned G.own hx (G.room e.infoAdd) e)
    (hb : ∀ i, i < n → ∃ h b, G.own (a + i) = .bin h b) (hp : e'.path = e.path) (ha : e'.infoAdd = e.infoAdd) (ht : e'.typeCat = e.typeCat)
    (hr : RecIs c s.disk (G.room e.infoAdd) e R) : RecIs c (s.put a n f).disk (G.room e'.infoAdd) e' R := by
  refine RecIs_congr (by rw [ha]) hp ha ht (fun x hi => ?_) hr
  rw [put_disk]; apply apply_out
  rintro ⟨h1, h2⟩
  simp only at h1 h2
  obtain ⟨h, b, hbb⟩ := hb (x - a) (by omega)
  rw [show a + (x - a) = x by omega, hcol.mine x hi] at hbb
  cases hbb

/-- Deleting or undeleting. -/
theorem setStatus_ok (hc : c.OK) {G : Ghost} {s : Eng} (I : Inv c G s) (path : Bytes) (hlen : path.length ≤ 392) (undelete : Bool)
    {A B : List BinEnt} {e : BinEnt} {R : Rec} (T : Target c G s.disk path A B e R)
    (hm : EMatch path (if undelete then REC_STATUS_DELETED else REC_STATUS_VALID) e)
    (hA : ∀ x ∈ A, Same path x.path → gone x) (hB : ∀ x ∈ B, Same path x.path → dead x) :
    ∃ G' s' e', zdeleteInternal c s path undelete = some (s', .ok) ∧ Done c path e.infoAdd G s G' s' ∧
      (e'.path = e.path ∧ e'.lastWrite = e.lastWrite) ∧ e'.st = (if undelete then REC_STATUS_VALID else REC_STATUS_DELETED) ∧
      s'.hdr.numberRecords = (if undelete then s.hdr.numberRecords + 1 else s.hdr.numberRecords - 1) ∧
      RecIs c s'.disk (G'.room e'.infoAdd) e' R ∧ (HeadOK s.disk e → HeadOK s'.disk e') ∧ centries (G'.chain (c.tHash path)) = A ++ e' :: B := by
  have hi := hc.isize
  have hh := hc.tHash_lt path hlen
  generalize hhx : c.tHash path = hx at *
  have I0 : InvW c G s.disk hx 0 := I.w.idle
  have K := I0.chains hx hh
  have hE := T.ents
  rw [hhx] at hE
  obtain ⟨C1, b, pre, post, C2, hC, hAeq, hBeq⟩ := split_centries hE
  have hlen' : (G.chain hx).length ≤ s.hdr.totalBins + 1 := by have := I.h.len hx hh; omega
  have hno : ∀ x ∈ centries C1 ++ pre, ¬ EMatch path (if undelete then REC_STATUS_DELETED else REC_STATUS_VALID) x := by
    intro x hx' hmm
    rw [← hAeq] at hx'
    have h1 := hA x hx' hmm.1
    have h2 := hmm.2
    rw [gone] at h1
    rw [h1] at h2
    cases undelete <;> simp [statusMatches, REC_STATUS_VALID, REC_STATUS_RENAMED, REC_STATUS_PRIMARY, REC_STATUS_DELETED] at h2
  obtain ⟨ws, hri⟩ := zreadInfo_some hc I0 (q := path) (wanted := if undelete then REC_STATUS_DELETED else REC_STATUS_VALID)
    (by rw [hhx]; exact hh) (by rw [hhx]; exact hC) (by rw [hhx]; exact hlen') hno hm T.rcd.ok.hash
  have S0 : St c path G s hx e.infoAdd G s 0 := St.start I0 hh hc
  have hmem : e ∈ centries (G.chain hx) := by rw [hE]; simp
  have hge : ¬ gone e := by
    intro h1
    have h2 := hm.2
    rw [gone] at h1
    rw [h1] at h2
    cases undelete <;> simp [statusMatches, REC_STATUS_VALID, REC_STATUS_RENAMED, REC_STATUS_PRIMARY, REC_STATUS_DELETED] at h2
  have hcol := K.rcd e hmem hge
  have hlive : ∀ st, st = (if undelete then REC_STATUS_VALID else REC_STATUS_DELETED) → (st = 0 ∨ st = 1) ∨ st = REC_STATUS_DELETED := by
    intro st h; rw [h]; cases undelete <;> simp [REC_STATUS_VALID, REC_STATUS_DELETED]
  generalize hns : (if undelete then REC_STATUS_VALID else REC_STATUS_DELETED) = ns at *
  let e' : BinEnt := { e with st := ns }
  have hge' : ¬ gone e' := by
    rw [gone]; show ¬ ns = _
    rw [← hns]; cases undelete <;> simp [REC_STATUS_VALID, REC_STATUS_RENAMED, REC_STATUS_DELETED]
  have hat0 := entry_at I0 hh hC
  let s1 := s.put (b + esize pre + 1) 1 fun _ => ns
  have hat : EntryAt c s1.disk (b + esize pre) e' := by
    have h1 : ∀ i, i ≠ 1 → s1.disk (b + esize pre + i) = s.disk (b + esize pre + i) := by
      intro i hi'; exact apply_out (by simp only; omega)
    have h2 : s1.disk (b + esize pre + 1) = ns := apply_in (w := ⟨b + esize pre + 1, 1, _⟩) (i := 0) (by simp)
    have := EntryAt_update (d' := s1.disk) hat0 (fun i h _ _ _ => h1 i h)
    rw [h1 3 (by omega), h1 5 (by omega), h1 6 (by omega), h2] at this
    obtain ⟨_, _, _, h3, _, h5, h6, _⟩ := hat0
    rw [h3, h5, h6] at this
    exact this
  have hbown : ∀ i, i < 1 → ∃ h b', G.own (b + esize pre + 1 + i) = .bin h b' := by
    intro i hi'
    have hK := K
    rw [hC] at hK
    obtain ⟨hbin, _⟩ := ChainAt_bin C1 hK.at_
    have hfit := hbin.fits
    simp only [esize_append, esize, BinEnt.size] at hfit
    have := hK.bins (b, pre ++ e :: post) (by simp) (esize pre + 1 + i) (by omega)
    exact ⟨hx, b, by rw [show b + esize pre + 1 + i = b + (esize pre + 1 + i) by omega]; exact this⟩
  have S1 := modify_ok hc I0 hh S0 (ax' := 0) (e' := e') (e0 := e) hC rfl T.same ((hlive ns rfl).imp id Or.inl) (off := 1) (n := 1) (by omega) hat (fun _ => Owned.congr (e := e) rfl rfl hcol)
    (by rw [← hAeq, ← hBeq]; intro g hg h1 _; exact others_ne (e := e) K hE g hg h1 hge)
    (by rw [← hAeq]; intro g hg hgg hs; exact absurd (hA g hg (T.same.trans hs.symm)) hgg)
    (by rw [← hBeq]; intro g hg _ hs; exact hB g hg (T.same.trans hs))
    (fun _ _ => RecOK_congr (e := e) rfl rfl rfl rfl (fun _ _ => rfl) T.rcd.ok) (Or.inl rfl) (by rw [hE, hAeq, hBeq]) T.same rfl
    (Or.inr fun g hg hgg => I0.info_ne hc hh hg hgg)
  have R1 : RecIs c s1.disk (G.room e'.infoAdd) e' R := RecIs_bin hcol hbown rfl rfl rfl T.rcd
  -- the info block
  let G1 : Ghost := { G with chain := (fun h => if h = hx then C1 ++ (b, pre ++ e' :: post) :: C2 else G.chain h), last := (fun h => if h = hx then G.last hx else G.last h) }
  have hE1 : centries (G1.chain hx) = A ++ e' :: B := by simp [G1, hAeq, hBeq]
  have hmem1 : e' ∈ centries (G1.chain hx) := by rw [hE1]; simp
  let info := upd (fun i => s.disk (e.infoAdd + i)) kinfoStatus ns
  let s2 := s1.put e.infoAdd (numberInfo path) info
  have hni : numberInfo path = numberInfo e.path := numberInfo_same T.same
  have S2 : St c path G s hx e.infoAdd G1 s2 e.infoAdd :=
    St.quiet hc I0 (St.weaken hc hh S1) (fun i hi' => Or.inr (Or.inr ⟨hcol.mine _ (InRec.info (by omega)), I0.info_ne hc hh hmem hge⟩))
  have hk1 : ∀ x, InRec (G.room e.infoAdd) e x → s1.disk x = s.disk x := by
    intro x hi'
    apply apply_out
    rintro ⟨h1, h2⟩
    simp only at h1 h2
    obtain ⟨h, b', hb⟩ := hbown (x - (b + esize pre + 1)) (by omega)
    rw [show b + esize pre + 1 + (x - (b + esize pre + 1)) = x by omega, hcol.mine x hi'] at hb
    cases hb
  have R2 : RecIs c s2.disk (G1.room e'.infoAdd) e' R := by
    refine RecIs_congr1 rfl rfl rfl rfl (fun i hi' hne => ?_) (fun i hi' => ?_) R1
    · show Wr.apply ⟨e.infoAdd, numberInfo path, info⟩ s1.disk (e.infoAdd + i) = _
      have hlt : i < numberInfo path := by simp only [numberInfo, infoSize]; omega
      rw [apply_in (w := ⟨e.infoAdd, numberInfo path, info⟩) hlt]
      refine Eq.trans ?_ (hk1 _ (InRec.info30 hi')).symm
      simp only [info, upd, if_neg hne]
    · have hap := hcol.apart
      have hi' : i < (G.room e.infoAdd).cap := hi'
      exact apply_out (show ¬ (e.infoAdd ≤ (G.room e.infoAdd).dat + i ∧ (G.room e.infoAdd).dat + i < e.infoAdd + numberInfo path) by omega)
  let s3 : Eng := { s2 with hdr := if undelete then
          { s2.hdr with numberRecords := s2.hdr.numberRecords + 1, numberDeletes := s2.hdr.numberDeletes - 1 }
        else { s2.hdr with numberRecords := s2.hdr.numberRecords - 1, numberDeletes := s2.hdr.numberDeletes + 1 } }
  have H3 : InvH c G1 s3.hdr := by
    have hl : ∀ x, x < c.maxHash → (G1.chain x).length ≤ s.hdr.totalBins := by
      intro x hx'
      have := I.h.len x hx'
      simp only [G1]
      split
      · next h => rw [h, hC] at this; simpa using this
      · exact this
    have : ∀ h : Hdr, h.fileSize = s.hdr.fileSize → h.binsRemain = s.hdr.binsRemain → h.nextEmpty = s.hdr.nextEmpty →
        h.totalBins = s.hdr.totalBins → InvH c G1 h := by
      intro h h1 h2 h3 h4
      refine ⟨?_, ?_, ?_, ?_, by rw [h2, h3]; exact ⟨I.h.spare.tail, I.h.spare.used, I.h.spare.lastB⟩⟩
      · rw [h1]; exact I.h.beyond
      · rw [h2, h3]; exact I.h.free
      · rw [h2, h3]; exact I.h.link
      · rw [h4]; exact hl
    show InvH c G1 (if undelete then _ else _)
    cases undelete <;> exact this _ rfl rfl rfl rfl
  have S3 : St c path G s hx e.infoAdd G1 s3 e'.infoAdd := S2.hdr rfl rfl
  obtain ⟨S4, h4, r4, i4⟩ := close_ok hc I0 hh S3 hmem1 hge' R2 H3 false
  have hhead : HeadOK s.disk e → HeadOK (s3.permWrite c).disk e' := by
    intro H
    have hd : ∀ i, i < numberInfo e.path → (s3.permWrite c).disk (e.infoAdd + i) = info i := by
      intro i hi'
      refine (i4 i hi').trans ?_
      show Wr.apply ⟨e.infoAdd, numberInfo path, info⟩ s1.disk (e.infoAdd + i) = _
      exact apply_in (w := ⟨e.infoAdd, numberInfo path, info⟩) (by simp only; omega)
    refine HeadInfo.status (fun i hi' hne => ?_) H (fun h => ?_) (fun h => ?_)
    · refine (hd i hi').trans ?_
      simp only [info, upd, if_neg hne]
    · show (s3.permWrite c).disk (e.infoAdd + kinfoStatus) ≤ 1
      rw [hd _ (by simp only [numberInfo, infoSize, kinfoStatus]; omega)]
      have h : ns = 0 ∨ ns = 1 := h
      simp only [info, upd, if_true]; omega
    · show (s3.permWrite c).disk (e.infoAdd + kinfoStatus) = _
      rw [hd _ (by simp only [numberInfo, infoSize, kinfoStatus]; omega)]
      simp only [info, upd, if_true]; exact h
  refine ⟨G1, _, e', ?_, ⟨by rw [hhx]; exact S4, by rw [h4]; exact H3, ?_⟩, ⟨rfl, rfl⟩, rfl, ?_, r4, hhead, hE1⟩
  · unfold zdeleteInternal
    simp only [hri, Option.map_some]
    rw [hns]
    rfl
  · intro h hh'
    simp only [G1]
    split
    · exact I.last hx hh
    · exact I.last h hh'
  · rw [h4]
    show (if undelete then _ else _ : Hdr).numberRecords = _
    cases undelete <;> rfl

end Hec
