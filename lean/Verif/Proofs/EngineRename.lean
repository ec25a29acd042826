import Verif.Proofs.EngineStep
import Verif.Model.Rename
/-! Renaming: the entry of the old pathname is marked, and the record gets an entry under the new one. -/
namespace Hec
set_option linter.unusedSimpArgs false
set_option linter.unusedVariables false
open _root_.Spec (Op Store Step Set DropOne)

variable {c : Cfg}

/-- The entry of a record is marked as renamed. -/
theorem kill_ok (hc : c.OK) {G : Ghost} {s : Eng} (I : Inv c G s) {p : Bytes} (hlen : p.length ≤ 392)
    {A B : List BinEnt} {e : BinEnt} {R : Rec} (T : Target c G s.disk p A B e R)
    (hm : EMatch p REC_STATUS_VALID e) (hA : ∀ x ∈ A, Same p x.path → gone x) :
    ∃ k, zcheck c s p REC_STATUS_VALID = some k ∧ k.found = true ∧ k.infoAdd = e.infoAdd ∧
      EntryAt c s.disk k.pathBinAddress e ∧
      ∀ (info : Nat → Nat) (grown : Bool), ∃ G1, Done c p e.infoAdd G s G1 (markRenamed s k (numberInfo e.path) info grown) ∧
        (markRenamed s k (numberInfo e.path) info grown).hdr = s.hdr ∧
        centries (G1.chain (c.tHash p)) = A ++ { e with st := REC_STATUS_RENAMED } :: B ∧
        G1.own = G.own ∧ G1.room = G.room ∧
        (∀ i, i < (G.room e.infoAdd).cap → (markRenamed s k (numberInfo e.path) info grown).disk ((G.room e.infoAdd).dat + i) = s.disk ((G.room e.infoAdd).dat + i)) := by
  have hi := hc.isize
  have hh := hc.tHash_lt p hlen
  generalize hhx : c.tHash p = hx at *
  have I0 : InvW c G s.disk hx 0 := I.w.idle
  have K := I0.chains hx hh
  have hE := T.ents
  rw [hhx] at hE
  obtain ⟨C1, b, pre, post, C2, hC, hAeq, hBeq⟩ := split_centries hE
  have hlen' : (G.chain hx).length ≤ s.hdr.totalBins + 1 := by have := I.h.len hx hh; omega
  have hno : ∀ x ∈ centries C1 ++ pre, ¬ EMatch p REC_STATUS_VALID x := by
    intro x hx' hmm
    rw [← hAeq] at hx'
    exact hmm.not_dead (Or.inr (hA x hx' hmm.1))
  obtain ⟨ws, hk⟩ := zcheck_some hc I0 (q := p) (wanted := REC_STATUS_VALID)
    (by rw [hhx]; exact hh) (by rw [hhx]; exact hC) (by rw [hhx]; exact hlen') hno hm
  have hat0 := entry_at I0 hh hC
  refine ⟨_, hk, rfl, rfl, hat0, ?_⟩
  intro info grown
  have S0 : St c p G s hx e.infoAdd G s 0 := St.start I0 hh hc
  have hmem : e ∈ centries (G.chain hx) := by rw [hE]; simp
  have hge : ¬ gone e := EMatch.not_gone (Or.inl hm)
  have hcol := K.rcd e hmem hge
  let e' : BinEnt := { e with st := REC_STATUS_RENAMED }
  have hge' : gone e' := rfl
  let s1 := s.put (b + esize pre + 1) 1 fun _ => REC_STATUS_RENAMED
  have hat : EntryAt c s1.disk (b + esize pre) e' := by
    have h1 : ∀ i, i ≠ 1 → s1.disk (b + esize pre + i) = s.disk (b + esize pre + i) := by
      intro i hi'; exact apply_out (by simp only; omega)
    have h2 : s1.disk (b + esize pre + 1) = REC_STATUS_RENAMED := apply_in (w := ⟨b + esize pre + 1, 1, _⟩) (i := 0) (by simp)
    have := EntryAt_update (d' := s1.disk) hat0 (fun i h _ _ _ => h1 i h)
    rw [h1 3 (by omega), h1 5 (by omega), h1 6 (by omega), h2] at this
    obtain ⟨_, _, _, h3, _, h5, h6, _⟩ := hat0
    rw [h3, h5, h6] at this
    exact this
  have hbown : ∀ i, i < 1 → ∃ h b', G.own (b + esize pre + 1 + i) = .bin h b' := by
    intro i hi'
    have hK := K
    rw [hC] at hK
    obtain ⟨hbin, _⟩ := ChainAt_bin C1 hK.at_
    have hfit := hbin.fits
    simp only [esize_append, esize, BinEnt.size] at hfit
    have := hK.bins (b, pre ++ e :: post) (by simp) (esize pre + 1 + i) (by omega)
    exact ⟨hx, b, by rw [show b + esize pre + 1 + i = b + (esize pre + 1 + i) by omega]; exact this⟩
  have S1 := modify_ok hc I0 hh S0 (ax' := 0) (e' := e') (e0 := e) hC rfl T.same (Or.inr (Or.inr hge')) (off := 1) (n := 1) (by omega) hat (fun h => absurd hge' h)
    (fun g hg h1 h2 => absurd hge' h2) (fun g hg hgg hs => Or.inr hge') (fun g hg h _ => absurd hge' h)
    (fun h _ => absurd hge' h) (Or.inl rfl) (by rw [hE, hAeq, hBeq]) T.same rfl
    (Or.inr fun g hg hgg => I0.info_ne hc hh hg hgg)
  let G1 : Ghost := { G with chain := (fun h => if h = hx then C1 ++ (b, pre ++ e' :: post) :: C2 else G.chain h), last := (fun h => if h = hx then G.last hx else G.last h) }
  have hE1 : centries (G1.chain hx) = A ++ e' :: B := by simp [G1, hAeq, hBeq]
  have hk1 : ∀ x, InRec (G.room e.infoAdd) e x → s1.disk x = s.disk x := by
    intro x hi'
    apply apply_out
    rintro ⟨h1, h2⟩
    simp only at h1 h2
    obtain ⟨h, b', hb⟩ := hbown (x - (b + esize pre + 1)) (by omega)
    rw [show b + esize pre + 1 + (x - (b + esize pre + 1)) = x by omega, hcol.mine x hi'] at hb
    cases hb
  have H1 : ∀ h : Hdr, h = s.hdr → InvH c G1 h := by
    intro h h1
    subst h1
    refine I.h.same rfl rfl rfl ?_ rfl rfl rfl rfl
    intro x hx'
    simp only [G1]
    split
    · next h => rw [h, hC]; simp
    · rfl
  have hlast : ∀ h, h < c.maxHash → G1.last h = 0 := by
    intro h hh'
    simp only [G1]
    split
    · exact I.last hx hh
    · exact I.last h hh'
  refine ⟨G1, ?_⟩
  unfold markRenamed
  cases grown
  · refine ⟨⟨by rw [hhx]; exact S1, H1 _ rfl, hlast⟩, rfl, hE1, rfl, rfl, fun i hi' => hk1 _ (InRec.arr hi')⟩
  · have S2 : St c p G s hx e.infoAdd G1 (s1.put e.infoAdd (numberInfo e.path) (upd info kinfoStatus REC_STATUS_RENAMED)) e.infoAdd :=
      St.quiet hc I0 (St.weaken hc hh S1) (fun i hi' => Or.inr (Or.inr ⟨hcol.mine _ (InRec.info (by omega)), I0.info_ne hc hh hmem hge⟩))
    have S3 : St c p G s hx e.infoAdd G1 (s1.put e.infoAdd (numberInfo e.path) (upd info kinfoStatus REC_STATUS_RENAMED)) 0 := by
      refine S2.ghost (S2.inv.finish ?_) (fun _ _ _ h => h) (fun _ _ _ => rfl) (fun _ _ => ⟨rfl, rfl⟩) S2.near.edit
        (Or.inr fun f hf hg' => I0.info_ne hc hh hf hg')
      intro f hf hg hfe
      rw [hE1] at hf
      rcases List.mem_append.mp hf with h | h
      · exact absurd hfe (others_ne (e := e) K hE f (by simp [h]) hg hge)
      · rcases List.mem_cons.mp h with h | h
        · rw [h] at hg; exact absurd hge' hg
        · exact absurd hfe (others_ne (e := e) K hE f (by simp [h]) hg hge)
    refine ⟨⟨by rw [hhx]; exact S3, H1 _ rfl, hlast⟩, rfl, hE1, rfl, rfl, fun i hi' => ?_⟩
    have hap := hcol.apart
    have : i < (G.room e.infoAdd).cap := hi'
    refine Eq.trans ?_ (hk1 _ (InRec.arr hi'))
    exact apply_out (show ¬ (e.infoAdd ≤ (G.room e.infoAdd).dat + i ∧ (G.room e.infoAdd).dat + i < e.infoAdd + numberInfo e.path) by omega)

/-- The words of a record without entry lose their owner. -/
def looseGhost (G : Ghost) (hx a : Nat) : Ghost := { G with own := fun x => if G.own x = .rcd hx a then .none else G.own x }

theorem loose_ne {G : Ghost} {hx a x : Nat} (h : G.own x ≠ .rcd hx a) : (looseGhost G hx a).own x = G.own x := by
  simp only [looseGhost, if_neg h]

theorem loose_none {G : Ghost} {hx a x : Nat} (h : G.own x = .rcd hx a) : (looseGhost G hx a).own x = .none := by
  simp only [looseGhost, if_pos h]

theorem loose_iff {G : Ghost} {hx a x : Nat} {o : Own} (ho : o ≠ .none) (h : (looseGhost G hx a).own x = o) : G.own x = o := by
  by_cases h1 : G.own x = .rcd hx a
  · rw [loose_none h1] at h; exact absurd h.symm ho
  · rw [loose_ne h1] at h; exact h

theorem loose_ok (hc : c.OK) {G : Ghost} {s : Eng} (I : Inv c G s) {hx a : Nat}
    (hno : ∀ e ∈ centries (G.chain hx), ¬ gone e → e.infoAdd ≠ a) : Inv c (looseGhost G hx a) s := by
  have hB := I.w.blk
  refine ⟨⟨?_, ?_, ?_, ?_, ?_⟩, ?_, I.last⟩
  · intro x h
    rw [loose_ne (by rw [I.w.sys x h]; intro h; cases h)]; exact I.w.sys x h
  · intro h hh
    rw [loose_ne (by rw [I.w.tab h hh]; intro h; cases h)]; exact I.w.tab h hh
  · intro x h
    exact I.w.free x (loose_iff (by intro h; cases h) h)
  · intro h hh
    have k := I.w.chains h hh
    refine ⟨k.at_, ?_, k.ok, ?_, k.nodupB, k.nodupR, k.order, k.recs⟩
    · intro be hbe i hi
      have := k.bins be hbe i hi
      rw [loose_ne (by rw [this]; intro h; cases h)]; exact this
    · intro e he hg
      refine ⟨fun x hx' => ?_, (k.rcd e he hg).apart⟩
      have h1 := (k.rcd e he hg).mine x hx'
      rw [loose_ne, h1]
      rw [h1]
      intro h2
      injection h2 with h3 h4
      subst h3
      exact hno e he hg h4
  · refine ⟨hB.head, hB.links, ?_, ?_, ?_, hB.full, hB.sorted, ?_⟩
    · intro b hb
      have := hB.own b hb
      rw [loose_ne (by rw [this]; intro h; cases h)]; exact this
    · intro b hb i hi
      rcases hB.slots b hb i hi with h | ⟨h, h'⟩
      · exact Or.inl (by rw [loose_ne (by rw [h]; intro h; cases h)]; exact h)
      · exact Or.inr ⟨h, by rw [loose_ne (by rw [h']; intro h; cases h)]; exact h'⟩
    · intro x h b hb
      exact hB.bins x h b (loose_iff (by intro h; cases h) hb)
    · intro x y h b h1 h2
      exact hB.ord x y h b (loose_iff (by intro h; cases h) h1) (loose_iff (by intro h; cases h) h2)
  · refine ⟨?_, ?_, ?_, I.h.len, ⟨I.h.spare.tail, ?_, I.h.spare.lastB⟩⟩
    · intro x h
      have := I.h.beyond x h
      rw [loose_ne (by rw [this]; intro h; cases h)]; exact this
    · intro i hi
      have := I.h.free i hi
      rw [loose_ne (by rw [this]; intro h; cases h)]; exact this
    · have := I.h.link
      rw [loose_ne (by rw [this]; intro h; cases h)]; exact this
    · intro x h
      exact I.h.spare.used x (loose_iff (by intro h; cases h) h)

/-- A record under another pathname, with the same arrays. -/
theorem RecIs_move {d d' : Disk} {X : Ext} {e e' : BinEnt} {R : Rec} (hk : RecIs c d X e R)
    (hw : ∀ i, 4 ≤ i → i < 30 → d' (e'.infoAdd + i) = d (e.infoAdd + i)) (hhash : d' (e'.infoAdd + kinfoHash) = c.pHash e'.path)
    (ht : Spec.compatible (UInt32.ofNat (lo32 e'.typeCat)) (lowInt (d (e.infoAdd + kinfoTypeVersion))))
    (h : ∀ i, i < X.cap → d' (X.dat + i) = d (X.dat + i)) : RecIs c d' X e' R := by
  have k := hk.ok
  have hok : RecOK c d' X e' := by
    refine ⟨hhash, ?_, ?_, ?_, ?_, ?_, ?_, ?_, ?_, ?_⟩
    · rw [hw _ (by decide) (by decide)]; exact k.ih
    · rw [hw _ (by decide) (by decide), hw _ (by decide) (by decide), hw _ (by decide) (by decide)]; exact k.h2
    · rw [hw _ (by decide) (by decide), hw _ (by decide) (by decide), hw _ (by decide) (by decide)]; exact k.uh
    · rw [hw _ (by decide) (by decide), hw _ (by decide) (by decide), hw _ (by decide) (by decide)]; exact k.v1
    · rw [hw _ (by decide) (by decide), hw _ (by decide) (by decide), hw _ (by decide) (by decide)]; exact k.v2
    · rw [hw _ (by decide) (by decide), hw _ (by decide) (by decide), hw _ (by decide) (by decide)]; exact k.v3
    · rw [hw _ (by decide) (by decide), hw _ (by decide) (by decide)]; exact k.fits
    · have := k.orig
      simp only [reserved] at this ⊢
      rw [hw _ (by decide) (by decide), hw _ (by decide) (by decide), hw _ (by decide) (by decide), hw _ (by decide) (by decide)]; exact this
    · rw [hw _ (by decide) (by decide)]; exact ht
  refine ⟨hok, ?_⟩
  rw [← hk.eq]
  have harr : ∀ a n, X.dat ≤ a → a + nLongs n ≤ X.dat + X.cap → getInts d' a n = getInts d a n := by
    intro a n h1 h2
    apply getInts_congr
    intro i hi
    have := h (a - X.dat + i) (by omega)
    rwa [show X.dat + (a - X.dat + i) = a + i by omega] at this
  have h1 := k.ih; have h2 := k.h2; have h3 := k.uh; have h4 := k.v1; have h5 := k.v2; have h6 := k.v3
  have h7 := k.fits
  simp only [readArrays]
  rw [hw kinfoTypeVersion (by decide) (by decide), hw kinfoInternalHeadAddress (by decide) (by decide),
    hw kinfoInternalHeadNumber (by decide) (by decide), hw kinfoHeader2Address (by decide) (by decide),
    hw kinfoHeader2Number (by decide) (by decide), hw kinfoUserHeadAddress (by decide) (by decide),
    hw kinfoUserHeadNumber (by decide) (by decide), hw kinfoValues1Address (by decide) (by decide),
    hw kinfoValues1Number (by decide) (by decide), hw kinfoValues2Address (by decide) (by decide),
    hw kinfoValues2Number (by decide) (by decide), hw kinfoValues3Address (by decide) (by decide),
    hw kinfoValues3Number (by decide) (by decide), hw kinfoNumberData (by decide) (by decide),
    hw kinfoLogicalNumber (by decide) (by decide), hw kinfoLastWriteTime (by decide) (by decide), hw kinfoFirstDate (by decide) (by decide), hw kinfoLastDate (by decide) (by decide)]
  rw [harr _ _ (by omega) (by omega), harr _ _ (by omega) (by omega), harr _ _ (by omega) (by omega),
    harr _ _ (by omega) (by omega), harr _ _ (by omega) (by omega), harr _ _ (by omega) (by omega)]

/-- Where the entry goes: the bins of the table hash, or a new bin to which the hash table already points. -/
inductive Slot (c : Cfg) (p : Bytes) (hx : Nat) (G : Ghost) (s : Eng) (k : Chk) : Prop
  | old : G.chain hx ≠ [] → InvH c G s.hdr → G.last hx = 0 → k.hashTableBinAdd ≠ 0 → k.binAddCurrent = lastAddr (G.chain hx) →
      k.binWithSpace = wsC p 0 (G.chain hx) → Slot c p hx G s k
  | first (nb : Nat) : G.chain hx = [] → Fresh c G s.hdr nb → G.last hx = nb → k.binAddCurrent = nb → k.binWithSpace = 0 → Slot c p hx G s k

theorem Slot.beyond {p : Bytes} {hx : Nat} {G : Ghost} {s : Eng} {k : Chk} (S : Slot c p hx G s k) : ∀ x, s.hdr.fileSize ≤ x → G.own x = .none := by
  cases S with
  | old _ H => exact H.beyond
  | first nb _ F => exact F.beyond

theorem Slot.claim {p : Bytes} {hx a : Nat} {G : Ghost} {s s' : Eng} {k : Chk} {P : Nat → Bool} {X : Ext} (S : Slot c p hx G s k)
    (hb : ∀ x, P x = true → G.own x = .none) (hl : ∀ x, P x = true → x < s'.hdr.fileSize) (hf : s.hdr.fileSize ≤ s'.hdr.fileSize)
    (e1 : s'.hdr.nextEmpty = s.hdr.nextEmpty) (e2 : s'.hdr.binsRemain = s.hdr.binsRemain) (e3 : s'.hdr.totalBins = s.hdr.totalBins) :
    Slot c p hx (claimGhost G hx a P X) s' k := by
  cases S with
  | old h1 H h3 h4 h5 h6 => exact .old h1 (claim_invH H hb hl hf e1 e2 e3) h3 h4 h5 h6
  | first nb h1 F h3 h4 h5 => exact .first nb h1 (claim_fresh F hb hl hf e1 e2 e3) h3 h4 h5

theorem Slot.update (hc : c.OK) {p : Bytes} {G0 G : Ghost} {s0 s : Eng} {hx a0 : Nat} {k : Chk} {e : BinEnt} (I0 : InvW c G0 s0.disk hx 0) (hh : hx < c.maxHash)
    (S : St c p G0 s0 hx a0 G s e.infoAdd) (L : Slot c p hx G s k) (n : NewEntry c p hx G e) (hG0 : G.chain hx = G0.chain hx)
    (hG : ∀ f ∈ centries (G.chain hx), Spare p f → nLongsB f.path.length = nLongsB p.length) :
    ∃ G' s', zbinUpdate c s k p e.infoAdd e.st e.typeCat e.lastWrite e.dates = some s' ∧ Placed c p G0 s0 hx a0 G s e G' s' := by
  cases L with
  | old h1 H h3 h4 h5 h6 => exact zbinUpdate_ok hc I0 hh S H h3 n hG0 h1 hG k h4 h5 h6
  | first nb h1 F h3 h4 h5 => exact zbinUpdate_first hc I0 hh S F h3 n hG0 h1 k h4 h5

/-- The state and the search result with which the entry is placed. -/
def slotOf (c : Cfg) (s : Eng) (path : Bytes) (k : Chk) : Eng × Chk :=
  if k.hashTableBinAdd = 0 then
    let b := zbinNew c s 0 k.binAddCurrent
    let s := b.1.put (c.hashStart + c.tHash path) 1 fun _ => b.2
    (s, { k with hashTableBinAdd := b.2, binAddCurrent := b.2 })
  else (s, k)

theorem slot_ready (hc : c.OK) {p : Bytes} {G0 G : Ghost} {s0 s : Eng} {a0 ax : Nat} (I0 : InvW c G0 s0.disk (c.tHash p) 0) (hh : c.tHash p < c.maxHash)
    (S : St c p G0 s0 (c.tHash p) a0 G s ax) (H : InvH c G s.hdr) (hl : G.last (c.tHash p) = 0) {k : Chk}
    (hk1 : k.hashTableBinAdd = s.disk (c.hashStart + c.tHash p)) (hk2 : k.binAddCurrent = lastAddr (G.chain (c.tHash p)))
    (hk3 : k.binWithSpace = wsC p 0 (G.chain (c.tHash p))) :
    ∃ G', St c p G0 s0 (c.tHash p) a0 G' (slotOf c s p k).1 ax ∧ Slot c p (c.tHash p) G' (slotOf c s p k).1 (slotOf c s p k).2 ∧
      G'.chain = G.chain ∧ G'.room = G.room ∧ (∀ x, G.own x ≠ .none → G'.own x = G.own x) ∧
      s.hdr.fileSize ≤ (slotOf c s p k).1.hdr.fileSize ∧ (slotOf c s p k).1.hdr.numberRecords = s.hdr.numberRecords ∧
      (∀ x h a, G.own x = .rcd h a → (slotOf c s p k).1.disk x = s.disk x) := by
  have hi := hc.isize
  generalize hhx : c.tHash p = hx at *
  have K := S.inv.chains hx hh
  by_cases hC : G.chain hx = []
  · have ht : k.hashTableBinAdd = 0 := by
      have := K.at_
      rw [hC, hl] at this
      rw [hk1]; exact this
    obtain ⟨Ga, Sa, Fa, hcha, hlasta, hrooma, howna, hfsa, hnra, hcsa⟩ :=
      zbinNew_ok hc I0 hh S H 0 k.binAddCurrent (fun h => absurd rfl h)
    have hkeep := fun x h a (hx' : G.own x = .rcd h a) => zbinNew_keep (by omega) S.inv hh H 0 k.binAddCurrent (fun h => absurd rfl h) hx'
    unfold slotOf
    rw [if_pos ht, hhx]
    generalize zbinNew c s 0 k.binAddCurrent = zb at *
    have hCa : Ga.chain hx = [] := by rw [hcha]; exact hC
    let sb := zb.1.put (c.hashStart + hx) 1 fun _ => zb.2
    have hinvb := Sa.inv.relink hc hh (d' := sb.disk) (v := zb.2) (c.hashStart + hx) (by rw [if_pos hCa])
      (fun x hx' => apply_out (by simp only; omega))
      (apply_in (w := ⟨c.hashStart + hx, 1, _⟩) (i := 0) (by simp))
    have Sb : St c p G0 s0 hx a0 _ sb ax := Sa.step hc I0 hinvb (fun _ _ _ h => h) (fun _ _ _ => rfl) (fun h hne => ⟨rfl, by simp [hne]⟩)
      (by
        intro i hi' h b hb
        have : i = 0 := by omega
        subst this
        rw [Nat.add_zero, Sa.inv.tab hx hh] at hb; cases hb) Sa.near.edit Sa.near.fresh
    have Fb : Fresh c { Ga with last := fun h => if h = hx then zb.2 else Ga.last h } sb.hdr zb.2 :=
      ⟨Fa.beyond, Fa.free, Fa.link, Fa.len, Fa.bin, Fa.next, ⟨Fa.spare.tail, Fa.spare.used, Fa.spare.lastB⟩⟩
    refine ⟨_, Sb, .first zb.2 hCa Fb (by simp) rfl ?_, hcha, hrooma, howna, hfsa, hnra, ?_⟩
    · show k.binWithSpace = 0
      rw [hk3, hC]; rfl
    · intro x h a hx'
      refine Eq.trans ?_ (hkeep x h a hx')
      refine apply_out (show ¬ (c.hashStart + hx ≤ x ∧ x < c.hashStart + hx + 1) from fun h1 => ?_)
      have : x = c.hashStart + hx := by omega
      rw [this, S.inv.tab hx hh] at hx'; cases hx'
  · have ht : k.hashTableBinAdd ≠ 0 := by
      have hat := K.at_
      rw [hk1]
      cases hCC : G.chain hx with
      | nil => exact absurd hCC hC
      | cons be C1 => obtain ⟨b1, es1⟩ := be; rw [hCC] at hat; rw [hat.1]; exact hat.2.1
    unfold slotOf
    rw [if_neg ht]
    exact ⟨G, S, .old hC H hl ht hk2 hk3, rfl, rfl, fun _ _ => rfl, Nat.le_refl _, rfl, fun _ _ _ _ => rfl⟩

theorem renamedInfo_mid {info : Nat → Nat} {path : Bytes} {n i : Nat} (hn : 31 ≤ n) (h1 : 4 ≤ i) (h2 : i < 30) : renamedInfo c info path n i = info i := by
  unfold renamedInfo
  simp only [upd, kinfoPathname, kinfoFlag, kinfoStatus, kinfoPathnameLength, kinfoHash]
  have e0 : ¬ (30 ≤ i ∧ i < 30 + nLongsB path.length) := by omega
  have e1 : i ≠ n - 1 := by omega
  have e2 : i ≠ 3 := by omega
  have e3 : i ≠ 2 := by omega
  have e4 : i ≠ 1 := by omega
  have e5 : i ≠ 0 := by omega
  simp only [e0, e1, e2, e3, e4, e5, if_false]

theorem renamedInfo_hash {info : Nat → Nat} {path : Bytes} {n : Nat} (hn : 31 ≤ n) : renamedInfo c info path n kinfoHash = c.pHash path := by
  unfold renamedInfo
  simp only [upd, kinfoPathname, kinfoFlag, kinfoStatus, kinfoPathnameLength, kinfoHash]
  rw [if_neg (by omega)]
  have e1 : 3 ≠ n - 1 := by omega
  simp only [e1, if_false, if_true]

theorem renamedInfo_head {info : Nat → Nat} {path : Bytes} {n : Nat} (hn : 31 ≤ n) (ha : info kinfoAliasesBinAddress = 0) : HeadInfo (renamedInfo c info path n) path REC_STATUS_PRIMARY := by
  have e1 : ∀ i, i < 30 → (i = n - 1) = False := by intro i hi; simp; omega
  have e2 : ∀ i, i < 30 → (30 ≤ i ∧ i < 30 + nLongsB path.length) = False := by intro i hi; simp; omega
  refine ⟨?_, ?_, ?_, fun _ => ?_, fun h => by simp [REC_STATUS_PRIMARY, REC_STATUS_DELETED] at h,
    (renamedInfo_mid hn (by decide) (by decide)).trans ha⟩
  · simp [renamedInfo, upd, kinfoPathname, kinfoFlag, kinfoStatus, kinfoPathnameLength, kinfoHash, e1 0 (by decide)]
  · simp [renamedInfo, upd, kinfoPathname, kinfoFlag, kinfoStatus, kinfoPathnameLength, kinfoHash, e1 2 (by decide)]
  · refine Eq.trans (unpackBytes_congr fun j hj => ?_) (unpack_pack (fun j => upd (upd (upd (upd (upd info kinfoFlag DSS_INFO_FLAG) kinfoStatus REC_STATUS_PRIMARY) kinfoPathnameLength path.length) kinfoHash (c.pHash path)) (n - 1) 0 (kinfoPathname + j)) path)
    unfold renamedInfo
    rw [if_pos (by omega), Nat.add_sub_cancel_left]
  · simp [renamedInfo, upd, kinfoPathname, kinfoFlag, kinfoStatus, kinfoPathnameLength, kinfoHash, e1 1 (by decide), REC_STATUS_PRIMARY]

/-- The record gets an entry under the pathname `p`.  `X` are its arrays; its words have no owner, and
neither have those of the old info block (`old` words from `aOld` on). -/
theorem adopt_ok (hc : c.OK) {G : Ghost} {s : Eng} (I : Inv c G s) {p : Bytes} (hpos : 0 < p.length) (hlen : p.length ≤ 392)
    (hdead : ∀ f ∈ centries (G.chain (c.tHash p)), Same p f.path → dead f)
    (hG : ∀ f ∈ centries (G.chain (c.tHash p)), Spare p f → nLongsB f.path.length = nLongsB p.length)
    {X : Ext} {e0 : BinEnt} {R : Rec} {d0 : Disk} (hR : RecIs c d0 X e0 R) (info : Nat → Nat) (hinfo : ∀ i, i < 30 → info i = d0 (e0.infoAdd + i))
    (hX : ∀ i, i < X.cap → G.own (X.dat + i) = .none ∧ X.dat + i < s.hdr.fileSize ∧ s.disk (X.dat + i) = d0 (X.dat + i))
    (numberInfoNew oldWrite : Nat) (grown : Bool) (hn : numberInfo p ≤ numberInfoNew)
    (hold : grown = false → (∀ i, i < numberInfoNew → G.own (e0.infoAdd + i) = .none ∧ e0.infoAdd + i < s.hdr.fileSize) ∧
      (X.cap = 0 ∨ X.dat + X.cap ≤ e0.infoAdd ∨ e0.infoAdd + numberInfoNew ≤ X.dat)) :
    ∃ G' s' e, adoptRecord c s p info e0.infoAdd numberInfoNew oldWrite grown = some s' ∧ Done c p 0 G s G' s' ∧ e.path = p ∧ e.st = REC_STATUS_PRIMARY ∧
      s'.hdr.numberRecords = s.hdr.numberRecords ∧ RecIs c s'.disk (G'.room e.infoAdd) e R ∧ (info kinfoAliasesBinAddress = 0 → HeadOK s'.disk e) ∧
      ∃ A B o, centries (G.chain (c.tHash p)) = A ++ o ++ B ∧ centries (G'.chain (c.tHash p)) = A ++ e :: B ∧
        (∀ x ∈ o, dead x) ∧ o.length ≤ 1 ∧ (∀ x ∈ A, Same p x.path → gone x) := by
  have hi := hc.isize
  have hh := hc.tHash_lt p hlen
  let hx := c.tHash p
  have hn31 : 31 ≤ numberInfoNew := by
    have : 1 ≤ nLongsB p.length := by simp only [nLongsB]; omega
    simp only [numberInfo, infoSize] at hn; omega
  have I0 : InvW c G s.disk hx 0 := I.w.idle
  have K := I0.chains hx hh
  have hno : ∀ x ∈ centries (G.chain hx), ¬ EMatch p REC_STATUS_VALID x := fun x hx' hm => hm.not_dead (hdead x hx' hm.1)
  have hlen' : (G.chain hx).length ≤ s.hdr.totalBins + 1 := by have := I.h.len hx hh; omega
  have hchk := zcheck_none hc I0 hh (I.last _ hh) hlen' hno
  have S0 : St c p G s hx 0 G s 0 := St.start I0 hh hc
  have hNE : ∀ e ∈ centries (G.chain hx), ¬ gone e → e.infoAdd ≠ 0 := fun e he => I0.info_ne hc hh he
  let k : Chk := ⟨false, s.disk (c.hashStart + hx), lastAddr (G.chain hx), wsC p 0 (G.chain hx), 0, 0⟩
  -- the address of the record
  let t := slotOf c s p k
  let a := if grown then t.1.hdr.fileSize else e0.infoAdd
  have hfst : s.hdr.fileSize ≤ t.1.hdr.fileSize := by
    obtain ⟨_, _, _, _, _, _, h, _⟩ := slot_ready hc I0 hh S0 I.h (I.last _ hh) (k := k) rfl rfl rfl
    exact h
  have ha0 : G.own a = .none := by
    simp only [a]
    cases grown
    · simpa using ((hold rfl).1 0 (by omega)).1
    · exact I.h.beyond _ hfst
  -- the words that have no owner yet
  let P1 : Nat → Bool := fun x => decide (X.dat ≤ x ∧ x < X.dat + X.cap) || (!grown && decide (e0.infoAdd ≤ x ∧ x < e0.infoAdd + numberInfoNew))
  have hP1 : ∀ x, P1 x = true → G.own x = .none ∧ x < s.hdr.fileSize := by
    intro x hx'
    simp only [P1, Bool.or_eq_true, decide_eq_true_eq, Bool.and_eq_true, Bool.not_eq_true'] at hx'
    rcases hx' with h | ⟨h1, h2⟩
    · have := hX (x - X.dat) (by omega)
      rw [show X.dat + (x - X.dat) = x by omega] at this
      exact ⟨this.1, this.2.1⟩
    · have := (hold h1).1 (x - e0.infoAdd) (by omega)
      rwa [show e0.infoAdd + (x - e0.infoAdd) = x by omega] at this
  let G1 := claimGhost G hx a P1 X
  have S1 : St c p G s hx 0 G1 s a := claim_ok hc I0 hh S0 hNE (fun x h => (hP1 x h).1) ha0
  have H1 : InvH c G1 s.hdr := claim_invH I.h (fun x h => (hP1 x h).1) (fun x h => (hP1 x h).2) (Nat.le_refl _) rfl rfl rfl
  obtain ⟨G2, S2, L2, hch2, hroom2, hown2, hfs2, hnr2, hkeep2⟩ := slot_ready hc I0 hh S1 H1 (I.last _ hh) (k := k) rfl rfl rfl
  have hfix : ∀ e ∈ centries (G2.chain hx), ¬ gone e → e.infoAdd ≠ a := by
    intro e he hg h
    rw [hch2] at he
    have h2 := (K.rcd e he hg).head
    rw [h, ha0] at h2; cases h2
  -- a new info block
  let P2 : Nat → Bool := fun x => grown && decide (t.1.hdr.fileSize ≤ x ∧ x < t.1.hdr.fileSize + numberInfoNew)
  let g := if grown then t.1.getFileSpace numberInfoNew else (t.1, e0.infoAdd)
  have hga : g.2 = a := by simp only [g, a, Eng.getFileSpace]; cases grown <;> rfl
  have hg1 : g.1.disk = t.1.disk ∧ g.1.log = t.1.log := by simp only [g, Eng.getFileSpace]; cases grown <;> exact ⟨rfl, rfl⟩
  have hP2 : ∀ x, P2 x = true → G2.own x = .none := by
    intro x hx'
    simp only [P2, Bool.and_eq_true, decide_eq_true_eq] at hx'
    exact L2.beyond x hx'.2.1
  let G3 : Ghost := if grown then claimGhost G2 hx a P2 X else G2
  have hG3 : G3.chain = G2.chain ∧ (∀ x, G2.own x ≠ .none → G3.own x = G2.own x) ∧ G3.room a = X ∧
      (grown = true → ∀ i, i < numberInfoNew → G3.own (a + i) = .rcd hx a) ∧
      St c p G s hx 0 G3 g.1 a ∧ Slot c p hx G3 g.1 t.2 := by
    have hra : G2.room a = X := by rw [hroom2]; simp [G1, claimGhost]
    by_cases hgr : grown = true
    · have e1 : G3 = claimGhost G2 hx a P2 X := by simp only [G3, hgr, if_true]
      have e2 : a = t.1.hdr.fileSize := by simp only [a, hgr, if_true]
      have e3 : g.1.hdr = { t.1.hdr with fileSize := t.1.hdr.fileSize + numberInfoNew } := by simp only [g, hgr, if_true, Eng.getFileSpace]
      rw [e1]
      refine ⟨rfl, fun x h => claim_own hP2 x h, by simp [claimGhost], fun _ i hi' => ?_, ?_, ?_⟩
      · simp only [claimGhost, P2, hgr, Bool.true_and]
        rw [if_pos]
        rw [decide_eq_true_eq]; omega
      · refine (claim_ok hc I0 hh S2 hfix hP2 ?_).hdr hg1.1 hg1.2
        exact L2.beyond _ (by rw [e2]; exact Nat.le_refl _)
      · refine L2.claim hP2 (fun x h => ?_) ?_ ?_ ?_ ?_
        · simp only [P2, Bool.and_eq_true, decide_eq_true_eq] at h
          rw [e3]; exact h.2.2
        all_goals rw [e3]
        exact Nat.le_add_right _ _
    · have hgr : grown = false := by simpa using hgr
      have e1 : G3 = G2 := by simp only [G3, hgr]; rfl
      have e2 : g.1 = t.1 := by simp only [g, hgr]; rfl
      rw [e1, e2]
      exact ⟨rfl, fun _ _ => rfl, hra, fun h => (by rw [hgr] at h; cases h), S2, L2⟩
  obtain ⟨hch3, hown3, hroom3, hblk3, S3, L3⟩ := hG3
  have hr1 : ∀ x, P1 x = true → G1.own x = .rcd hx a := by intro x h; simp only [G1, claimGhost, h, if_true]
  have hr3 : ∀ x, P1 x = true → G3.own x = .rcd hx a := by
    intro x h
    have h1 := hr1 x h
    have h2 := hown2 x (by rw [h1]; intro h; cases h)
    rw [hown3 x (by rw [h2, h1]; intro h; cases h), h2, h1]
  have hblk : ∀ i, i < numberInfoNew → G3.own (a + i) = .rcd hx a := by
    by_cases hgr : grown = true
    · exact hblk3 hgr
    · intro i hi'
      have hgr : grown = false := by simpa using hgr
      apply hr3
      have : a = e0.infoAdd := by simp only [a, hgr]; rfl
      simp only [P1, hgr, Bool.not_false, Bool.true_and, Bool.or_eq_true, decide_eq_true_eq]
      right; omega
  have harr : ∀ i, i < X.cap → G3.own (X.dat + i) = .rcd hx a := by
    intro i hi'
    apply hr3
    simp only [P1, Bool.or_eq_true, decide_eq_true_eq]
    left; omega
  -- the entry
  let info' := renamedInfo c info p numberInfoNew
  let lw := (lastWriteSeen c s p REC_STATUS_VALID).getD oldWrite
  let e : BinEnt := ⟨REC_STATUS_PRIMARY, p, a, pack32 (lowInt (info' kinfoTypeVersion)).toNat g.1.hdr.catSequence, lw,
    pack32 (lo32 (info' kinfoFirstDate)) (lo32 (info' kinfoLastDate))⟩
  have n : NewEntry c p hx G3 e := by
    refine ⟨rfl, rfl, rfl, hpos, hlen, ⟨?_, ?_⟩, ?_, ?_⟩
    · intro x hx'
      show G3.own x = .rcd hx a
      rcases hx' with h | h
      · have := hblk (x - a) (by have h2 : x < a + numberInfo p := h.2; omega)
        rwa [show a + (x - a) = x by have h1 : a ≤ x := h.1; omega] at this
      · have h : (G3.room a).dat ≤ x ∧ x < (G3.room a).dat + (G3.room a).cap := h
        rw [hroom3] at h
        have := harr (x - X.dat) (by omega)
        rwa [show X.dat + (x - X.dat) = x by omega] at this
    · show (G3.room a).cap = 0 ∨ (G3.room a).dat + (G3.room a).cap ≤ a ∨ a + numberInfo p ≤ (G3.room a).dat
      rw [hroom3]
      by_cases hgr : grown = true
      · by_cases hX0 : X.cap = 0
        · exact Or.inl hX0
        · have := (hX (X.cap - 1) (by omega)).2.1
          have e2 : a = t.1.hdr.fileSize := by simp only [a, hgr, if_true]
          right; left; omega
      · have hgr : grown = false := by simpa using hgr
        have e2 : a = e0.infoAdd := by simp only [a, hgr]; rfl
        have := (hold hgr).2
        omega
    · intro f hf hg
      rw [hch3] at hf
      exact hfix f hf hg
    · rw [hch3, hch2]; exact hdead
  obtain ⟨G4, s4, hup, P⟩ := Slot.update hc I0 hh (e := e) S3 L3 n (by rw [hch3, hch2]; rfl) (by rw [hch3, hch2]; exact hG)
  obtain ⟨A, B, o, hA, hB, ho, ho1, hAs⟩ := P.ents
  have he : e ∈ centries (G4.chain hx) := by rw [hB]; simp
  have hge : ¬ gone e := live_not_gone (Or.inr rfl)
  have hroom4 : G4.room e.infoAdd = X := by rw [P.room]; exact hroom3
  have hrcd4 : ∀ x, G3.own x = .rcd hx a → G4.own x = .rcd hx a := by
    intro x h
    rw [P.own x (by rw [h]; intro h; cases h) (by rw [h]; intro h; cases h), h]
  have ha : a ≠ 0 := by
    intro h
    have := I.w.sys 0 (by have := hc.hdr; omega)
    rw [← h, ha0] at this; cases this
  let s5 : Eng := { s4.put a numberInfoNew info' with hdr := { s4.hdr with numberRenames := s4.hdr.numberRenames + 1 } }
  have S5 : St c p G s hx 0 G4 s5 e.infoAdd := by
    refine St.hdr (s := s4.put a numberInfoNew info') ?_ rfl rfl
    exact P.st.quiet hc I0 (fun i hi' => Or.inr (Or.inr ⟨hrcd4 _ (hblk i hi'), ha⟩))
  have H5 : InvH c G4 s5.hdr := ⟨P.hdr.beyond, P.hdr.free, P.hdr.link, P.hdr.len, P.hdr.spare⟩
  have hd5 : ∀ i, i < numberInfoNew → s5.disk (a + i) = info' i := by
    intro i hi'
    exact apply_in (w := ⟨a, numberInfoNew, info'⟩) hi'
  have harr5 : ∀ i, i < X.cap → s5.disk (X.dat + i) = d0 (X.dat + i) := by
    intro i hi'
    have hout : ¬ (a ≤ X.dat + i ∧ X.dat + i < a + numberInfoNew) := by
      by_cases hgr : grown = true
      · have := (hX i hi').2.1
        have e2 : a = t.1.hdr.fileSize := by simp only [a, hgr, if_true]
        omega
      · have hgr : grown = false := by simpa using hgr
        have e2 : a = e0.infoAdd := by simp only [a, hgr]; rfl
        have := (hold hgr).2
        omega
    refine Eq.trans (apply_out (w := ⟨a, numberInfoNew, info'⟩) hout) ?_
    rw [P.keep _ _ _ (harr i hi'), hg1.1, hkeep2 _ hx a (hr1 _ (by simp only [P1, Bool.or_eq_true, decide_eq_true_eq]; left; omega))]
    exact (hX i hi').2.2
  have R5 : RecIs c s5.disk (G4.room e.infoAdd) e R := by
    rw [hroom4]
    refine RecIs_move hR (fun i h1 h2 => ?_) ?_ ?_ harr5
    · show s5.disk (a + i) = _
      rw [hd5 i (by omega), ← hinfo i h2]
      exact renamedInfo_mid hn31 h1 h2
    · show s5.disk (a + kinfoHash) = c.pHash p
      rw [hd5 _ (by simp only [kinfoHash]; omega)]
      exact renamedInfo_hash hn31
    · show Spec.compatible (UInt32.ofNat (lo32 (pack32 (lowInt (info' kinfoTypeVersion)).toNat g.1.hdr.catSequence))) _
      rw [lo32_pack (lowInt (info' kinfoTypeVersion)).toNat_lt, UInt32.ofNat_toNat]
      rw [show info' kinfoTypeVersion = info kinfoTypeVersion from renamedInfo_mid hn31 (by decide) (by decide), hinfo _ (by decide)]
      exact Or.inl rfl
  obtain ⟨S6, h6, r6, i6⟩ := close_ok hc I0 hh S5 he hge R5 H5 grown
  have hhead := fun ha => HeadInfo.congr (fun i hi' => (i6 i hi').trans (hd5 i (Nat.lt_of_lt_of_le hi' hn))) (renamedInfo_head (c := c) (info := info) (path := p) hn31 ha)
  refine ⟨G4, _, e, ?_, ⟨S6, by rw [h6]; exact H5, ?_⟩, rfl, rfl, ?_, r6, hhead, A, B, o, by rw [hch3, hch2] at hA; exact hA, hB, ho, ho1, hAs⟩
  · unfold adoptRecord
    rw [hchk, Option.bind_some]
    show ((zbinUpdate c g.1 t.2 p g.2 REC_STATUS_PRIMARY (pack32 (lowInt (info' kinfoTypeVersion)).toNat g.1.hdr.catSequence) lw
      (pack32 (lo32 (info' kinfoFirstDate)) (lo32 (info' kinfoLastDate)))).map fun s => _) = _
    rw [hga, hup, Option.map_some]
    cases grown <;> rfl
  · intro h hh'
    by_cases hhx : h = hx
    · rw [hhx]; exact P.last
    · rw [(P.st.near.others h hhx).2]; exact I.last h hh'
  · rw [h6]
    show s4.hdr.numberRecords = _
    rw [P.recs]
    have : g.1.hdr.numberRecords = t.1.hdr.numberRecords := by simp only [g, Eng.getFileSpace]; cases grown <;> rfl
    rw [this]; exact hnr2

end Hec
