import Verif.Proofs.EngineRec
/-! The operations preserve the invariant and do what they should: new records. -/
namespace Hec
set_option linter.unusedSimpArgs false
set_option linter.unusedVariables false

variable {c : Cfg} {p : Bytes} {G0 : Ghost} {s0 : Eng} {hx a0 : Nat}

theorem inj_of_nodup_map {α β : Type} {f : α → β} {l : List α} (h : (l.map f).Nodup) {a b : α} (ha : a ∈ l) (hb : b ∈ l)
    (he : f a = f b) : a = b := by
  induction l with
  | nil => simp at ha
  | cons x l ih =>
    simp only [List.map_cons, List.nodup_cons] at h
    rcases List.mem_cons.mp ha with rfl | ha'
    · rcases List.mem_cons.mp hb with rfl | hb'
      · rfl
      · exact absurd (List.mem_map.mpr ⟨b, hb', he.symm⟩) h.1
    · rcases List.mem_cons.mp hb with rfl | hb'
      · exact absurd (List.mem_map.mpr ⟨a, ha', he⟩) h.1
      · exact ih h.2 ha' hb'

theorem pairwise_mem {α : Type} {R : α → α → Prop} {l : List α} (h : l.Pairwise R) {a b : α} (ha : a ∈ l) (hb : b ∈ l)
    (hne : a ≠ b) : R a b ∨ R b a := by
  induction l with
  | nil => simp at ha
  | cons x l ih =>
    have := List.pairwise_cons.mp h
    rcases List.mem_cons.mp ha with rfl | ha'
    · rcases List.mem_cons.mp hb with rfl | hb'
      · exact absurd rfl hne
      · exact Or.inl (this.1 b hb')
    · rcases List.mem_cons.mp hb with rfl | hb'
      · exact Or.inr (this.1 a ha')
      · exact ih this.2 ha' hb'

/-- The end of an operation. -/
structure Done (c : Cfg) (p : Bytes) (a0 : Nat) (G : Ghost) (s : Eng) (G' : Ghost) (s' : Eng) : Prop where
  st : St c p G s (c.tHash p) a0 G' s' 0
  h : InvH c G' s'.hdr
  last : ∀ h, h < c.maxHash → G'.last h = 0

/-- Words without owner become a record. -/
def claimGhost (G : Ghost) (hx a : Nat) (P : Nat → Bool) (X : Ext) : Ghost :=
  { G with own := fun x => if P x then .rcd hx a else G.own x,
           room := fun x => if x = a then X else G.room x }

theorem claim_own {G : Ghost} {a : Nat} {P : Nat → Bool} {X : Ext} (hb : ∀ x, P x = true → G.own x = .none) (x : Nat) (h : G.own x ≠ .none) :
    (claimGhost G hx a P X).own x = G.own x := by
  simp only [claimGhost]
  rw [if_neg (fun h' => h (hb x h'))]

theorem claim_ok (hc : c.OK) (I0 : InvW c G0 s0.disk hx 0) (hh : hx < c.maxHash) {G : Ghost} {s : Eng} {ax a : Nat} {P : Nat → Bool} {X : Ext}
    (S : St c p G0 s0 hx a0 G s ax) (hax : ∀ e ∈ centries (G.chain hx), ¬ gone e → e.infoAdd ≠ ax) (hb : ∀ x, P x = true → G.own x = .none)
    (ha : G.own a = .none) :
    St c p G0 s0 hx a0 (claimGhost G hx a P X) s a := by
  have h1 : InvW c (claimGhost G hx a P X) s.disk hx ax := by
    refine S.inv.recolor hc (fun x hx' => claim_own (a := a) (X := X) hb x hx') ?_ ?_ (S.inv.blk.frame rfl rfl (fun x hx' => claim_own (a := a) (X := X) hb x hx') (fun x hx' => ?_) (fun _ => rfl) S.inv.blk.full (fun _ _ => rfl))
    rotate_right
    · simp only [claimGhost]
      split
      · simp
      · simp [hx']
    · intro x hx'
      simp only [claimGhost] at hx'
      split at hx'
      · cases hx'
      · exact S.inv.free x hx'
    · intro x hx'
      have : x ≠ a := by intro h; exact hx' (by rw [h]; exact ha)
      simp only [claimGhost, if_neg this]
  have hne : ∀ e ∈ centries (G.chain hx), ¬ gone e → e.infoAdd ≠ a := by
    intro e he hg h
    have h2 := ((S.inv.chains hx hh).rcd e he hg).head
    rw [h, ha] at h2; cases h2
  have h2 : InvW c (claimGhost G hx a P X) s.disk hx a := by
    refine ⟨h1.sys, h1.tab, h1.free, fun h' hh' => ?_, h1.blk⟩
    have k := h1.chains h' hh'
    refine ⟨k.at_, k.bins, k.ok, k.rcd, k.nodupB, k.nodupR, k.order, ?_⟩
    intro e he hg hz
    by_cases hx' : h' = hx
    · subst hx'
      rw [if_pos rfl] at k
      exact k.recs e he hg (hax e he hg)
    · rw [if_neg hx'] at k hz
      exact k.recs e he hg hz
  refine S.ghost h2 ?_ ?_ (fun _ _ => ⟨rfl, rfl⟩) S.near.edit ?_
  · intro x h a hx'
    rw [claim_own hb x (by rw [hx']; intro h; cases h)]; exact hx'
  · intro x h hx'
    have : x ≠ a := by intro h; rw [h, ha] at hx'; cases hx'
    simp only [claimGhost, if_neg this]
  · refine Or.inr fun e he hg h => ?_
    have h4 := ((I0.chains hx hh).rcd e he hg).head
    have h5 := S.near.mono _ _ _ h4
    rw [h, ha] at h5; cases h5

theorem claim_spares {G : Ghost} {a nb n : Nat} {P : Nat → Bool} {X : Ext} (H : Spares c G nb n) : Spares c (claimGhost G hx a P X) nb n := by
  refine ⟨H.tail, fun x hx' => ?_, H.lastB⟩
  simp only [claimGhost] at hx'
  split at hx'
  · cases hx'
  · exact H.used x hx'

theorem claim_invH {G : Ghost} {h h' : Hdr} {a : Nat} {P : Nat → Bool} {X : Ext} (H : InvH c G h) (hb : ∀ x, P x = true → G.own x = .none)
    (hl : ∀ x, P x = true → x < h'.fileSize) (hf : h.fileSize ≤ h'.fileSize) (e1 : h'.nextEmpty = h.nextEmpty) (e2 : h'.binsRemain = h.binsRemain)
    (e3 : h'.totalBins = h.totalBins) : InvH c (claimGhost G hx a P X) h' := by
  refine ⟨?_, ?_, ?_, by rw [e3]; exact H.len, by rw [e1, e2]; exact claim_spares H.spare⟩
  · intro x hx'
    simp only [claimGhost]
    rw [if_neg (fun h => by have := hl x h; omega)]
    exact H.beyond x (by omega)
  · intro i hi
    rw [e2] at hi
    have := H.free i hi
    rw [e1, claim_own hb _ (by rw [this]; intro h; cases h)]; exact this
  · have := H.link
    rw [e1, e2, claim_own hb _ (by rw [this]; intro h; cases h)]; exact this

theorem claim_fresh {G : Ghost} {h h' : Hdr} {a nb : Nat} {P : Nat → Bool} {X : Ext} (H : Fresh c G h nb) (hb : ∀ x, P x = true → G.own x = .none)
    (hl : ∀ x, P x = true → x < h'.fileSize) (hf : h.fileSize ≤ h'.fileSize) (e1 : h'.nextEmpty = h.nextEmpty) (e2 : h'.binsRemain = h.binsRemain)
    (e3 : h'.totalBins = h.totalBins) : Fresh c (claimGhost G hx a P X) h' nb := by
  refine ⟨?_, ?_, ?_, by rw [e3]; exact H.len, ?_, by rw [e1]; exact H.next, by rw [e2]; exact claim_spares H.spare⟩
  · intro x hx'
    simp only [claimGhost]
    rw [if_neg (fun h => by have := hl x h; omega)]
    exact H.beyond x (by omega)
  · intro i hi
    rw [e2] at hi
    have := H.free i hi
    rw [e1, claim_own hb _ (by rw [this]; intro h; cases h)]; exact this
  · have := H.link
    rw [e1, e2, claim_own hb _ (by rw [this]; intro h; cases h)]; exact this
  · intro i hi
    have := H.bin i hi
    rw [claim_own hb _ (by rw [this]; intro h; cases h)]; exact this

/-- Space at the end of the file becomes a record: an info block of `n` words, then the arrays. -/
def inBlock (fs total : Nat) (x : Nat) : Bool := decide (fs ≤ x ∧ x < fs + total)

def allocGhost (G : Ghost) (hx fs total n : Nat) : Ghost := claimGhost G hx fs (inBlock fs total) ⟨fs + n, total - n⟩

theorem inBlock_iff {fs total x : Nat} : inBlock fs total x = true ↔ fs ≤ x ∧ x < fs + total := by simp [inBlock]

theorem alloc_ok (hc : c.OK) (I0 : InvW c G0 s0.disk hx 0) (hh : hx < c.maxHash) {G : Ghost} {s : Eng} {ax : Nat}
    (S : St c p G0 s0 hx a0 G s ax) (hax : ∀ e ∈ centries (G.chain hx), ¬ gone e → e.infoAdd ≠ ax) (hb : ∀ x, s.hdr.fileSize ≤ x → G.own x = .none) (total n : Nat) :
    St c p G0 s0 hx a0 (allocGhost G hx s.hdr.fileSize total n) (s.getFileSpace total).1 s.hdr.fileSize :=
  claim_ok hc I0 hh (S.hdr rfl rfl) hax (fun x h => hb x (inBlock_iff.mp h).1) (hb _ (Nat.le_refl _))

theorem alloc_invH {G : Ghost} {s : Eng} (H : InvH c G s.hdr) (total n : Nat) :
    InvH c (allocGhost G hx s.hdr.fileSize total n) (s.getFileSpace total).1.hdr :=
  claim_invH H (fun x h => H.beyond x (inBlock_iff.mp h).1) (fun x h => (inBlock_iff.mp h).2)
    (by simp [Eng.getFileSpace]) rfl rfl rfl

theorem alloc_fresh {G : Ghost} {s : Eng} {nb : Nat} (H : Fresh c G s.hdr nb) (total n : Nat) :
    Fresh c (allocGhost G hx s.hdr.fileSize total n) (s.getFileSpace total).1.hdr nb :=
  claim_fresh H (fun x h => H.beyond x (inBlock_iff.mp h).1) (fun x h => (inBlock_iff.mp h).2)
    (by simp [Eng.getFileSpace]) rfl rfl rfl

theorem alloc_room {G : Ghost} {fs total n : Nat} : (allocGhost G hx fs total n).room fs = ⟨fs + n, total - n⟩ := by
  simp [allocGhost, claimGhost]

theorem alloc_owned {G : Ghost} {fs total : Nat} {e : BinEnt} (ha : e.infoAdd = fs) (hn : numberInfo e.path ≤ total) :
    Owned (allocGhost G hx fs total (numberInfo e.path)).own hx ((allocGhost G hx fs total (numberInfo e.path)).room e.infoAdd) e := by
  rw [ha, alloc_room]
  refine ⟨fun x h => ?_, Or.inr (Or.inr (by rw [ha]; exact Nat.le_refl _))⟩
  have : inBlock fs total x = true := by
    rw [inBlock_iff]
    rcases h with h | h <;> simp only [ha] at h <;> omega
  simp only [allocGhost, claimGhost, this, if_true, ha]

/-- Writes to the header or behind the file do not touch records. -/
theorem put_keep {G : Ghost} {s : Eng} {a n : Nat} {f : Nat → Nat} (hq : ∀ i, i < n → G.own (a + i) = .none ∨ G.own (a + i) = .sys)
    {x h b : Nat} (hx' : G.own x = .rcd h b) : (s.put a n f).disk x = s.disk x := by
  rw [put_disk]
  apply apply_out
  rintro ⟨h1, h2⟩
  simp only at h1 h2
  have := hq (x - a) (by omega)
  rw [show a + (x - a) = x by omega, hx'] at this
  rcases this with h | h <;> cases h

/-- From the arrays of the record to the end of the operation: end of file flag and file header. -/
theorem close_ok (hc : c.OK) (I0 : InvW c G0 s0.disk hx 0) (hh : hx < c.maxHash) {G : Ghost} {s : Eng} {e : BinEnt} {R : Rec}
    (S : St c p G0 s0 hx a0 G s e.infoAdd) (he : e ∈ centries (G.chain hx)) (hg : ¬ gone e)
    (hr : RecIs c s.disk (G.room e.infoAdd) e R) (H : InvH c G s.hdr) (eof : Bool) :
    let s1 := (if eof then s.writeEOF else s).permWrite c
    St c p G0 s0 hx a0 G s1 0 ∧ s1.hdr = s.hdr ∧ RecIs c s1.disk (G.room e.infoAdd) e R ∧
      ∀ i, i < numberInfo e.path → s1.disk (e.infoAdd + i) = s.disk (e.infoAdd + i) := by
  intro s1
  have hcol := ((S.inv.chains hx hh).rcd e he hg).mine
  let s2 := if eof then s.writeEOF else s
  have hs2 : St c p G0 s0 hx a0 G s2 e.infoAdd ∧ s2.hdr = s.hdr ∧ RecIs c s2.disk (G.room e.infoAdd) e R ∧
      ∀ x, InRec (G.room e.infoAdd) e x → s2.disk x = s.disk x := by
    show St c p G0 s0 hx a0 G (if eof then s.writeEOF else s) e.infoAdd ∧ (if eof then s.writeEOF else s).hdr = s.hdr ∧
      RecIs c (if eof then s.writeEOF else s).disk (G.room e.infoAdd) e R ∧
      ∀ x, InRec (G.room e.infoAdd) e x → (if eof then s.writeEOF else s).disk x = s.disk x
    cases eof
    · exact ⟨S, rfl, hr, fun _ _ => rfl⟩
    · have hq : ∀ i, i < 1 → G.own (s.hdr.fileSize + i) = .none := fun i hi => H.beyond _ (by omega)
      have hk : ∀ x, InRec (G.room e.infoAdd) e x → s.writeEOF.disk x = s.disk x := fun i hi => put_keep (fun i hi => Or.inl (hq i hi)) (hcol i hi)
      exact ⟨S.quiet hc I0 (fun i hi => Or.inl (hq i hi)), rfl, RecIs_congr rfl rfl rfl rfl hk hr, hk⟩
  obtain ⟨S2, h2, r2, k2⟩ := hs2
  have hq : ∀ i, i < c.hdrSize → G.own (0 + i) = .sys := fun i hi => by rw [Nat.zero_add]; exact S.inv.sys i hi
  have S3 : St c p G0 s0 hx a0 G s1 e.infoAdd := S2.quiet hc I0 (fun i hi => Or.inr (Or.inl (hq i hi)))
  have r3 : RecIs c s1.disk (G.room e.infoAdd) e R :=
    RecIs_congr rfl rfl rfl rfl (fun i hi => put_keep (fun i hi => Or.inr (hq i hi)) (hcol i hi)) r2
  refine ⟨?_, h2, r3, fun i hi => (put_keep (fun i hi => Or.inr (hq i hi)) (hcol _ (InRec.info hi))).trans (k2 _ (InRec.info hi))⟩
  refine S3.ghost (S3.inv.finish ?_) (fun _ _ _ h => h) (fun _ _ _ => rfl) (fun _ _ => ⟨rfl, rfl⟩) S3.near.edit
    (Or.inr fun f hf hg' => I0.info_ne hc hh hf hg')
  intro f hf hg' hfe
  have : f = e := Classical.byContradiction fun hne => by
    rcases pairwise_mem (S.inv.chains hx hh).nodupR hf he hne with h | h
    · exact h hg' hg hfe
    · exact h hg hg' hfe.symm
  rw [this]; exact r3.ok

theorem allocSize_ge (r : Req) : totalInts r ≤ allocSize r := by
  unfold allocSize; split <;> omega

/-- The info block of a new record. -/
theorem newInfo_layout (r : Req) (a alloc : Nat) : Layout (newInfo c r a alloc) a r := by
  constructor <;> simp [newInfo, upd, layoutInfo, kinfoFlag, kinfoStatus, kinfoPathnameLength, kinfoHash, kinfoTypeVersion,
    kinfoExpansion, kinfoLastWriteTime, kinfoProgram, kinfoFirstDate, kinfoLastDate, kinfoCreationTime,
    kinfoInternalHeadAddress, kinfoInternalHeadNumber, kinfoHeader2Address, kinfoHeader2Number, kinfoUserHeadAddress,
    kinfoUserHeadNumber, kinfoValues1Address, kinfoValues1Number, kinfoValues2Address, kinfoValues2Number,
    kinfoValues3Address, kinfoValues3Number, kinfoAllocatedSize, kinfoNumberData, kinfoLogicalNumber, kinfoPathname]

theorem newInfo_fields (r : Req) (a alloc : Nat) :
    newInfo c r a alloc kinfoHash = c.pHash r.path ∧ newInfo c r a alloc kinfoAllocatedSize = alloc ∧
    newInfo c r a alloc kinfoTypeVersion = packInts r.dataType 1 ∧ newInfo c r a alloc kinfoNumberData = r.numberValues ∧
    newInfo c r a alloc kinfoLogicalNumber = (if r.logicalNumber > 0 then r.logicalNumber else r.numberValues) ∧
    newInfo c r a alloc kinfoLastWriteTime = r.now ∧ newInfo c r a alloc kinfoFirstDate = r.firstDate ∧ newInfo c r a alloc kinfoLastDate = r.lastDate := by
  refine ⟨?_, ?_, ?_, ?_, ?_, ?_, ?_, ?_⟩ <;> simp [newInfo, upd, layoutInfo, kinfoFlag, kinfoStatus, kinfoPathnameLength, kinfoHash, kinfoTypeVersion,
    kinfoExpansion, kinfoLastWriteTime, kinfoProgram, kinfoFirstDate, kinfoLastDate, kinfoCreationTime,
    kinfoInternalHeadAddress, kinfoInternalHeadNumber, kinfoHeader2Address, kinfoHeader2Number, kinfoUserHeadAddress,
    kinfoUserHeadNumber, kinfoValues1Address, kinfoValues1Number, kinfoValues2Address, kinfoValues2Number,
    kinfoValues3Address, kinfoValues3Number, kinfoAllocatedSize, kinfoNumberData, kinfoLogicalNumber, kinfoPathname]

/-- The first entry of a table hash. -/
theorem zbinUpdate_first (hc : c.OK) (I0 : InvW c G0 s0.disk hx 0) (hh : hx < c.maxHash) {G : Ghost} {s : Eng}
    {e : BinEnt} {nb : Nat} (S : St c p G0 s0 hx a0 G s e.infoAdd) (F : Fresh c G s.hdr nb) (hl : G.last hx = nb)
    (n : NewEntry c p hx G e) (hG0 : G.chain hx = G0.chain hx) (hC : G.chain hx = [])
    (k : Chk) (hk2 : k.binAddCurrent = nb) (hk3 : k.binWithSpace = 0) :
    ∃ G' s', zbinUpdate c s k p e.infoAdd e.st e.typeCat e.lastWrite e.dates = some s' ∧ Placed c p G0 s0 hx a0 G s e G' s' := by
  have hi := hc.isize
  have hsz := n.size hc
  simp only [BinEnt.size, n.path] at hsz
  have hzero : ∀ i, i < c.isize → s.disk (nb + i) = 0 := fun i hi' => S.inv.free _ (F.bin i hi')
  obtain ⟨G', P⟩ := place_bin hc I0 hh S F hl n hG0 (by rw [hC]; simp) (bin := fun i => s.disk (nb + i)) hzero
  refine ⟨G', _, ?_, P⟩
  unfold zbinUpdate
  have hlb : lastBin c s.disk (s.hdr.totalBins + 1) k.binAddCurrent = some nb := by
    unfold lastBin
    rw [hk2, if_neg]
    rw [hzero _ (by omega)]; simp
  have hslot : findSlot c p false (fun i => s.disk (nb + i)) c.isize 0 = some 0 := by
    obtain ⟨f, hf⟩ : ∃ f, c.isize = f + 1 := ⟨c.isize - 1, by omega⟩
    have h0 := hzero 0 (by omega)
    rw [hf]; unfold findSlot
    simp only [h0, Bool.false_eq_true, false_and, if_false, if_true]
  rw [hk3]
  simp only [show decide ((0:Nat) > 0) = false from rfl, hlb, Option.bind_some, Bool.false_eq_true, if_false, hslot, Option.map_some]
  rw [if_neg (by omega), n.path]

theorem newInfo_head (r : Req) (a alloc : Nat) : HeadInfo (newInfo c r a alloc) r.path REC_STATUS_PRIMARY := by
  refine ⟨?_, ?_, ?_, fun _ => ?_, fun h => by simp [REC_STATUS_PRIMARY, REC_STATUS_DELETED] at h, ?_⟩
  · simp [newInfo, layoutInfo, upd, kinfoFlag, kinfoPathname, kinfoProgram, kinfoLastDate, kinfoFirstDate, kinfoCreationTime, kinfoLastWriteTime,
      kinfoExpansion, kinfoTypeVersion, kinfoInternalHeadAddress, kinfoInternalHeadNumber, kinfoHeader2Address, kinfoHeader2Number, kinfoUserHeadAddress,
      kinfoUserHeadNumber, kinfoValues1Address, kinfoValues1Number, kinfoValues2Address, kinfoValues2Number, kinfoValues3Address, kinfoValues3Number,
      kinfoAllocatedSize, kinfoNumberData, kinfoLogicalNumber, kinfoHash, kinfoPathnameLength, kinfoStatus]
  · simp [newInfo, layoutInfo, upd, kinfoFlag, kinfoPathname, kinfoProgram, kinfoLastDate, kinfoFirstDate, kinfoCreationTime, kinfoLastWriteTime,
      kinfoExpansion, kinfoTypeVersion, kinfoInternalHeadAddress, kinfoInternalHeadNumber, kinfoHeader2Address, kinfoHeader2Number, kinfoUserHeadAddress,
      kinfoUserHeadNumber, kinfoValues1Address, kinfoValues1Number, kinfoValues2Address, kinfoValues2Number, kinfoValues3Address, kinfoValues3Number,
      kinfoAllocatedSize, kinfoNumberData, kinfoLogicalNumber, kinfoHash, kinfoPathnameLength, kinfoStatus]
  · refine Eq.trans (unpackBytes_congr fun j hj => ?_) (unpack_pack (fun _ => 0) r.path)
    show (if kinfoPathname + j < kinfoPathname then _ else packBytes (fun _ => 0) r.path (kinfoPathname + j - kinfoPathname)) = _
    rw [if_neg (by omega), Nat.add_sub_cancel_left]
  · simp [newInfo, layoutInfo, upd, kinfoFlag, kinfoPathname, kinfoProgram, kinfoLastDate, kinfoFirstDate, kinfoCreationTime, kinfoLastWriteTime,
      kinfoExpansion, kinfoTypeVersion, kinfoInternalHeadAddress, kinfoInternalHeadNumber, kinfoHeader2Address, kinfoHeader2Number, kinfoUserHeadAddress,
      kinfoUserHeadNumber, kinfoValues1Address, kinfoValues1Number, kinfoValues2Address, kinfoValues2Number, kinfoValues3Address, kinfoValues3Number,
      kinfoAllocatedSize, kinfoNumberData, kinfoLogicalNumber, kinfoHash, kinfoPathnameLength, kinfoStatus, REC_STATUS_PRIMARY]
  · simp [newInfo, layoutInfo, upd, kinfoFlag, kinfoPathname, kinfoProgram, kinfoLastDate, kinfoFirstDate, kinfoCreationTime, kinfoLastWriteTime,
      kinfoExpansion, kinfoTypeVersion, kinfoInternalHeadAddress, kinfoInternalHeadNumber, kinfoHeader2Address, kinfoHeader2Number, kinfoUserHeadAddress,
      kinfoUserHeadNumber, kinfoValues1Address, kinfoValues1Number, kinfoValues2Address, kinfoValues2Number, kinfoValues3Address, kinfoValues3Number,
      kinfoAllocatedSize, kinfoNumberData, kinfoLogicalNumber, kinfoHash, kinfoPathnameLength, kinfoStatus, kinfoAliasesBinAddress]

/-- A new record. -/
theorem zwrite_new_ok (hc : c.OK) {G : Ghost} {s : Eng} (I : Inv c G s) (r : Req) (hpos : 0 < r.path.length)
    (hlen : r.path.length ≤ 392)
    (hdead : ∀ f ∈ centries (G.chain (c.tHash r.path)), Same r.path f.path → dead f)
    (hG : ∀ f ∈ centries (G.chain (c.tHash r.path)), Spare r.path f → nLongsB f.path.length = nLongsB r.path.length) :
    ∃ G' s' e, zwrite c s r = some (s', .ok) ∧ Done c r.path 0 G s G' s' ∧ (e.path = r.path ∧ e.lastWrite = r.now) ∧ e.st = REC_STATUS_PRIMARY ∧
      s'.hdr.numberRecords = s.hdr.numberRecords + 1 ∧ RecIs c s'.disk (G'.room e.infoAdd) e (Spec.stored r 1) ∧ HeadOK s'.disk e ∧
      ∃ A B o, centries (G.chain (c.tHash r.path)) = A ++ o ++ B ∧ centries (G'.chain (c.tHash r.path)) = A ++ e :: B ∧
        (∀ x ∈ o, dead x) ∧ o.length ≤ 1 ∧ (∀ x ∈ A, Same r.path x.path → gone x) := by
  have hi := hc.isize
  have hh := hc.tHash_lt r.path hlen
  let hx := c.tHash r.path
  have I0 : InvW c G s.disk hx 0 := I.w.idle
  have K := I0.chains hx hh
  have hno : ∀ x ∈ centries (G.chain hx), ¬ EMatch r.path REC_STATUS_VALID x := by
    rintro x hx' ⟨h1, h2⟩
    rcases hdead x hx' h1 with h | h
    · rw [h] at h2
      simp [statusMatches, REC_STATUS_VALID, REC_STATUS_DELETED, REC_STATUS_PRIMARY] at h2
    · rw [gone] at h
      rw [h] at h2
      simp [statusMatches, REC_STATUS_VALID, REC_STATUS_RENAMED, REC_STATUS_PRIMARY] at h2
  have hlen' : (G.chain hx).length ≤ s.hdr.totalBins + 1 := by have := I.h.len hx hh; omega
  have hchk := zcheck_none hc I0 hh (I.last _ hh) hlen' hno
  have hri : zreadInfo c s r.path REC_STATUS_VALID = some (⟨false, s.disk (c.hashStart + hx), lastAddr (G.chain hx),
      wsC r.path 0 (G.chain hx), 0, 0⟩, none) := by
    unfold zreadInfo
    rw [hchk]
    simp [hx]
  have S0 : St c r.path G s hx 0 G s 0 := St.start I0 hh hc
  have hNE : ∀ e ∈ centries (G.chain hx), ¬ gone e → e.infoAdd ≠ 0 := fun e he => I0.info_ne hc hh he
  -- the bin entry
  let total := numberInfo r.path + nLongs r.ih.length + nLongs r.h2.length + nLongs r.uh.length + nLongs (allocSize r)
  have place : ∃ G1 s1 k1 G2 s2 addr, (∃ (_ : zwriteNew c s ⟨false, s.disk (c.hashStart + hx), lastAddr (G.chain hx),
        wsC r.path 0 (G.chain hx), 0, 0⟩ r =
          (zbinUpdate c s1 k1 r.path addr REC_STATUS_PRIMARY (pack32 r.dataType.toNat s1.hdr.catSequence) r.now r.dates).map fun s =>
            let info := newInfo c r (addr + numberInfo r.path) (allocSize r)
            let s := s.put addr (numberInfo r.path) info
            ({ s with hdr := { s.hdr with numberRecords := s.hdr.numberRecords + 1 } }, info))
        (_ : zbinUpdate c s1 k1 r.path addr REC_STATUS_PRIMARY (pack32 r.dataType.toNat s1.hdr.catSequence) r.now r.dates = some s2)
        (_ : G1.chain hx = G.chain hx) (_ : G1.room addr = ⟨addr + numberInfo r.path, total - numberInfo r.path⟩) (_ : s1.hdr.numberRecords = s.hdr.numberRecords),
        Placed c r.path G s hx 0 G1 s1 ⟨REC_STATUS_PRIMARY, r.path, addr, pack32 r.dataType.toNat s1.hdr.catSequence, r.now, r.dates⟩ G2 s2) := by
    by_cases hC : G.chain hx = []
    · -- first record of this table hash
      have ht : s.disk (c.hashStart + hx) = 0 := by
        have := K.at_
        rw [hC, I.last _ hh] at this
        exact this
      obtain ⟨Ga, Sa, Fa, hcha, hlasta, hrooma, howna, hfsa, hnra, hcsa⟩ :=
        zbinNew_ok hc I0 hh S0 I.h 0 (lastAddr (G.chain hx)) (fun h => absurd rfl h)
      generalize hzb : zbinNew c s 0 (lastAddr (G.chain hx)) = zb at *
      have hCa : Ga.chain hx = [] := by rw [hcha]; exact hC
      let sb := zb.1.put (c.hashStart + hx) 1 fun _ => zb.2
      have hinvb := Sa.inv.relink hc hh (d' := sb.disk) (v := zb.2) (c.hashStart + hx) (by rw [if_pos hCa])
        (fun x hx' => apply_out (by simp only; omega))
        (apply_in (w := ⟨c.hashStart + hx, 1, _⟩) (i := 0) (by simp))
      have Sb : St c r.path G s hx 0 _ sb 0 := Sa.step hc I0 hinvb (fun _ _ _ h => h) (fun _ _ _ => rfl) (fun h hne => ⟨rfl, by simp [hne]⟩)
        (by
          intro i hi' h b hb
          have : i = 0 := by omega
          subst this
          rw [Nat.add_zero, Sa.inv.tab hx hh] at hb; cases hb) Sa.near.edit Sa.near.fresh
      have Fb : Fresh c { Ga with last := fun h => if h = hx then zb.2 else Ga.last h } sb.hdr zb.2 :=
        ⟨Fa.beyond, Fa.free, Fa.link, Fa.len, Fa.bin, Fa.next, ⟨Fa.spare.tail, Fa.spare.used, Fa.spare.lastB⟩⟩
      have Sc := alloc_ok hc I0 hh Sb (by show ∀ e ∈ centries (Ga.chain hx), _; rw [hCa]; simp) Fb.beyond total (numberInfo r.path)
      have Fc := alloc_fresh (hx := hx) Fb total (numberInfo r.path)
      let e : BinEnt := ⟨REC_STATUS_PRIMARY, r.path, sb.hdr.fileSize, pack32 r.dataType.toNat sb.hdr.catSequence, r.now, r.dates⟩
      have n : NewEntry c r.path hx (allocGhost { Ga with last := fun h => if h = hx then zb.2 else Ga.last h } hx sb.hdr.fileSize total (numberInfo r.path)) e := by
        refine ⟨rfl, rfl, rfl, hpos, hlen, alloc_owned (e := e) rfl (by simp only [e, total]; omega), ?_, ?_⟩
        · show ∀ f ∈ centries (Ga.chain hx), _
          rw [hCa]; simp
        · show ∀ f ∈ centries (Ga.chain hx), _
          rw [hCa]; simp
      obtain ⟨G2, s2, hup, P⟩ := zbinUpdate_first hc I0 hh (e := e) Sc Fc (by simp [allocGhost, claimGhost]) n (by show Ga.chain hx = _; rw [hcha]) hCa
        ⟨false, zb.2, zb.2, 0, 0, 0⟩ rfl rfl
      refine ⟨_, _, ⟨false, zb.2, zb.2, 0, 0, 0⟩, G2, s2, sb.hdr.fileSize, ?_, hup, by show Ga.chain hx = _; rw [hcha], alloc_room, ?_, P⟩
      · unfold zwriteNew
        simp only [ht, if_true]
        rw [hzb, hC]
        rfl
      · exact hnra
    · have ht : s.disk (c.hashStart + hx) ≠ 0 := by
        have hat := K.at_
        cases hCC : G.chain hx with
        | nil => exact absurd hCC hC
        | cons be C1 => obtain ⟨b1, es1⟩ := be; rw [hCC] at hat; rw [hat.1]; exact hat.2.1
      have Sc := alloc_ok hc I0 hh S0 hNE I.h.beyond total (numberInfo r.path)
      have Hc := alloc_invH (hx := hx) I.h total (numberInfo r.path)
      let e : BinEnt := ⟨REC_STATUS_PRIMARY, r.path, s.hdr.fileSize, pack32 r.dataType.toNat s.hdr.catSequence, r.now, r.dates⟩
      have n : NewEntry c r.path hx (allocGhost G hx s.hdr.fileSize total (numberInfo r.path)) e := by
        refine ⟨rfl, rfl, rfl, hpos, hlen, alloc_owned (e := e) rfl (by simp only [e, total]; omega), ?_, hdead⟩
        · intro f hf hg h
          have h4 := (K.rcd f hf hg).head
          rw [I.h.beyond _ (by simp only [e] at h; omega)] at h4; cases h4
      obtain ⟨G2, s2, hup, P⟩ := zbinUpdate_ok hc I0 hh (e := e) Sc Hc (I.last _ hh) n rfl hC hG
        ⟨false, s.disk (c.hashStart + hx), lastAddr (G.chain hx), wsC r.path 0 (G.chain hx), 0, 0⟩ ht rfl rfl
      refine ⟨allocGhost G hx s.hdr.fileSize total (numberInfo r.path), (s.getFileSpace total).1, _, G2, s2, s.hdr.fileSize, ?_, hup, rfl, alloc_room, rfl, P⟩
      unfold zwriteNew
      simp only [if_neg ht]
      rfl
  obtain ⟨G1, s1, k1, G2, s2, addr, hzn, hup, hch1, hroom1, hnr1, P⟩ := place
  let e : BinEnt := ⟨REC_STATUS_PRIMARY, r.path, addr, pack32 r.dataType.toNat s1.hdr.catSequence, r.now, r.dates⟩
  obtain ⟨A, B, o, hA, hB, ho, ho1, hAs⟩ := P.ents
  have he : e ∈ centries (G2.chain hx) := by rw [hB]; simp [e]
  have hge : ¬ gone e := live_not_gone (Or.inr rfl)
  have hroom2 : G2.room e.infoAdd = ⟨addr + numberInfo r.path, total - numberInfo r.path⟩ := by rw [P.room]; exact hroom1
  let s3 : Eng := { s2 with hdr := { s2.hdr with numberRecords := s2.hdr.numberRecords + 1 } }
  have S3 : St c r.path G s hx 0 G2 s3 e.infoAdd := P.st.hdr rfl rfl
  have H3 : InvH c G2 s3.hdr := ⟨P.hdr.beyond, P.hdr.free, P.hdr.link, P.hdr.len, P.hdr.spare⟩
  obtain ⟨f1, f2, f3, f4, f5, f6, f7, f8⟩ := newInfo_fields (c := c) r (addr + numberInfo r.path) (allocSize r)
  have L := newInfo_layout (c := c) r (addr + numberInfo r.path) (allocSize r)
  have hga := allocSize_ge r
  have htail := tail_ok hc I0 hh S3 he hge r (newInfo c r (addr + numberInfo r.path) (allocSize r)) 1 rfl (by rw [hroom2]; exact L) f1
    (by rw [hroom2]
        simp only [tot, total, totalInts] at hga ⊢
        have : nLongs r.v1.length + nLongs r.v2.length + nLongs r.v3.length ≤ nLongs (allocSize r) := by
          simp only [nLongs] at hga ⊢; omega
        omega)
    (by rw [hroom2]
        simp only [reserved, L.n1, L.n2, L.n3, f2, total]
        refine Nat.le_trans (reserved4_le _ _ _ _) ?_
        simp only [nLongs]; omega) f3 f4 f5 f6 f7 f8
    (by simp only [e]; rw [lo32_pack r.dataType.toNat_lt, UInt32.ofNat_toNat]; exact Or.inl rfl)
  obtain ⟨S4, h4, r4, i4⟩ := htail
  obtain ⟨S5, h5, r5, i5⟩ := close_ok hc I0 hh S4 he hge r4 (by rw [h4]; exact H3) true
  have hhead := HeadInfo.congr (fun i hi => (i5 i hi).trans (i4 i hi)) (newInfo_head (c := c) r (addr + numberInfo r.path) (allocSize r))
  refine ⟨G2, _, e, ?_, ⟨S5, ?_, ?_⟩, ⟨rfl, rfl⟩, rfl, ?_, r5, hhead, A, B, o, by rw [← hch1]; exact hA, hB, ho, ho1, hAs⟩
  · unfold zwrite
    rw [hri, Option.bind_some]
    simp only
    rw [hzn, hup, Option.map_some, Option.map_some]
    rfl
  · rw [h5, h4]; exact H3
  · intro h hh'
    by_cases hhx : h = hx
    · rw [hhx]; exact P.last
    · rw [(P.st.near.others h hhx).2]; exact I.last h hh'
  · rw [h5, h4]
    show s2.hdr.numberRecords + 1 = _
    rw [P.recs, hnr1]

end Hec
