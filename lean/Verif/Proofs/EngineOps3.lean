import Verif.Proofs.EngineOps2
/-! Writing over an existing record. -/
namespace Hec
set_option linter.unusedSimpArgs false
set_option linter.unusedVariables false

variable {c : Cfg} {p : Bytes} {G0 : Ghost} {s0 : Eng} {hx a0 : Nat}

theorem expandedAlloc_ge (r : Req) (n : Nat) : totalInts r ≤ expandedAlloc c r n := by
  have h : ∀ a t : Nat, t ≤ if t > a then t else a := by intro a t; split <;> omega
  exact h _ _

theorem InvH.same {G G' : Ghost} {h h' : Hdr} (H : InvH c G h) (ho : G'.own = G.own) (hb : G'.blocks = G.blocks) (ht : G'.tail = G.tail)
    (hl : ∀ x, x < c.maxHash → (G'.chain x).length = (G.chain x).length)
    (h1 : h'.fileSize = h.fileSize) (h2 : h'.binsRemain = h.binsRemain) (h3 : h'.nextEmpty = h.nextEmpty)
    (h4 : h'.totalBins = h.totalBins) : InvH c G' h' := by
  refine ⟨?_, ?_, ?_, ?_, by rw [h2, h3]; exact ⟨ht.trans H.spare.tail, by rw [ho]; exact H.spare.used, by rw [hb]; exact H.spare.lastB⟩⟩
  · rw [h1, ho]; exact H.beyond
  · rw [h2, h3, ho]; exact H.free
  · rw [h2, h3, ho]; exact H.link
  · intro x hx'; rw [h4, hl x hx']; exact H.len x hx'

theorem two_nLongs (n : Nat) : 2 * nLongs n = n + n % 2 := by
  simp only [nLongs]; omega

/-- The chain with one entry replaced. -/
def entGhost (G : Ghost) (hx : Nat) (C : Chain) : Ghost :=
  { G with chain := (fun h => if h = hx then C else G.chain h), last := (fun h => if h = hx then G.last hx else G.last h) }

theorem layoutInfo_layout (info : Nat → Nat) (r : Req) (a alloc : Nat) : Layout (layoutInfo info a r alloc) a r := by
  constructor <;> simp [layoutInfo,
    kinfoInternalHeadAddress, kinfoInternalHeadNumber, kinfoHeader2Address, kinfoHeader2Number, kinfoUserHeadAddress,
    kinfoUserHeadNumber, kinfoValues1Address, kinfoValues1Number, kinfoValues2Address, kinfoValues2Number,
    kinfoValues3Address, kinfoValues3Number]

/-- Words 13 to 27 of the info block are those that describe the arrays. -/
theorem Layout_congr {f g : Nat → Nat} {a : Nat} {r : Req} (L : Layout f a r) (h : ∀ i, 13 ≤ i → i ≤ 27 → g i = f i) : Layout g a r := by
  refine ⟨?_, ?_, ?_, ?_, ?_, ?_, ?_, ?_, ?_, ?_, ?_, ?_⟩
  all_goals rw [h _ (by decide) (by decide)]
  · exact L.a1
  · exact L.n1
  · exact L.a2
  · exact L.n2
  · exact L.a3
  · exact L.n3
  · exact L.a4
  · exact L.n4
  · exact L.a5
  · exact L.n5
  · exact L.a6
  · exact L.n6

theorem layoutInfo_out (info : Nat → Nat) (r : Req) (a alloc i : Nat) (h : i < 13) : layoutInfo info a r alloc i = info i := by
  have hne : ∀ k, 13 ≤ k → (i = k) = False := by intro k hk; simp; omega
  simp only [layoutInfo, kinfoInternalHeadAddress, kinfoInternalHeadNumber, kinfoHeader2Address, kinfoHeader2Number, kinfoUserHeadAddress,
    kinfoUserHeadNumber, kinfoValues1Address, kinfoValues1Number, kinfoValues2Address, kinfoValues2Number,
    kinfoValues3Address, kinfoValues3Number, kinfoAllocatedSize, kinfoNumberData, kinfoLogicalNumber,
    hne 13 (by decide), hne 14 (by decide), hne 15 (by decide), hne 16 (by decide), hne 17 (by decide), hne 18 (by decide),
    hne 19 (by decide), hne 20 (by decide), hne 21 (by decide), hne 22 (by decide), hne 23 (by decide), hne 24 (by decide),
    hne 25 (by decide), hne 26 (by decide), hne 27 (by decide), if_false]

theorem finishInfo_high (info : Nat → Nat) (r : Req) (i : Nat) (h : 13 ≤ i) : finishInfo info r i = info i := by
  simp only [finishInfo, upd, kinfoLastWriteTime, kinfoProgram, kinfoFirstDate, kinfoLastDate]
  repeat rw [if_neg (by omega)]

theorem finishInfo_low (info : Nat → Nat) (r : Req) (i : Nat) (h : i < 6) : finishInfo info r i = info i := by
  simp only [finishInfo, upd, kinfoLastWriteTime, kinfoProgram, kinfoFirstDate, kinfoLastDate]
  repeat rw [if_neg (by omega)]

theorem finishInfo_now (info : Nat → Nat) (r : Req) : finishInfo info r kinfoLastWriteTime = r.now := by
  simp [finishInfo, upd, kinfoLastWriteTime, kinfoProgram, kinfoFirstDate, kinfoLastDate]

theorem layoutInfo_fields (info : Nat → Nat) (r : Req) (a alloc : Nat) :
    layoutInfo info a r alloc kinfoAllocatedSize = alloc ∧ layoutInfo info a r alloc kinfoNumberData = r.numberValues ∧
    layoutInfo info a r alloc kinfoLogicalNumber = (if r.logicalNumber > 0 then r.logicalNumber else r.numberValues) := by
  refine ⟨?_, ?_, ?_⟩ <;> simp [layoutInfo,
    kinfoInternalHeadAddress, kinfoInternalHeadNumber, kinfoHeader2Address, kinfoHeader2Number, kinfoUserHeadAddress,
    kinfoUserHeadNumber, kinfoValues1Address, kinfoValues1Number, kinfoValues2Address, kinfoValues2Number,
    kinfoValues3Address, kinfoValues3Number, kinfoAllocatedSize, kinfoNumberData, kinfoLogicalNumber]

/-- The info block zwriteExisting writes last. -/
theorem layoutInfo_high (info : Nat → Nat) (r : Req) (a alloc i : Nat) (h : 28 ≤ i) : layoutInfo info a r alloc i = info i := by
  have hne : ∀ k, k ≤ 27 → (i = k) = False := by intro k hk; simp; omega
  simp only [layoutInfo, kinfoInternalHeadAddress, kinfoInternalHeadNumber, kinfoHeader2Address, kinfoHeader2Number, kinfoUserHeadAddress,
    kinfoUserHeadNumber, kinfoValues1Address, kinfoValues1Number, kinfoValues2Address, kinfoValues2Number,
    kinfoValues3Address, kinfoValues3Number, kinfoAllocatedSize, kinfoNumberData, kinfoLogicalNumber,
    hne 13 (by decide), hne 14 (by decide), hne 15 (by decide), hne 16 (by decide), hne 17 (by decide), hne 18 (by decide),
    hne 19 (by decide), hne 20 (by decide), hne 21 (by decide), hne 22 (by decide), hne 23 (by decide), hne 24 (by decide),
    hne 25 (by decide), hne 26 (by decide), hne 27 (by decide), if_false]

structure ExInfo (f : Nat → Nat) (r : Req) (a alloc hash : Nat) (version : UInt32) : Prop where
  lay : Layout f a r
  hash : f kinfoHash = hash
  tv : f kinfoTypeVersion = packInts r.dataType version
  al : f kinfoAllocatedSize = alloc
  nd : f kinfoNumberData = r.numberValues
  ln : f kinfoLogicalNumber = if r.logicalNumber > 0 then r.logicalNumber else r.numberValues
  lw : f kinfoLastWriteTime = r.now
  fd : f kinfoFirstDate = r.firstDate
  ld : f kinfoLastDate = r.lastDate

theorem exInfo_of {f : Nat → Nat} {info : Nat → Nat} {r : Req} {a alloc : Nat} {version : UInt32}
    (hi : ∀ i, 13 ≤ i → i ≤ 27 → f i = layoutInfo info a r alloc i) (h3 : f kinfoHash = info kinfoHash)
    (h4 : f kinfoTypeVersion = packInts r.dataType version) (h6 : f kinfoLastWriteTime = r.now)
    (h9 : f kinfoFirstDate = r.firstDate) (h10 : f kinfoLastDate = r.lastDate) :
    ExInfo f r a alloc (info kinfoHash) version := by
  obtain ⟨k1, k2, k3⟩ := layoutInfo_fields info r a alloc
  refine ⟨Layout_congr (layoutInfo_layout info r a alloc) hi, h3, h4, ?_, ?_, ?_, h6, h9, h10⟩
  · rw [hi _ (by decide) (by decide)]; exact k1
  · rw [hi _ (by decide) (by decide)]; exact k2
  · rw [hi _ (by decide) (by decide)]; exact k3

theorem zwrite_existing_ok (hc : c.OK) {G : Ghost} {s : Eng} (I : Inv c G s) (r : Req) (hlen : r.path.length ≤ 392)
    {A B : List BinEnt} {e : BinEnt} {R : Rec} (T : Target c G s.disk r.path A B e R) (hm : EMatch r.path REC_STATUS_VALID e)
    (hlv : live e)
    (hA : ∀ x ∈ A, Same r.path x.path → gone x) (hB : ∀ x ∈ B, Same r.path x.path → dead x)
    (hfitA : Spec.oddHeaders r.ih r.h2 r.uh ≤ 1 ∨ Spec.oddHeaders r.ih r.h2 r.uh ≤ Spec.oddHeaders R.ih R.h2 R.uh) :
    ∃ G' s' e' res, zwrite c s r = some (s', res) ∧ Done c r.path e.infoAdd G s G' s' ∧
      (e'.path = e.path ∧ e'.lastWrite = r.now) ∧ e'.st = e.st ∧ s'.hdr.numberRecords = s.hdr.numberRecords ∧ (HeadOK s.disk e → HeadOK s'.disk e') ∧
      (centries (G'.chain (c.tHash r.path)) = A ++ e' :: B ∧
        ∃ C1 b pre post C2, G.chain (c.tHash r.path) = C1 ++ (b, pre ++ e :: post) :: C2 ∧
          G'.chain (c.tHash r.path) = C1 ++ (b, pre ++ e' :: post) :: C2) ∧
      ((typeSupported R.dataType r.dataType = true ∧ res = .ok ∧
          RecIs c s'.disk (G'.room e'.infoAdd) e' (Spec.stored r (R.version + 1))) ∨
       (typeSupported R.dataType r.dataType = false ∧ res = .differentType ∧ RecIs c s'.disk (G'.room e'.infoAdd) e' R)) := by
  have hi := hc.isize
  have hh := hc.tHash_lt r.path hlen
  generalize hhx : c.tHash r.path = hx at *
  have I0 : InvW c G s.disk hx 0 := I.w.idle
  have K := I0.chains hx hh
  have hE := T.ents
  rw [hhx] at hE
  obtain ⟨C1, b, pre, post, C2, hC, hAeq, hBeq⟩ := split_centries hE
  have hlen' : (G.chain hx).length ≤ s.hdr.totalBins + 1 := by have := I.h.len hx hh; omega
  have hno : ∀ x ∈ centries C1 ++ pre, ¬ EMatch r.path REC_STATUS_VALID x := by
    intro x hx' hmm
    rw [← hAeq] at hx'
    have h1 := hA x hx' hmm.1
    have h2 := hmm.2
    rw [gone] at h1
    rw [h1] at h2
    simp [statusMatches, REC_STATUS_VALID, REC_STATUS_RENAMED, REC_STATUS_PRIMARY] at h2
  obtain ⟨ws, hri⟩ := zreadInfo_some hc I0 (q := r.path) (wanted := REC_STATUS_VALID)
    (by rw [hhx]; exact hh) (by rw [hhx]; exact hC) (by rw [hhx]; exact hlen') hno hm T.rcd.ok.hash
  have S0 : St c r.path G s hx e.infoAdd G s 0 := St.start I0 hh hc
  have hmem : e ∈ centries (G.chain hx) := by rw [hE]; simp
  have hge : ¬ gone e := live_not_gone hlv
  have hcol := K.rcd e hmem hge
  have hst : live e ∨ dead e := Or.inl hlv
  -- the entry is stamped
  let x := b + esize pre
  let e1 : BinEnt := { e with lastWrite := r.now, dates := r.dates }
  have hat0 := entry_at I0 hh hC
  let f1 : Nat → Nat := fun i => if i = 0 then r.now else r.dates
  let s1 := s.put (x + 5) 2 f1
  have hat : EntryAt c s1.disk x e1 := by
    have h1 : ∀ i, i ≠ 5 → i ≠ 6 → s1.disk (x + i) = s.disk (x + i) := by
      intro i hi' hi''; exact apply_out (by simp only; omega)
    have h5 : s1.disk (x + 5) = r.now := apply_in (w := ⟨x + 5, 2, f1⟩) (i := 0) (by simp)
    have h6 : s1.disk (x + 6) = r.dates := apply_in (w := ⟨x + 5, 2, f1⟩) (i := 1) (by simp)
    have := EntryAt_update (d' := s1.disk) hat0 (fun i _ _ h h' => h1 i h h')
    rw [h1 3 (by omega) (by omega), h1 1 (by omega) (by omega), h5, h6] at this
    obtain ⟨_, h1', _, h3, _, _, _, _⟩ := hat0
    rw [h3, h1'] at this
    exact this
  have hbown : ∀ i, i < 7 → ∃ h b', G.own (x + i) = .bin h b' := by
    intro i hi'
    have hK := K
    rw [hC] at hK
    obtain ⟨hbin, _⟩ := ChainAt_bin C1 hK.at_
    have hfit := hbin.fits
    simp only [esize_append, esize, BinEnt.size] at hfit
    have := hK.bins (b, pre ++ e :: post) (by simp) (esize pre + i) (by omega)
    exact ⟨hx, b, by rw [show x + i = b + (esize pre + i) by simp only [x]; omega]; exact this⟩
  let G1 := entGhost G hx (C1 ++ (b, pre ++ e1 :: post) :: C2)
  have S1 : St c r.path G s hx e.infoAdd G1 s1 0 :=
    modify_ok hc I0 hh S0 (ax' := 0) (e' := e1) (e0 := e) hC rfl T.same hst (off := 5) (n := 2) (by omega) hat (fun _ => Owned.congr (e := e) rfl rfl hcol)
    (by rw [← hAeq, ← hBeq]; intro g hg h1 _; exact others_ne (e := e) K hE g hg h1 hge)
    (by rw [← hAeq]; intro g hg hgg hs; exact absurd (hA g hg (T.same.trans hs.symm)) hgg)
    (by rw [← hBeq]; intro g hg _ hs; exact hB g hg (T.same.trans hs))
    (fun _ _ => RecOK_congr (e := e) rfl rfl rfl rfl (fun _ _ => rfl) T.rcd.ok) (Or.inl rfl) (by rw [hE, hAeq, hBeq]) T.same rfl
    (Or.inr fun g hg hgg => I0.info_ne hc hh hg hgg)
  have hC1 : G1.chain hx = C1 ++ (b, pre ++ e1 :: post) :: C2 := by simp [G1, entGhost]
  have hE1 : centries (G1.chain hx) = A ++ e1 :: B := by rw [hC1]; simp [hAeq, hBeq]
  have hmem1 : e1 ∈ centries (G1.chain hx) := by rw [hE1]; simp
  have hk1 : ∀ y, InRec (G.room e.infoAdd) e y → s1.disk y = s.disk y := by
    intro y hi'
    apply apply_out
    rintro ⟨h1, h2⟩
    simp only at h1 h2
    obtain ⟨h, b', hb⟩ := hbown (y - x) (by omega)
    rw [show x + (y - x) = y by omega, hcol.mine y hi'] at hb
    cases hb
  have R1 : RecIs c s1.disk (G1.room e1.infoAdd) e1 R := RecIs_congr (e := e) rfl rfl rfl rfl hk1 T.rcd
  have H1 : InvH c G1 s1.hdr := by
    refine I.h.same rfl rfl rfl (fun y hy => ?_) rfl rfl rfl rfl
    simp only [G1, entGhost]
    split
    · next h => rw [h, hC]; simp
    · rfl
  have hlast1 : ∀ h, h < c.maxHash → G1.last h = 0 := by
    intro h hh'
    simp only [G1, entGhost]
    split
    · exact I.last hx hh
    · exact I.last h hh'
  let info0 : Nat → Nat := fun i => s.disk (e.infoAdd + i)
  have hRt : lowInt (info0 kinfoTypeVersion) = R.dataType := by rw [← T.rcd.eq]; rfl
  have hRv : highInt (info0 kinfoTypeVersion) = R.version := by rw [← T.rcd.eq]; rfl
  have hni : numberInfo r.path = numberInfo e.path := numberInfo_same T.same
  by_cases hts : typeSupported R.dataType r.dataType = false
  · -- another type of data
    refine ⟨G1, s1, e1, .differentType, ?_, ⟨by rw [hhx]; exact S1, H1, hlast1⟩, ⟨rfl, rfl⟩, rfl, rfl,
      HeadOK.congr (e := e) rfl rfl (fun i hi' => hk1 _ (InRec.info hi')), ⟨hE1, C1, b, pre, post, C2, hC, hC1⟩, Or.inr ⟨hts, rfl, R1⟩⟩
    unfold zwrite
    rw [hri, Option.bind_some]
    simp only [zwriteExisting]
    rw [show lowInt (s.disk (e.infoAdd + kinfoTypeVersion)) = R.dataType from hRt, if_pos hts]
  have hts' : typeSupported R.dataType r.dataType = true := by simpa using hts
  have htc : Spec.compatible (UInt32.ofNat (lo32 e.typeCat)) r.dataType := by
    have h1 := T.rcd.ok.tc
    rw [show lowInt (s.disk (e.infoAdd + kinfoTypeVersion)) = R.dataType from hRt] at h1
    exact compatible_trans h1 ((typeSupported_iff _ _).mp hts')
  by_cases hbig : newSize r > originalSize info0
  · -- the record is moved to the end of the file
    let infoM := upd info0 kinfoStatus REC_STATUS_MOVED
    let s2 := s1.put e.infoAdd (numberInfo r.path) infoM
    have S2 : St c r.path G s hx e.infoAdd G1 s2 e.infoAdd :=
      St.quiet hc I0 (St.weaken hc hh S1) (fun i hi' => Or.inr (Or.inr ⟨hcol.mine _ (InRec.info (by omega)), I0.info_ne hc hh hmem hge⟩))
    have R2 : RecIs c s2.disk (G1.room e1.infoAdd) e1 R := by
      refine RecIs_congr1 (e := e1) rfl rfl rfl rfl (fun i hi' hne => ?_) (fun i hi' => ?_) R1
      · show Wr.apply ⟨e.infoAdd, numberInfo r.path, infoM⟩ s1.disk (e.infoAdd + i) = _
        have hlt : i < numberInfo r.path := by simp only [numberInfo, infoSize]; omega
        rw [apply_in (w := ⟨e.infoAdd, numberInfo r.path, infoM⟩) hlt]
        refine Eq.trans ?_ (hk1 _ (InRec.info30 hi')).symm
        simp only [infoM, upd, if_neg hne]; rfl
      · have hap := hcol.apart
        have hi' : i < (G.room e.infoAdd).cap := hi'
        exact apply_out (show ¬ (e.infoAdd ≤ (G.room e.infoAdd).dat + i ∧ (G.room e.infoAdd).dat + i < e.infoAdd + numberInfo r.path) by omega)
    have S2' : St c r.path G s hx e.infoAdd G1 s2 0 := by
      refine S2.ghost (S2.inv.finish ?_) (fun _ _ _ h => h) (fun _ _ _ => rfl) (fun _ _ => ⟨rfl, rfl⟩) S2.near.edit
        (Or.inr fun f hf hg => I0.info_ne hc hh hf hg)
      intro f hf hg hfe
      have : f = e1 := Classical.byContradiction fun hne => by
        rcases pairwise_mem (S1.inv.chains hx hh).nodupR hf hmem1 hne with h | h
        · exact h hg hge hfe
        · exact h hge hg hfe.symm
      rw [this]; exact R2.ok
    let ex := lowInt (info0 kinfoExpansion) + 1
    let alloc := expandedAlloc c r ex.toNat
    have hage : totalInts r ≤ alloc := expandedAlloc_ge r _
    let total := numberInfo r.path + nLongs r.v3.length + nLongs r.ih.length + nLongs r.h2.length + nLongs r.uh.length + nLongs alloc
    have S3 := alloc_ok hc I0 hh S2' (fun g hg hgg => S2'.inv.info_ne hc hh hg hgg) H1.beyond total (numberInfo r.path)
    have H3 := alloc_invH (s := s2) (hx := hx) H1 total (numberInfo r.path)
    have hfs : s2.hdr.fileSize = s.hdr.fileSize := rfl
    let addr := s.hdr.fileSize
    let G3 := allocGhost G1 hx addr total (numberInfo r.path)
    let s3 : Eng := { (s2.getFileSpace total).1 with hdr := { (s2.getFileSpace total).1.hdr with numberExpansions := s.hdr.numberExpansions + 1 } }
    have S3' : St c r.path G s hx e.infoAdd G3 s3 addr := S3.hdr rfl rfl
    let e2 : BinEnt := { e1 with infoAdd := addr }
    let s4 := s3.put (x + 3) 1 fun _ => addr
    have hC3 : G3.chain hx = C1 ++ (b, pre ++ e1 :: post) :: C2 := hC1
    have hat3 := entry_at S3'.inv hh hC3
    have hat4 : EntryAt c s4.disk x e2 := by
      have h1 : ∀ i, i ≠ 3 → s4.disk (x + i) = s3.disk (x + i) := by
        intro i hi'; exact apply_out (by simp only; omega)
      have h3 : s4.disk (x + 3) = addr := apply_in (w := ⟨x + 3, 1, fun _ => addr⟩) (i := 0) (by simp)
      have := EntryAt_update (d' := s4.disk) hat3 (fun i _ h _ _ => h1 i h)
      rw [h1 1 (by omega), h1 5 (by omega), h1 6 (by omega), h3] at this
      obtain ⟨_, h1', _, _, _, h5', h6', _⟩ := hat3
      rw [h1', h5', h6'] at this
      exact this
    have hrm : G3.room addr = ⟨addr + numberInfo r.path, total - numberInfo r.path⟩ := alloc_room
    have hget : numberInfo e.path ≤ total := by rw [← hni]; simp only [total]; omega
    have hfr : ∀ g ∈ centries (G1.chain hx), ¬ gone g → g.infoAdd ≠ addr := by
      intro g hg hgg h
      have h4 := ((S1.inv.chains hx hh).rcd g hg hgg).head
      rw [H1.beyond _ (show s.hdr.fileSize ≤ _ by simp only [addr] at h; omega)] at h4; cases h4
    have S4 : St c r.path G s hx e.infoAdd (entGhost G3 hx (C1 ++ (b, pre ++ e2 :: post) :: C2)) s4 addr :=
      modify_ok hc I0 hh S3' (ax' := addr) (e' := e2) (e0 := e) hC3 rfl T.same hst (off := 3) (n := 1) (by omega) hat4
      (fun _ => by
        have := alloc_owned (G := G1) (hx := hx) (fs := addr) (total := total) (e := e2) rfl hget
        rw [show numberInfo e2.path = numberInfo r.path from hni.symm] at this
        exact this)
      (by
        rw [← hAeq, ← hBeq]
        intro g hg hgg _
        refine hfr g ?_ hgg
        rw [hE1]
        rcases List.mem_append.mp hg with h | h <;> simp [h])
      (by rw [← hAeq]; intro g hg hgg hs; exact absurd (hA g hg (T.same.trans hs.symm)) hgg)
      (by rw [← hBeq]; intro g hg _ hs; exact hB g hg (T.same.trans hs))
      (fun _ h => absurd rfl h) (Or.inl rfl) (by rw [hE, hAeq, hBeq]) T.same (by rw [hC3, hC]; simp)
      S3'.near.fresh
    let G4 := entGhost G3 hx (C1 ++ (b, pre ++ e2 :: post) :: C2)
    have hE4 : centries (G4.chain hx) = A ++ e2 :: B := by simp [G4, entGhost, hAeq, hBeq]
    have hmem4 : e2 ∈ centries (G4.chain hx) := by rw [hE4]; simp
    have H4 : InvH c G4 s4.hdr := by
      refine InvH.same (G := G3) H3 rfl rfl rfl (fun y hy => ?_) rfl rfl rfl rfl
      simp only [G4, entGhost]
      split
      · next h => rw [h, hC3]; simp
      · rfl
    let info2 := upd infoM kinfoExpansion (packInts ex (highInt (infoM kinfoExpansion)))
    let info3 := upd info2 kinfoTypeVersion (packInts r.dataType (R.version + 1))
    let info4 := upd (upd info3 kinfoFlag DSS_INFO_FLAG) kinfoStatus REC_STATUS_PRIMARY
    let info5 := finishInfo (layoutInfo info4 (addr + numberInfo r.path) r alloc) r
    have X : ExInfo info5 r (addr + numberInfo r.path) alloc (info4 kinfoHash) (R.version + 1) := by
      refine exInfo_of (fun i h _ => finishInfo_high _ _ _ h) ?_ ?_ (finishInfo_now _ _) rfl rfl
      · simp only [info5]
        rw [finishInfo_low _ _ _ (by decide), layoutInfo_out _ _ _ _ _ (by decide)]
      · simp only [info5]
        rw [finishInfo_low _ _ _ (by decide), layoutInfo_out _ _ _ _ _ (by decide)]
        simp [info4, info3, upd, kinfoTypeVersion, kinfoStatus, kinfoFlag]
    have hhash : info4 kinfoHash = c.pHash e2.path := by
      show _ = c.pHash e.path
      rw [← T.rcd.ok.hash]
      simp [info4, info3, info2, infoM, info0, upd, kinfoTypeVersion, kinfoStatus, kinfoFlag, kinfoExpansion, kinfoHash]
    have hrm4 : G4.room e2.infoAdd = ⟨addr + numberInfo r.path, total - numberInfo r.path⟩ := hrm
    have htail := tail_ok hc I0 hh (e := e2) S4 hmem4 hge r info5 (R.version + 1) hni
      (by rw [hrm4]; exact X.lay) (by rw [X.hash]; exact hhash)
      (by
        rw [hrm4]
        simp only [tot, total, totalInts] at hage ⊢
        have : nLongs r.v1.length + nLongs r.v2.length + nLongs r.v3.length ≤ nLongs alloc := by
          simp only [nLongs] at hage ⊢; omega
        omega)
      (by
        rw [hrm4]
        simp only [reserved, X.lay.n1, X.lay.n2, X.lay.n3, X.al, total]
        refine Nat.le_trans (reserved4_le _ _ _ _) ?_
        omega) X.tv X.nd X.ln X.lw X.fd X.ld htc
    obtain ⟨S5, h5, r5, i5⟩ := htail
    obtain ⟨S6, h6, r6, i6⟩ := close_ok hc I0 hh S5 hmem4 hge r5 (by rw [h5]; exact H4) true
    have hhead : HeadOK s.disk e → HeadInfo info5 e.path e.st := by
      intro H
      have hst1 : info5 kinfoStatus = REC_STATUS_PRIMARY := by
        simp only [info5]
        rw [finishInfo_low _ _ _ (by decide), layoutInfo_out _ _ _ _ _ (by decide)]
        simp only [info4, upd, if_true]
      have hfl : info5 kinfoFlag = DSS_INFO_FLAG := by
        simp only [info5]
        rw [finishInfo_low _ _ _ (by decide), layoutInfo_out _ _ _ _ _ (by decide)]
        simp [info4, upd, kinfoStatus, kinfoFlag]
      have hoth : ∀ i, i = 2 ∨ 28 ≤ i → info5 i = info0 i := by
        intro i hi'
        have h1 : info5 i = layoutInfo info4 (addr + numberInfo r.path) r alloc i := by
          rcases hi' with h | h
          · subst h; exact finishInfo_low _ _ _ (by decide)
          · exact finishInfo_high _ _ _ (by omega)
        have h2 : layoutInfo info4 (addr + numberInfo r.path) r alloc i = info4 i := by
          rcases hi' with h | h
          · exact layoutInfo_out _ _ _ _ _ (by omega)
          · exact layoutInfo_high _ _ _ _ _ (by omega)
        rw [h1, h2]
        simp only [info4, info3, info2, infoM, upd, kinfoStatus, kinfoFlag, kinfoTypeVersion, kinfoExpansion]
        repeat rw [if_neg (by omega)]
      refine ⟨hfl, ?_, ?_, fun _ => by rw [hst1]; simp [REC_STATUS_PRIMARY], fun h => absurd (Or.inl h) (live_not_dead hlv),
        (hoth _ (Or.inr (by decide))).trans H.alias⟩
      · exact (hoth _ (Or.inl rfl)).trans H.len
      · refine Eq.trans (unpackBytes_congr fun j hj => ?_) H.path
        exact hoth _ (Or.inr (by simp only [kinfoPathname]; omega))
    refine ⟨G4, _, e2, .ok, ?_, ⟨by rw [hhx]; exact S6, by rw [h6, h5]; exact H4, ?_⟩, ⟨rfl, rfl⟩, rfl, ?_,
      fun H => HeadInfo.congr (fun i hi' => (i6 i hi').trans (i5 i hi')) (hhead H), ⟨hE4, C1, b, pre, post, C2, hC, by simp [G4, entGhost]⟩, Or.inl ⟨hts', rfl, r6⟩⟩
    · unfold zwrite
      rw [hri, Option.bind_some]
      simp only [zwriteExisting]
      rw [show lowInt (s.disk (e.infoAdd + kinfoTypeVersion)) = R.dataType from hRt, if_neg hts]
      rw [if_pos (show newSize r > originalSize fun i => s.disk (e.infoAdd + i) from hbig)]
      simp only [if_pos (show newSize r > originalSize fun i => s.disk (e.infoAdd + i) from hbig)]
      rw [show highInt (s.disk (e.infoAdd + kinfoTypeVersion)) = R.version from hRv]
      rfl
    · intro h hh'
      have := hlast1 h hh'
      simp only [G4, entGhost, G3, allocGhost, claimGhost]
      split
      · exact hlast1 hx hh
      · exact this
    · rw [h6, h5]; rfl
  · -- in place
    have hle : newSize r ≤ originalSize info0 := by omega
    have horig := T.rcd.ok.orig
    let alloc := if newSize r < originalSize info0 then allocSize r + (originalSize info0 - newSize r) else allocSize r
    let info1 := layoutInfo info0 (info0 kinfoInternalHeadAddress) r alloc
    let info2 := upd info1 kinfoTypeVersion (packInts r.dataType (R.version + 1))
    let info3 := finishInfo info2 r
    have hadd : info0 kinfoInternalHeadAddress = (G1.room e1.infoAdd).dat := T.rcd.ok.ih
    have X : ExInfo info3 r (info0 kinfoInternalHeadAddress) alloc (info0 kinfoHash) (R.version + 1) := by
      refine exInfo_of (fun i h h' => ?_) ?_ ?_ (finishInfo_now _ _) rfl rfl
      · simp only [info3]
        rw [finishInfo_high _ _ _ h]
        simp only [info2, upd]
        rw [if_neg (by simp only [kinfoTypeVersion]; omega)]
      · simp only [info3]
        rw [finishInfo_low _ _ _ (by decide)]
        simp only [info2, upd]
        rw [if_neg (by decide)]
        exact layoutInfo_out _ _ _ _ _ (by decide)
      · simp only [info3]
        rw [finishInfo_low _ _ _ (by decide)]
        simp [info2, upd]
    have hal : r.ih.length + r.h2.length + r.uh.length + alloc = originalSize info0 := by
      have hn : newSize r = r.ih.length + r.h2.length + r.uh.length + allocSize r := rfl
      by_cases hlt : newSize r < originalSize info0
      · have : alloc = allocSize r + (originalSize info0 - newSize r) := if_pos hlt
        omega
      · have : alloc = allocSize r := if_neg hlt
        omega
    have hal2 : allocSize r ≤ alloc := by
      by_cases hlt : newSize r < originalSize info0
      · have : alloc = allocSize r + (originalSize info0 - newSize r) := if_pos hlt
        omega
      · have : alloc = allocSize r := if_neg hlt
        omega
    have hR1 : R.ih.length = info0 kinfoInternalHeadNumber := by rw [← T.rcd.eq]; simp [readArrays, getInts, info0]
    have hR2 : R.h2.length = info0 kinfoHeader2Number := by rw [← T.rcd.eq]; simp [readArrays, getInts, info0]
    have hR3 : R.uh.length = info0 kinfoUserHeadNumber := by rw [← T.rcd.eq]; simp [readArrays, getInts, info0]
    have hres : reserved4 r.ih.length r.h2.length r.uh.length alloc ≤ (G.room e.infoAdd).cap := by
      refine Nat.le_trans ?_ horig
      have ho : originalSize info0 = info0 kinfoInternalHeadNumber + info0 kinfoHeader2Number + info0 kinfoUserHeadNumber + info0 kinfoAllocatedSize := rfl
      rw [← hR1, ← hR2, ← hR3] at ho
      show _ ≤ reserved4 (info0 kinfoInternalHeadNumber) (info0 kinfoHeader2Number) (info0 kinfoUserHeadNumber) (info0 kinfoAllocatedSize)
      rw [← hR1, ← hR2, ← hR3]
      simp only [Spec.oddHeaders] at hfitA
      exact reserved4_shift hfitA (by omega)
    have htail := tail_ok hc I0 hh (e := e1) (St.weaken hc hh S1) hmem1 hge r info3 (R.version + 1) hni
      (by rw [← hadd]; exact X.lay) (by rw [X.hash]; exact T.rcd.ok.hash)
      (by
        show tot r ≤ (G.room e.infoAdd).cap
        have h2 := allocSize_ge r
        simp only [totalInts] at h2
        simp only [tot]
        have := reserved4_fits (a := r.ih.length) (b := r.h2.length) (x := r.uh.length) (n := alloc)
          (t := nLongs r.v1.length + nLongs r.v2.length + nLongs r.v3.length) (by omega)
        omega)
      (by
        show reserved info3 ≤ (G.room e.infoAdd).cap
        simp only [reserved, X.lay.n1, X.lay.n2, X.lay.n3, X.al]
        exact hres) X.tv X.nd X.ln X.lw X.fd X.ld htc
    obtain ⟨S5, h5, r5, i5⟩ := htail
    obtain ⟨S6, h6, r6, i6⟩ := close_ok hc I0 hh S5 hmem1 hge r5 (by rw [h5]; exact H1) false
    have hhead : HeadOK s.disk e → HeadInfo info3 e.path e.st := by
      intro H
      have hoth : ∀ i, i < 3 ∨ 28 ≤ i → info3 i = info0 i := by
        intro i hi'
        have h1 : info3 i = info2 i := by
          rcases hi' with h | h
          · exact finishInfo_low _ _ _ (by omega)
          · exact finishInfo_high _ _ _ (by omega)
        rw [h1]
        simp only [info2, upd, kinfoTypeVersion]
        rw [if_neg (by omega)]
        rcases hi' with h | h
        · exact layoutInfo_out _ _ _ _ _ (by omega)
        · exact layoutInfo_high _ _ _ _ _ (by omega)
      refine ⟨?_, ?_, ?_, ?_, ?_, (hoth _ (Or.inr (by decide))).trans H.alias⟩
      · rw [hoth _ (Or.inl (by decide))]; exact H.flag
      · rw [hoth _ (Or.inl (by decide))]; exact H.len
      · refine Eq.trans (unpackBytes_congr fun j hj => ?_) H.path
        exact hoth _ (Or.inr (by simp only [kinfoPathname]; omega))
      · rw [hoth _ (Or.inl (by decide))]; exact H.live
      · rw [hoth _ (Or.inl (by decide))]; exact H.dead
    refine ⟨G1, _, e1, .ok, ?_, ⟨by rw [hhx]; exact S6, by rw [h6, h5]; exact H1, hlast1⟩, ⟨rfl, rfl⟩, rfl, ?_,
      fun H => HeadInfo.congr (fun i hi' => (i6 i hi').trans (i5 i hi')) (hhead H), ⟨hE1, C1, b, pre, post, C2, hC, hC1⟩, Or.inl ⟨hts', rfl, r6⟩⟩
    · unfold zwrite
      rw [hri, Option.bind_some]
      simp only [zwriteExisting]
      rw [show lowInt (s.disk (e.infoAdd + kinfoTypeVersion)) = R.dataType from hRt, if_neg hts]
      rw [if_neg (show ¬ newSize r > originalSize fun i => s.disk (e.infoAdd + i) from hbig)]
      simp only [if_neg (show ¬ newSize r > originalSize fun i => s.disk (e.infoAdd + i) from hbig)]
      rw [show highInt (s.disk (e.infoAdd + kinfoTypeVersion)) = R.version from hRv]
      rfl
    · rw [h6, h5]; rfl

end Hec
