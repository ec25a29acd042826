import Verif.Proofs.EngineCopy
/-! Changing the arrays of a record in place. -/
namespace Hec
set_option linter.unusedSimpArgs false
set_option linter.unusedVariables false
open _root_.Spec (Op Store Step Steps run runs Set join SixParts NoLookAlikes FullNames NewHeaders)

variable {c : Cfg}

/-- Other contents in the arrays of an entry's record. -/
theorem edit_ok (hc : c.OK) {G : Ghost} {s s' : Eng} {past : List Op} (H : HInv c G s past) {p : Bytes} (hlen : p.length ≤ 392)
    {A B : List BinEnt} {e : BinEnt} {R : Rec} (T : Target c G s.disk p A B e R) (hl : live e) (hA : ∀ x ∈ A, Same p x.path → gone x)
    (hd : ∀ x, ¬ x < c.hdrSize → ¬ ((G.room e.infoAdd).dat ≤ x ∧ x < (G.room e.infoAdd).dat + (G.room e.infoAdd).cap) → s'.disk x = s.disk x)
    (hH : InvH c G s'.hdr) (hn : s'.hdr.numberRecords = s.hdr.numberRecords) :
    HInv c G s' past ∧ Set (abs c G s.disk).live (abs c G s'.disk).live p
      (some (readArrays s'.disk fun i => s.disk (e.infoAdd + i))) := by
  have hh := hc.tHash_lt p hlen
  have I := H.inv
  have hE := T.ents
  have hmem : e ∈ centries (G.chain (c.tHash p)) := by rw [hE]; simp
  have hge := live_not_gone hl
  have K := I.w.chains _ hh
  have hO := K.rcd e hmem hge
  have hne := I.w.info_ne hc hh hmem hge
  have hI : 30 ≤ numberInfo e.path := by simp only [numberInfo, infoSize]; omega
  -- only words of the header and of the info block change
  have hq : ∀ x, G.own x ≠ .sys → G.own x ≠ .rcd (c.tHash p) e.infoAdd → s'.disk x = s.disk x := by
    intro x h1 h2
    refine hd x (fun h => h1 (I.w.sys x h)) (fun h => h2 (hO.mine x (Or.inr h)))
  have hi : ∀ i, i < numberInfo e.path → s'.disk (e.infoAdd + i) = s.disk (e.infoAdd + i) := by
    intro i hi'
    have hap := hO.apart
    refine hd _ (fun h => ?_) (by omega)
    have h1 := I.w.sys _ h
    rw [hO.mine _ (InRec.info hi')] at h1
    cases h1
  have hw : ∀ i, i < 30 → ¬ Soft i → s'.disk (e.infoAdd + i) = s.disk (e.infoAdd + i) := fun i h1 _ => hi i (by omega)
  have hRk := T.rcd.ok
  have hRe := T.rcd.eq
  have htv : Spec.compatible (UInt32.ofNat (lo32 e.typeCat)) (lowInt (s'.disk (e.infoAdd + kinfoTypeVersion))) := by
    rw [hi kinfoTypeVersion (by simp only [numberInfo, infoSize, kinfoTypeVersion]; omega)]; exact hRk.tc
  have hRk' : RecOK c s'.disk (G.room e.infoAdd) e := by
    refine ⟨?_, ?_, ?_, ?_, ?_, ?_, ?_, ?_, ?_, htv⟩
    · rw [hw kinfoHash (by decide) (soft_not (by decide))]; exact hRk.hash
    · rw [hw kinfoInternalHeadAddress (by decide) (soft_not (by decide))]; exact hRk.ih
    · rw [hw kinfoHeader2Address (by decide) (soft_not (by decide)), hw kinfoInternalHeadAddress (by decide) (soft_not (by decide)), hw kinfoInternalHeadNumber (by decide) (soft_not (by decide))]; exact hRk.h2
    · rw [hw kinfoHeader2Address (by decide) (soft_not (by decide)), hw kinfoUserHeadAddress (by decide) (soft_not (by decide)), hw kinfoHeader2Number (by decide) (soft_not (by decide))]; exact hRk.uh
    · rw [hw kinfoValues1Address (by decide) (soft_not (by decide)), hw kinfoUserHeadAddress (by decide) (soft_not (by decide)), hw kinfoUserHeadNumber (by decide) (soft_not (by decide))]; exact hRk.v1
    · rw [hw kinfoValues1Address (by decide) (soft_not (by decide)), hw kinfoValues2Address (by decide) (soft_not (by decide)), hw kinfoValues1Number (by decide) (soft_not (by decide))]; exact hRk.v2
    · rw [hw kinfoValues3Address (by decide) (soft_not (by decide)), hw kinfoValues2Address (by decide) (soft_not (by decide)), hw kinfoValues2Number (by decide) (soft_not (by decide))]; exact hRk.v3
    · rw [hw kinfoValues3Address (by decide) (soft_not (by decide)), hw kinfoValues3Number (by decide) (soft_not (by decide))]; exact hRk.fits
    · simp only [reserved]
      rw [hw kinfoInternalHeadNumber (by decide) (soft_not (by decide)), hw kinfoHeader2Number (by decide) (soft_not (by decide)), hw kinfoUserHeadNumber (by decide) (soft_not (by decide)), hw kinfoAllocatedSize (by decide) (soft_not (by decide))]
      exact hRk.orig
  have hread : recAt s'.disk e = readArrays s'.disk fun i => s.disk (e.infoAdd + i) := by
    have hi3 : ∀ i, i < 30 → s'.disk (e.infoAdd + i) = s.disk (e.infoAdd + i) := fun i h => hi i (by omega)
    simp only [recAt, readArrays]
    rw [hi3 kinfoInternalHeadAddress (by decide), hi3 kinfoInternalHeadNumber (by decide),
      hi3 kinfoHeader2Address (by decide), hi3 kinfoHeader2Number (by decide),
      hi3 kinfoUserHeadAddress (by decide), hi3 kinfoUserHeadNumber (by decide),
      hi3 kinfoValues1Address (by decide), hi3 kinfoValues1Number (by decide),
      hi3 kinfoValues2Address (by decide), hi3 kinfoValues2Number (by decide),
      hi3 kinfoValues3Address (by decide), hi3 kinfoValues3Number (by decide),
      hi3 kinfoNumberData (by decide), hi3 kinfoLogicalNumber (by decide), hi3 kinfoTypeVersion (by decide), hi3 kinfoLastWriteTime (by decide), hi3 kinfoFirstDate (by decide), hi3 kinfoLastDate (by decide)]
  have hself : ∀ h, h < c.maxHash → ∀ f ∈ centries (G.chain h), ¬ gone f → h = c.tHash p → f.infoAdd = e.infoAdd → f = e := by
    intro h hh' f hf hgf hhx hfe
    rw [hhx, hE] at hf
    simp only [List.mem_append, List.mem_cons] at hf
    rcases hf with hf | hf | hf
    · exact absurd hfe (others_ne (e := e) K hE f (by simp [hf]) hgf hge)
    · exact hf
    · exact absurd hfe (others_ne (e := e) K hE f (by simp [hf]) hgf hge)
  -- the records of other entries
  have hkeep : ∀ h, h < c.maxHash → ∀ f ∈ centries (G.chain h), ¬ gone f → ¬ (h = c.tHash p ∧ f.infoAdd = e.infoAdd) →
      ∀ x, InRec (G.room f.infoAdd) f x → s'.disk x = s.disk x := by
    intro h hh' f hf hgf hnot x hx
    have h1 := ((I.w.chains h hh').rcd f hf hgf).mine x hx
    refine hq x (by rw [h1]; intro h2; cases h2) (by
      rw [h1]; intro h2
      injection h2 with h3 h4
      exact hnot ⟨h3, h4⟩)
  have W1 : InvW c G s.disk (c.tHash p) e.infoAdd := by
    refine ⟨I.w.sys, I.w.tab, I.w.free, fun h hh' => ?_, I.w.blk⟩
    have k := I.w.chains h hh'
    exact ⟨k.at_, k.bins, k.ok, k.rcd, k.nodupB, k.nodupR, k.order, fun f hf hg _ => k.recs f hf hg (by simp only [ite_self]; exact I.w.info_ne hc hh' hf hg)⟩
  have W2 : InvW c G s'.disk (c.tHash p) e.infoAdd := by
    refine W1.quiet hc fun x hx => hq x (fun h => hx (Or.inr (Or.inl h))) (fun h => hx (Or.inr (Or.inr ⟨h, hne⟩)))
  have W3 : InvW c G s'.disk 0 0 := by
    refine ⟨W2.sys, W2.tab, W2.free, fun h hh' => ?_, W2.blk⟩
    have k := W2.chains h hh'
    refine ⟨k.at_, k.bins, k.ok, k.rcd, k.nodupB, k.nodupR, k.order, fun f hf hg _ => ?_⟩
    by_cases hx : h = c.tHash p ∧ f.infoAdd = e.infoAdd
    · have := hself h hh' f hf hg hx.1 hx.2
      rw [this]; exact hRk'
    · refine k.recs f hf hg ?_
      split
      · next h1 => exact fun h2 => hx ⟨h1, h2⟩
      · exact I.w.info_ne hc hh' hf hg
  have J : Inv c G s' := ⟨W3, hH, I.last⟩
  have E : EditAt c p G s G s' A B [e] [e] := by
    refine ⟨by simpa using hE, by simpa using hE, fun _ _ => rfl, fun x hx hg => ?_, fun h hh' hne' x hx hg => ?_⟩
    · have hx' : x ∈ centries (G.chain (c.tHash p)) := by
        rw [hE]
        rcases List.mem_append.mp hx with h | h <;> simp [h]
      have hr := K.recs x hx' hg (by simp only [ite_self]; exact I.w.info_ne hc hh hx' hg)
      have hk := hkeep _ hh x hx' hg (fun h => others_ne (e := e) K hE x hx hg hge h.2)
      exact readArrays_congr rfl hr (fun i hi' _ => hk _ (InRec.info30 hi')) (fun i hi' => hk _ (InRec.arr hi'))
    · have hr := (I.w.chains h hh').recs x hx hg (by simp only [ite_self]; exact I.w.info_ne hc hh' hx hg)
      have hk := hkeep _ hh' x hx hg (fun h => hne' h.1)
      exact readArrays_congr rfl hr (fun i hi' _ => hk _ (InRec.info30 hi')) (fun i hi' => hk _ (InRec.arr hi'))
  refine ⟨⟨J, by rw [hn]; exact H.count, ?_, H.trash⟩, fun q => ?_⟩
  · intro h hh' f hf hg
    by_cases hx : h = c.tHash p ∧ f.infoAdd = e.infoAdd
    · have hfe := hself h hh' f hf hg hx.1 hx.2
      rw [hfe]
      rw [hfe] at hf
      have hhd := H.heads h hh' e hf hge
      refine ⟨?_, ?_, ?_, ?_, ?_, (hw kinfoAliasesBinAddress (by decide) (soft_not (by decide))).trans hhd.alias⟩
      · exact (hw kinfoFlag (by decide) (soft_not (by decide))).trans hhd.flag
      · exact (hw kinfoPathnameLength (by decide) (soft_not (by decide))).trans hhd.len
      · refine Eq.trans (unpackBytes_congr fun j hj => ?_) hhd.path
        exact hi _ (by simp only [numberInfo, infoSize, kinfoPathname]; omega)
      · intro h1; show s'.disk _ ≤ 1; rw [hw kinfoStatus (by decide) (soft_not (by decide))]; exact hhd.live h1
      · intro h1; show s'.disk _ = _; rw [hw kinfoStatus (by decide) (soft_not (by decide))]; exact hhd.dead h1
    · refine HeadOK.congr (e := f) rfl rfl (fun i hi' => ?_) (H.heads h hh' f hf hg)
      exact hkeep h hh' f hf hg hx _ (InRec.info hi')
  · rw [same_iff]
    constructor
    · intro hs
      have hql := same_len hs hlen
      rw [abs_live_of hc J hql (A := A) (B := B) (e := e) (by rw [← hc.tHash_same _ _ hs]; exact hE) (fun x hx h => hA x hx (hs.trans h)) (hs.symm.trans T.same) hl, hread]
    · intro hs
      refine E.live hc ?_ ?_ <;>
      · intro x hx
        simp at hx; subst hx
        exact not_match_of_not_same T.same hs

end Hec
