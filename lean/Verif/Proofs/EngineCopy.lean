import Verif.Proofs.EngineHist
import Verif.Spec.Copy
/-! Copying a file: setting words of an info block; one record; the whole file. -/
namespace Hec
set_option linter.unusedSimpArgs false
set_option linter.unusedVariables false
open _root_.Spec (Op Store Step Steps run runs Set join SixParts NoLookAlikes FullNames NewHeaders)

variable {c : Cfg}

/-- Words of an info block that a copy may set. -/
def Soft (i : Nat) : Prop := i ∈ [4, 5, 6, 7, 8, 9, 11, 12, 29]

theorem soft_not {i : Nat} (h : i ∉ [4, 5, 6, 7, 8, 9, 11, 12, 29]) : ¬ Soft i := h

/-- The record of an entry with other version and time of last write. -/
theorem patch_ok (hc : c.OK) {G : Ghost} {s s' : Eng} {past : List Op} (H : HInv c G s past) {p : Bytes} (hlen : p.length ≤ 392)
    {A B : List BinEnt} {e : BinEnt} {R : Rec} (T : Target c G s.disk p A B e R) (hl : live e) (hA : ∀ x ∈ A, Same p x.path → gone x)
    (hd : ∀ x, ¬ x < c.hdrSize → ¬ (e.infoAdd ≤ x ∧ x < e.infoAdd + numberInfo e.path) → s'.disk x = s.disk x)
    (hi : ∀ i, i < numberInfo e.path → ¬ Soft i → s'.disk (e.infoAdd + i) = s.disk (e.infoAdd + i))
    (ht : lowInt (s'.disk (e.infoAdd + kinfoTypeVersion)) = R.dataType)
    (hH : InvH c G s'.hdr) (hn : s'.hdr.numberRecords = s.hdr.numberRecords) :
    HInv c G s' past ∧ Set (abs c G s.disk).live (abs c G s'.disk).live p
      (some { R with version := highInt (s'.disk (e.infoAdd + kinfoTypeVersion)), lastWrite := s'.disk (e.infoAdd + kinfoLastWriteTime), firstDate := s'.disk (e.infoAdd + kinfoFirstDate) }) ∧
    (abs c G s'.disk).trash = (abs c G s.disk).trash := by
  have hh := hc.tHash_lt p hlen
  have I := H.inv
  have hE := T.ents
  have hmem : e ∈ centries (G.chain (c.tHash p)) := by rw [hE]; simp
  have hge := live_not_gone hl
  have K := I.w.chains _ hh
  have hO := K.rcd e hmem hge
  have hne := I.w.info_ne hc hh hmem hge
  have hI : 30 ≤ numberInfo e.path := by simp only [numberInfo, infoSize]; omega
  -- only words of the header and of the info block change
  have hq : ∀ x, G.own x ≠ .sys → G.own x ≠ .rcd (c.tHash p) e.infoAdd → s'.disk x = s.disk x := by
    intro x h1 h2
    refine hd x (fun h => h1 (I.w.sys x h)) (fun h => h2 (hO.mine x (Or.inl h)))
  have harr : ∀ i, i < (G.room e.infoAdd).cap → s'.disk ((G.room e.infoAdd).dat + i) = s.disk ((G.room e.infoAdd).dat + i) := by
    intro i hi'
    have hap := hO.apart
    refine hd _ (fun h => ?_) (by omega)
    have h1 := I.w.sys _ h
    rw [hO.mine _ (InRec.arr hi')] at h1
    cases h1
  have hw : ∀ i, i < 30 → ¬ Soft i → s'.disk (e.infoAdd + i) = s.disk (e.infoAdd + i) := fun i h1 h2 => hi i (by omega) h2
  have hRk := T.rcd.ok
  have hRe := T.rcd.eq
  have htv : Spec.compatible (UInt32.ofNat (lo32 e.typeCat)) (lowInt (s'.disk (e.infoAdd + kinfoTypeVersion))) := by
    have h1 := hRk.tc
    have h2 : lowInt (s.disk (e.infoAdd + kinfoTypeVersion)) = R.dataType := by rw [← hRe]; rfl
    rw [ht, ← h2]; exact h1
  have hRk' : RecOK c s'.disk (G.room e.infoAdd) e := by
    refine ⟨?_, ?_, ?_, ?_, ?_, ?_, ?_, ?_, ?_, htv⟩
    · rw [hw kinfoHash (by decide) (soft_not (by decide))]; exact hRk.hash
    · rw [hw kinfoInternalHeadAddress (by decide) (soft_not (by decide))]; exact hRk.ih
    · rw [hw kinfoHeader2Address (by decide) (soft_not (by decide)), hw kinfoInternalHeadAddress (by decide) (soft_not (by decide)), hw kinfoInternalHeadNumber (by decide) (soft_not (by decide))]; exact hRk.h2
    · rw [hw kinfoHeader2Address (by decide) (soft_not (by decide)), hw kinfoUserHeadAddress (by decide) (soft_not (by decide)), hw kinfoHeader2Number (by decide) (soft_not (by decide))]; exact hRk.uh
    · rw [hw kinfoValues1Address (by decide) (soft_not (by decide)), hw kinfoUserHeadAddress (by decide) (soft_not (by decide)), hw kinfoUserHeadNumber (by decide) (soft_not (by decide))]; exact hRk.v1
    · rw [hw kinfoValues1Address (by decide) (soft_not (by decide)), hw kinfoValues2Address (by decide) (soft_not (by decide)), hw kinfoValues1Number (by decide) (soft_not (by decide))]; exact hRk.v2
    · rw [hw kinfoValues3Address (by decide) (soft_not (by decide)), hw kinfoValues2Address (by decide) (soft_not (by decide)), hw kinfoValues2Number (by decide) (soft_not (by decide))]; exact hRk.v3
    · rw [hw kinfoValues3Address (by decide) (soft_not (by decide)), hw kinfoValues3Number (by decide) (soft_not (by decide))]; exact hRk.fits
    · simp only [reserved]
      rw [hw kinfoInternalHeadNumber (by decide) (soft_not (by decide)), hw kinfoHeader2Number (by decide) (soft_not (by decide)), hw kinfoUserHeadNumber (by decide) (soft_not (by decide)), hw kinfoAllocatedSize (by decide) (soft_not (by decide))]
      exact hRk.orig
  have hread : recAt s'.disk e = { R with version := highInt (s'.disk (e.infoAdd + kinfoTypeVersion)), lastWrite := s'.disk (e.infoAdd + kinfoLastWriteTime), firstDate := s'.disk (e.infoAdd + kinfoFirstDate) } := by
    have hg : ∀ a n, (G.room e.infoAdd).dat ≤ a → a + nLongs n ≤ (G.room e.infoAdd).dat + (G.room e.infoAdd).cap → getInts s'.disk a n = getInts s.disk a n := by
      intro a n h1 h2
      apply getInts_congr
      intro i hi'
      have := harr (a - (G.room e.infoAdd).dat + i) (by omega)
      rwa [show (G.room e.infoAdd).dat + (a - (G.room e.infoAdd).dat + i) = a + i by omega] at this
    have h1 := hRk.ih; have h2 := hRk.h2; have h3 := hRk.uh; have h4 := hRk.v1; have h5 := hRk.v2; have h6 := hRk.v3; have h7 := hRk.fits
    rw [← hRe]
    simp only [recAt, readArrays]
    rw [hw kinfoInternalHeadAddress (by decide) (soft_not (by decide)), hw kinfoInternalHeadNumber (by decide) (soft_not (by decide)),
      hw kinfoHeader2Address (by decide) (soft_not (by decide)), hw kinfoHeader2Number (by decide) (soft_not (by decide)),
      hw kinfoUserHeadAddress (by decide) (soft_not (by decide)), hw kinfoUserHeadNumber (by decide) (soft_not (by decide)),
      hw kinfoValues1Address (by decide) (soft_not (by decide)), hw kinfoValues1Number (by decide) (soft_not (by decide)),
      hw kinfoValues2Address (by decide) (soft_not (by decide)), hw kinfoValues2Number (by decide) (soft_not (by decide)),
      hw kinfoValues3Address (by decide) (soft_not (by decide)), hw kinfoValues3Number (by decide) (soft_not (by decide)),
      hw kinfoNumberData (by decide) (soft_not (by decide)), hw kinfoLogicalNumber (by decide) (soft_not (by decide)), hw kinfoLastDate (by decide) (soft_not (by decide))]
    rw [hg _ _ (by omega) (by omega), hg _ _ (by omega) (by omega), hg _ _ (by omega) (by omega), hg _ _ (by omega) (by omega), hg _ _ (by omega) (by omega), hg _ _ (by omega) (by omega)]
    rw [ht, ← hRe]
    rfl
  have hself : ∀ h, h < c.maxHash → ∀ f ∈ centries (G.chain h), ¬ gone f → h = c.tHash p → f.infoAdd = e.infoAdd → f = e := by
    intro h hh' f hf hgf hhx hfe
    rw [hhx, hE] at hf
    simp only [List.mem_append, List.mem_cons] at hf
    rcases hf with hf | hf | hf
    · exact absurd hfe (others_ne (e := e) K hE f (by simp [hf]) hgf hge)
    · exact hf
    · exact absurd hfe (others_ne (e := e) K hE f (by simp [hf]) hgf hge)
  -- the records of other entries
  have hkeep : ∀ h, h < c.maxHash → ∀ f ∈ centries (G.chain h), ¬ gone f → ¬ (h = c.tHash p ∧ f.infoAdd = e.infoAdd) →
      ∀ x, InRec (G.room f.infoAdd) f x → s'.disk x = s.disk x := by
    intro h hh' f hf hgf hnot x hx
    have h1 := ((I.w.chains h hh').rcd f hf hgf).mine x hx
    refine hq x (by rw [h1]; intro h2; cases h2) (by
      rw [h1]; intro h2
      injection h2 with h3 h4
      exact hnot ⟨h3, h4⟩)
  have W1 : InvW c G s.disk (c.tHash p) e.infoAdd := by
    refine ⟨I.w.sys, I.w.tab, I.w.free, fun h hh' => ?_, I.w.blk⟩
    have k := I.w.chains h hh'
    exact ⟨k.at_, k.bins, k.ok, k.rcd, k.nodupB, k.nodupR, k.order, fun f hf hg _ => k.recs f hf hg (by simp only [ite_self]; exact I.w.info_ne hc hh' hf hg)⟩
  have W2 : InvW c G s'.disk (c.tHash p) e.infoAdd := by
    refine W1.quiet hc fun x hx => hq x (fun h => hx (Or.inr (Or.inl h))) (fun h => hx (Or.inr (Or.inr ⟨h, hne⟩)))
  have W3 : InvW c G s'.disk 0 0 := by
    refine ⟨W2.sys, W2.tab, W2.free, fun h hh' => ?_, W2.blk⟩
    have k := W2.chains h hh'
    refine ⟨k.at_, k.bins, k.ok, k.rcd, k.nodupB, k.nodupR, k.order, fun f hf hg _ => ?_⟩
    by_cases hx : h = c.tHash p ∧ f.infoAdd = e.infoAdd
    · have := hself h hh' f hf hg hx.1 hx.2
      rw [this]; exact hRk'
    · refine k.recs f hf hg ?_
      split
      · next h1 => exact fun h2 => hx ⟨h1, h2⟩
      · exact I.w.info_ne hc hh' hf hg
  have J : Inv c G s' := ⟨W3, hH, I.last⟩
  have E : EditAt c p G s G s' A B [e] [e] := by
    refine ⟨by simpa using hE, by simpa using hE, fun _ _ => rfl, fun x hx hg => ?_, fun h hh' hne' x hx hg => ?_⟩
    · have hx' : x ∈ centries (G.chain (c.tHash p)) := by
        rw [hE]
        rcases List.mem_append.mp hx with h | h <;> simp [h]
      have hr := K.recs x hx' hg (by simp only [ite_self]; exact I.w.info_ne hc hh hx' hg)
      have hk := hkeep _ hh x hx' hg (fun h => others_ne (e := e) K hE x hx hg hge h.2)
      exact readArrays_congr rfl hr (fun i hi' _ => hk _ (InRec.info30 hi')) (fun i hi' => hk _ (InRec.arr hi'))
    · have hr := (I.w.chains h hh').recs x hx hg (by simp only [ite_self]; exact I.w.info_ne hc hh' hx hg)
      have hk := hkeep _ hh' x hx hg (fun h => hne' h.1)
      exact readArrays_congr rfl hr (fun i hi' _ => hk _ (InRec.info30 hi')) (fun i hi' => hk _ (InRec.arr hi'))
  refine ⟨⟨J, by rw [hn]; exact H.count, ?_, H.trash⟩, fun q => ?_, funext fun q => E.trash hc ?_ ?_⟩
  · intro h hh' f hf hg
    by_cases hx : h = c.tHash p ∧ f.infoAdd = e.infoAdd
    · have hfe := hself h hh' f hf hg hx.1 hx.2
      rw [hfe]
      rw [hfe] at hf
      have hhd := H.heads h hh' e hf hge
      refine ⟨?_, ?_, ?_, ?_, ?_, (hw kinfoAliasesBinAddress (by decide) (soft_not (by decide))).trans hhd.alias⟩
      · exact (hw kinfoFlag (by decide) (soft_not (by decide))).trans hhd.flag
      · exact (hw kinfoPathnameLength (by decide) (soft_not (by decide))).trans hhd.len
      · refine Eq.trans (unpackBytes_congr fun j hj => ?_) hhd.path
        refine hi _ (by simp only [numberInfo, infoSize, kinfoPathname]; omega) ?_
        simp only [Soft, kinfoPathname, List.mem_cons, List.mem_nil_iff, or_false]
        omega
      · intro h1; show s'.disk _ ≤ 1; rw [hw kinfoStatus (by decide) (soft_not (by decide))]; exact hhd.live h1
      · intro h1; show s'.disk _ = _; rw [hw kinfoStatus (by decide) (soft_not (by decide))]; exact hhd.dead h1
    · refine HeadOK.congr (e := f) rfl rfl (fun i hi' => ?_) (H.heads h hh' f hf hg)
      exact hkeep h hh' f hf hg hx _ (InRec.info hi')
  · rw [same_iff]
    constructor
    · intro hs
      have hql := same_len hs hlen
      rw [abs_live_of hc J hql (A := A) (B := B) (e := e) (by rw [← hc.tHash_same _ _ hs]; exact hE) (fun x hx h => hA x hx (hs.trans h)) (hs.symm.trans T.same) hl, hread]
    · intro hs
      refine E.live hc ?_ ?_ <;>
      · intro x hx
        simp at hx; subst hx
        exact not_match_of_not_same T.same hs
  all_goals
    intro x hx hm
    simp at hx; subst hx
    have := (EMatch_deleted.mp hm).2
    rcases hl with hl | hl <;> rw [hl] at this <;> exact absurd this (by decide)

end Hec
