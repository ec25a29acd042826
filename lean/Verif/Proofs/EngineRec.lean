import Verif.Proofs.EngineNew
import Verif.Spec.Store
/-! Writing and reading the arrays of a record. -/
namespace Hec
set_option linter.unusedSimpArgs false
set_option linter.unusedVariables false

variable {c : Cfg} {p : Bytes} {G0 : Ghost} {s0 : Eng} {hx a0 : Nat}

/-- The record of an entry, in order, with contents `R`. -/
structure RecIs (c : Cfg) (d : Disk) (room : Ext) (e : BinEnt) (R : Rec) : Prop where
  ok : RecOK c d room e
  eq : readArrays d (fun i => d (e.infoAdd + i)) = R

theorem readArrays_congr {d d' : Disk} {a : Nat} {room : Ext} {e : BinEnt} (ha : e.infoAdd = a) (hk : RecOK c d room e)
    (hw : ∀ i, i < 30 → i ≠ kinfoStatus → d' (a + i) = d (a + i)) (h : ∀ i, i < room.cap → d' (room.dat + i) = d (room.dat + i)) :
    readArrays d' (fun i => d' (a + i)) = readArrays d (fun i => d (a + i)) := by
  subst ha
  have harr : ∀ a n, room.dat ≤ a → a + nLongs n ≤ room.dat + room.cap → getInts d' a n = getInts d a n := by
    intro a n h1 h2
    apply getInts_congr
    intro i hi
    have := h (a - room.dat + i) (by omega)
    rwa [show room.dat + (a - room.dat + i) = a + i by omega] at this
  have h1 := hk.ih; have h2 := hk.h2; have h3 := hk.uh; have h4 := hk.v1; have h5 := hk.v2; have h6 := hk.v3
  have h7 := hk.fits
  have hI : 30 ≤ numberInfo e.path := by simp only [numberInfo, infoSize]; omega
  simp only [readArrays]
  rw [hw kinfoTypeVersion (by decide) (by decide), hw kinfoInternalHeadAddress (by decide) (by decide),
    hw kinfoInternalHeadNumber (by decide) (by decide), hw kinfoHeader2Address (by decide) (by decide),
    hw kinfoHeader2Number (by decide) (by decide), hw kinfoUserHeadAddress (by decide) (by decide),
    hw kinfoUserHeadNumber (by decide) (by decide), hw kinfoValues1Address (by decide) (by decide),
    hw kinfoValues1Number (by decide) (by decide), hw kinfoValues2Address (by decide) (by decide),
    hw kinfoValues2Number (by decide) (by decide), hw kinfoValues3Address (by decide) (by decide),
    hw kinfoValues3Number (by decide) (by decide), hw kinfoNumberData (by decide) (by decide),
    hw kinfoLogicalNumber (by decide) (by decide), hw kinfoLastWriteTime (by decide) (by decide), hw kinfoFirstDate (by decide) (by decide), hw kinfoLastDate (by decide) (by decide)]
  rw [harr _ _ (by omega) (by omega), harr _ _ (by omega) (by omega), harr _ _ (by omega) (by omega),
    harr _ _ (by omega) (by omega), harr _ _ (by omega) (by omega), harr _ _ (by omega) (by omega)]

theorem RecIs_congr1 {d d' : Disk} {room room' : Ext} {e e' : BinEnt} {R : Rec} (hr : room' = room)
    (hp : e'.path = e.path) (ha : e'.infoAdd = e.infoAdd) (ht : e'.typeCat = e.typeCat)
    (hw : ∀ i, i < 30 → i ≠ kinfoStatus → d' (e.infoAdd + i) = d (e.infoAdd + i))
    (h : ∀ i, i < room.cap → d' (room.dat + i) = d (room.dat + i)) (hk : RecIs c d room e R) :
    RecIs c d' room' e' R := by
  refine ⟨RecOK_congr1 hr hp ha ht hw hk.ok, ?_⟩
  rw [ha, readArrays_congr rfl hk.ok hw h]
  exact hk.eq

theorem RecIs_congr {d d' : Disk} {room room' : Ext} {e e' : BinEnt} {R : Rec} (hr : room' = room)
    (hp : e'.path = e.path) (ha : e'.infoAdd = e.infoAdd) (ht : e'.typeCat = e.typeCat)
    (h : ∀ x, InRec room e x → d' x = d x) (hk : RecIs c d room e R) :
    RecIs c d' room' e' R := RecIs_congr1 hr hp ha ht (fun i hi _ => h _ (InRec.info30 hi)) (fun i hi => h _ (InRec.arr hi)) hk

/-- What the start of an info block and the pathname in it have to say for a record with pathname `path` whose
entry has the status `st`. -/
structure HeadInfo (info : Nat → Nat) (path : Bytes) (st : Nat) : Prop where
  flag : info kinfoFlag = DSS_INFO_FLAG
  len : info kinfoPathnameLength = path.length
  path : unpackBytes (fun j => info (kinfoPathname + j)) path.length = path
  live : st = 0 ∨ st = 1 → info kinfoStatus ≤ 1
  dead : st = REC_STATUS_DELETED → info kinfoStatus = REC_STATUS_DELETED
  alias : info kinfoAliasesBinAddress = 0

/-- The info block of an entry agrees with the entry. -/
def HeadOK (d : Disk) (e : BinEnt) : Prop := HeadInfo (fun i => d (e.infoAdd + i)) e.path e.st

theorem HeadInfo.congr {info info' : Nat → Nat} {path : Bytes} {st : Nat} (h : ∀ i, i < numberInfo path → info' i = info i)
    (H : HeadInfo info path st) : HeadInfo info' path st := by
  have hI : 30 ≤ numberInfo path := by simp only [numberInfo, infoSize]; omega
  refine ⟨by rw [h _ (by simp only [kinfoFlag]; omega)]; exact H.flag, by rw [h _ (by simp only [kinfoPathnameLength]; omega)]; exact H.len, ?_,
    by rw [h _ (by simp only [kinfoStatus]; omega)]; exact H.live, by rw [h _ (by simp only [kinfoStatus]; omega)]; exact H.dead,
    by rw [h _ (by simp only [kinfoAliasesBinAddress]; omega)]; exact H.alias⟩
  refine Eq.trans (unpackBytes_congr fun j hj => ?_) H.path
  exact h _ (by simp only [numberInfo, infoSize, kinfoPathname]; omega)

theorem HeadInfo.status {info info' : Nat → Nat} {path : Bytes} {st st' : Nat} (h : ∀ i, i < numberInfo path → i ≠ kinfoStatus → info' i = info i)
    (H : HeadInfo info path st) (h1 : st' = 0 ∨ st' = 1 → info' kinfoStatus ≤ 1) (h2 : st' = REC_STATUS_DELETED → info' kinfoStatus = REC_STATUS_DELETED) :
    HeadInfo info' path st' := by
  have hI : 30 ≤ numberInfo path := by simp only [numberInfo, infoSize]; omega
  refine ⟨by rw [h _ (by simp only [kinfoFlag]; omega) (by decide)]; exact H.flag, by rw [h _ (by simp only [kinfoPathnameLength]; omega) (by decide)]; exact H.len, ?_, h1, h2,
    by rw [h _ (by simp only [kinfoAliasesBinAddress]; omega) (by decide)]; exact H.alias⟩
  refine Eq.trans (unpackBytes_congr fun j hj => ?_) H.path
  exact h _ (by simp only [numberInfo, infoSize, kinfoPathname]; omega) (by simp only [kinfoPathname, kinfoStatus]; omega)

theorem HeadOK.congr {d d' : Disk} {e e' : BinEnt} (hp : e'.path = e.path) (hs : e'.st = e.st)
    (h : ∀ i, i < numberInfo e.path → d' (e'.infoAdd + i) = d (e.infoAdd + i)) (H : HeadOK d e) : HeadOK d' e' := by
  unfold HeadOK at *
  rw [hp, hs]
  exact HeadInfo.congr h H

/-- The total length of the six arrays, in words. -/
def tot (r : Req) : Nat := nLongs r.ih.length + nLongs r.h2.length + nLongs r.uh.length + nLongs r.v1.length +
  nLongs r.v2.length + nLongs r.v3.length

/-- The info block describes the arrays of the request, stored from address `a` on. -/
structure Layout (info : Nat → Nat) (a : Nat) (r : Req) : Prop where
  a1 : info kinfoInternalHeadAddress = a
  n1 : info kinfoInternalHeadNumber = r.ih.length
  a2 : info kinfoHeader2Address = a + nLongs r.ih.length
  n2 : info kinfoHeader2Number = r.h2.length
  a3 : info kinfoUserHeadAddress = a + nLongs r.ih.length + nLongs r.h2.length
  n3 : info kinfoUserHeadNumber = r.uh.length
  a4 : info kinfoValues1Address = a + nLongs r.ih.length + nLongs r.h2.length + nLongs r.uh.length
  n4 : info kinfoValues1Number = r.v1.length
  a5 : info kinfoValues2Address = a + nLongs r.ih.length + nLongs r.h2.length + nLongs r.uh.length + nLongs r.v1.length
  n5 : info kinfoValues2Number = r.v2.length
  a6 : info kinfoValues3Address = a + nLongs r.ih.length + nLongs r.h2.length + nLongs r.uh.length + nLongs r.v1.length + nLongs r.v2.length
  n6 : info kinfoValues3Number = r.v3.length

theorem getInts_put_other (s : Eng) (a : Nat) (xs ys : List UInt32) (b : Nat)
    (h : b + nLongs ys.length ≤ a ∨ a + nLongs xs.length ≤ b) :
    getInts (s.putInts a xs).disk b ys.length = getInts s.disk b ys.length := by
  apply getInts_congr
  intro i hi
  exact putInts_out s a xs _ (by omega)

theorem writeArrays_spec (s : Eng) (info : Nat → Nat) (a : Nat) (r : Req) (L : Layout info a r) :
    (∀ x, ¬ (a ≤ x ∧ x < a + tot r) → (writeArrays s info r).disk x = s.disk x) ∧
    (writeArrays s info r).hdr = s.hdr ∧
    getInts (writeArrays s info r).disk (info kinfoInternalHeadAddress) r.ih.length = r.ih ∧
    getInts (writeArrays s info r).disk (info kinfoHeader2Address) r.h2.length = r.h2 ∧
    getInts (writeArrays s info r).disk (info kinfoUserHeadAddress) r.uh.length = r.uh ∧
    getInts (writeArrays s info r).disk (info kinfoValues1Address) r.v1.length = r.v1 ∧
    getInts (writeArrays s info r).disk (info kinfoValues2Address) r.v2.length = r.v2 ∧
    getInts (writeArrays s info r).disk (info kinfoValues3Address) r.v3.length = r.v3 := by
  simp only [writeArrays, L.a1, L.a2, L.a3, L.a4, L.a5, L.a6]
  refine ⟨?_, by simp, ?_, ?_, ?_, ?_, ?_, ?_⟩
  · intro x hx
    simp only [tot] at hx
    rw [putInts_out _ _ _ _ (by omega), putInts_out _ _ _ _ (by omega), putInts_out _ _ _ _ (by omega),
      putInts_out _ _ _ _ (by omega), putInts_out _ _ _ _ (by omega), putInts_out _ _ _ _ (by omega)]
  · rw [getInts_put_other _ _ _ _ _ (by omega), getInts_put_other _ _ _ _ _ (by omega), getInts_put_other _ _ _ _ _ (by omega),
      getInts_put_other _ _ _ _ _ (by omega), getInts_put_other _ _ _ _ _ (by omega), getInts_putInts]
  · rw [getInts_put_other _ _ _ _ _ (by omega), getInts_put_other _ _ _ _ _ (by omega), getInts_put_other _ _ _ _ _ (by omega),
      getInts_put_other _ _ _ _ _ (by omega), getInts_putInts]
  · rw [getInts_put_other _ _ _ _ _ (by omega), getInts_put_other _ _ _ _ _ (by omega), getInts_put_other _ _ _ _ _ (by omega),
      getInts_putInts]
  · rw [getInts_put_other _ _ _ _ _ (by omega), getInts_put_other _ _ _ _ _ (by omega), getInts_putInts]
  · rw [getInts_put_other _ _ _ _ _ (by omega), getInts_putInts]
  · rw [getInts_putInts]

theorem typeSupported_iff (a b : UInt32) : typeSupported a b = true ↔ Spec.compatible a b := by
  unfold typeSupported Spec.compatible DATA_TYPE_RTS DATA_TYPE_RTD DATA_TYPE_ITS DATA_TYPE_ITD
  simp only [Bool.or_eq_true, Bool.and_eq_true, decide_eq_true_eq, List.mem_cons, List.mem_nil_iff, or_false]
  constructor
  · rintro ((((h | ⟨h1, h2⟩) | ⟨h1, h2⟩) | ⟨h1, h2⟩) | ⟨h1, h2⟩)
    · exact Or.inl h
    · exact Or.inr (Or.inl ⟨Or.inl h1, Or.inr h2⟩)
    · exact Or.inr (Or.inl ⟨Or.inr h1, Or.inl h2⟩)
    · exact Or.inr (Or.inr ⟨Or.inl h1, Or.inr h2⟩)
    · exact Or.inr (Or.inr ⟨Or.inr h1, Or.inl h2⟩)
  · rintro (h | ⟨h1 | h1, h2 | h2⟩ | ⟨h1 | h1, h2 | h2⟩) <;> simp_all

theorem compatible_trans {a b d : UInt32} (h1 : Spec.compatible a b) (h2 : Spec.compatible b d) : Spec.compatible a d := by
  unfold Spec.compatible at *
  simp only [List.mem_cons, List.mem_nil_iff, or_false] at *
  rcases h1 with rfl | ⟨h1, h1'⟩ | ⟨h1, h1'⟩
  · exact h2
  · rcases h2 with rfl | ⟨_, h2⟩ | ⟨h3, _⟩
    · exact Or.inr (Or.inl ⟨h1, h1'⟩)
    · exact Or.inr (Or.inl ⟨h1, h2⟩)
    · rcases h1' with rfl | rfl <;> simp at h3
  · rcases h2 with rfl | ⟨h3, _⟩ | ⟨_, h2⟩
    · exact Or.inr (Or.inr ⟨h1, h1'⟩)
    · rcases h1' with rfl | rfl <;> simp at h3
    · exact Or.inr (Or.inr ⟨h1, h2⟩)

/-- Info block and arrays of the record being written. -/
theorem tail_ok (hc : c.OK) (I0 : InvW c G0 s0.disk hx 0) (hh : hx < c.maxHash) {G : Ghost} {s : Eng} {e : BinEnt}
    (S : St c p G0 s0 hx a0 G s e.infoAdd) (he : e ∈ centries (G.chain hx)) (hg : ¬ gone e) (r : Req) (info : Nat → Nat) (version : UInt32)
    (hni : numberInfo r.path = numberInfo e.path) (L : Layout info (G.room e.infoAdd).dat r)
    (hhash : info kinfoHash = c.pHash e.path) (hfit : tot r ≤ (G.room e.infoAdd).cap)
    (horig : reserved info ≤ (G.room e.infoAdd).cap)
    (htv : info kinfoTypeVersion = packInts r.dataType version) (hnd : info kinfoNumberData = r.numberValues)
    (hln : info kinfoLogicalNumber = if r.logicalNumber > 0 then r.logicalNumber else r.numberValues)
    (hlw : info kinfoLastWriteTime = r.now) (hfd : info kinfoFirstDate = r.firstDate) (hld : info kinfoLastDate = r.lastDate) (htc : Spec.compatible (UInt32.ofNat (lo32 e.typeCat)) r.dataType) :
    St c p G0 s0 hx a0 G (writeArrays (s.put e.infoAdd (numberInfo r.path) info) info r) e.infoAdd ∧
    (writeArrays (s.put e.infoAdd (numberInfo r.path) info) info r).hdr = s.hdr ∧
    RecIs c (writeArrays (s.put e.infoAdd (numberInfo r.path) info) info r).disk (G.room e.infoAdd) e (Spec.stored r version) ∧
    ∀ i, i < numberInfo e.path → (writeArrays (s.put e.infoAdd (numberInfo r.path) info) info r).disk (e.infoAdd + i) = info i := by
  have hO := (S.inv.chains hx hh).rcd e he hg
  have hap := hO.apart
  have hne := S.inv.info_ne hc hh he hg
  have hq : ∀ x, InRec (G.room e.infoAdd) e x → Quiet G.own hx e.infoAdd x :=
    fun x hx' => Or.inr (Or.inr ⟨hO.mine x hx', hne⟩)
  have S1 : St c p G0 s0 hx a0 G (s.put e.infoAdd (numberInfo r.path) info) e.infoAdd :=
    S.quiet hc I0 (fun i hi => hq _ (InRec.info (by omega)))
  have hq2 : ∀ a n, (G.room e.infoAdd).dat ≤ a → a + n ≤ (G.room e.infoAdd).dat + (G.room e.infoAdd).cap → ∀ i, i < n → Quiet G.own hx e.infoAdd (a + i) := by
    intro a n h1 h2 i hi
    exact hq _ (Or.inr (by omega))
  have hI : 30 ≤ numberInfo e.path := by simp only [numberInfo, infoSize]; omega
  obtain ⟨w1, w2, w3, w4, w5, w6, w7, w8⟩ := writeArrays_spec (s.put e.infoAdd (numberInfo r.path) info) info _ r L
  have hall : ∀ i, i < numberInfo e.path → (writeArrays (s.put e.infoAdd (numberInfo r.path) info) info r).disk (e.infoAdd + i) = info i := by
    intro i hi
    rw [w1 _ (by omega), put_disk]
    exact apply_in (w := ⟨e.infoAdd, numberInfo r.path, info⟩) (by simp only; omega)
  refine ⟨?_, by rw [w2]; rfl, ?_, hall⟩
  · simp only [tot] at hfit
    unfold writeArrays
    rw [L.a1, L.a2, L.a3, L.a4, L.a5, L.a6]
    refine St.quietInts hc I0 (St.quietInts hc I0 (St.quietInts hc I0 (St.quietInts hc I0 (St.quietInts hc I0
      (St.quietInts hc I0 S1 ?_) ?_) ?_) ?_) ?_) ?_ <;> apply hq2 <;> omega
  · generalize hs2 : writeArrays (s.put e.infoAdd (numberInfo r.path) info) info r = s2 at *
    have hinf : ∀ i, i < 30 → s2.disk (e.infoAdd + i) = info i := fun i hi => hall i (by omega)
    have hsz : reserved (fun i => s2.disk (e.infoAdd + i)) = reserved info := reserved_congr hinf
    refine ⟨⟨?_, ?_, ?_, ?_, ?_, ?_, ?_, ?_, by rw [hsz]; exact horig, by rw [hinf _ (by decide), htv, lowInt_pack]; exact htc⟩, ?_⟩
    · rw [hinf _ (by decide)]; exact hhash
    · rw [hinf _ (by decide)]; exact L.a1
    · rw [hinf _ (by decide), hinf _ (by decide), hinf _ (by decide), L.a1, L.a2, L.n1]
    · rw [hinf _ (by decide), hinf _ (by decide), hinf _ (by decide), L.a2, L.a3, L.n2]
    · rw [hinf _ (by decide), hinf _ (by decide), hinf _ (by decide), L.a3, L.a4, L.n3]
    · rw [hinf _ (by decide), hinf _ (by decide), hinf _ (by decide), L.a4, L.a5, L.n4]
    · rw [hinf _ (by decide), hinf _ (by decide), hinf _ (by decide), L.a5, L.a6, L.n5]
    · rw [hinf _ (by decide), hinf _ (by decide), L.a6, L.n6]; simp only [tot] at hfit; omega
    · simp only [readArrays, Spec.stored]
      rw [hinf _ (show kinfoTypeVersion < 30 by decide), hinf _ (show kinfoInternalHeadAddress < 30 by decide),
        hinf _ (show kinfoInternalHeadNumber < 30 by decide), hinf _ (show kinfoHeader2Address < 30 by decide),
        hinf _ (show kinfoHeader2Number < 30 by decide), hinf _ (show kinfoUserHeadAddress < 30 by decide),
        hinf _ (show kinfoUserHeadNumber < 30 by decide), hinf _ (show kinfoValues1Address < 30 by decide),
        hinf _ (show kinfoValues1Number < 30 by decide), hinf _ (show kinfoValues2Address < 30 by decide),
        hinf _ (show kinfoValues2Number < 30 by decide), hinf _ (show kinfoValues3Address < 30 by decide),
        hinf _ (show kinfoValues3Number < 30 by decide), hinf _ (show kinfoNumberData < 30 by decide),
        hinf _ (show kinfoLogicalNumber < 30 by decide), hinf _ (show kinfoLastWriteTime < 30 by decide),
        hinf _ (show kinfoFirstDate < 30 by decide), hinf _ (show kinfoLastDate < 30 by decide)]
      rw [L.n1, L.n2, L.n3, L.n4, L.n5, L.n6, w3, w4, w5, w6, w7, w8, htv, hnd, hln, hlw, hfd, hld, lowInt_pack, highInt_pack]

/-- The record being written is complete. -/
theorem InvW.finish {G : Ghost} {d : Disk} {ax : Nat} (I : InvW c G d hx ax)
    (h : ∀ e ∈ centries (G.chain hx), ¬ gone e → e.infoAdd = ax → RecOK c d (G.room e.infoAdd) e) : InvW c G d hx 0 := by
  refine ⟨I.sys, I.tab, I.free, fun h' hh' => ?_, I.blk⟩
  have k := I.chains h' hh'
  refine ⟨k.at_, k.bins, k.ok, k.rcd, k.nodupB, k.nodupR, k.order, ?_⟩
  intro e he hg hz
  by_cases hx' : h' = hx
  · subst hx'
    rw [if_pos rfl] at k
    by_cases ha : e.infoAdd = ax
    · exact h e he hg ha
    · exact k.recs e he hg ha
  · rw [if_neg hx'] at k
    exact k.recs e he hg (by simpa using hz)

end Hec
