import Verif.Proofs.EngineCopy4
import Verif.Proofs.Records
import Verif.Spec.CopyRecord
/-! Copying one record under a given pathname. -/
namespace Hec
set_option linter.unusedSimpArgs false
set_option linter.unusedVariables false
open _root_.Spec (Op Store Step Steps run runs Set DropOne join SixParts stored compatible oddHeaders Allowed NewHeader MayReceive)

variable {c : Cfg}

/-- The info block of a record that is there, and what setting some of its words does. -/
theorem set_info (hc : c.OK) {G : Ghost} {t : Eng} {past : List Op} (H : HInv c G t past) {q : Bytes} (hlen : q.length ≤ 392) {R : Rec}
    (hq : (abs c G t.disk).live q = some R) :
    ∃ k info, zreadInfo c t q REC_STATUS_VALID = some (k, some info) ∧ readArrays t.disk info = R ∧
      ∀ (F : Nat → Nat) (n : Nat), (∀ i, ¬ Soft i → F i = info i) → lowInt (F kinfoTypeVersion) = R.dataType →
        HInv c G (Eng.permWrite c { (t.put k.infoAdd (infoSize + nLongsB (info kinfoPathnameLength)) F) with hdr := { t.hdr with numberExpansions := n } }) past ∧
        Set (abs c G t.disk).live (abs c G (Eng.permWrite c { (t.put k.infoAdd (infoSize + nLongsB (info kinfoPathnameLength)) F) with hdr := { t.hdr with numberExpansions := n } }).disk).live q
          (some { R with version := highInt (F kinfoTypeVersion), lastWrite := F kinfoLastWriteTime, firstDate := F kinfoFirstDate }) ∧
        (abs c G (Eng.permWrite c { (t.put k.infoAdd (infoSize + nLongsB (info kinfoPathnameLength)) F) with hdr := { t.hdr with numberExpansions := n } }).disk).trash = (abs c G t.disk).trash := by
  have hh := hc.tHash_lt q hlen
  obtain ⟨A, B, e, T, hm, hl, hA, hB⟩ := live_entry hc H.inv hlen hq
  obtain ⟨C1, b, pre, post, C2, hC, hAeq, hBeq⟩ := split_centries T.ents
  obtain ⟨ws, hri⟩ := zreadInfo_some hc (hx := 0) (ax := 0) H.inv.w (q := q) (wanted := REC_STATUS_VALID) hh hC
    (by have := H.inv.h.len _ hh; omega)
    (fun x hx hm => by
      rw [← hAeq] at hx
      exact EMatch.not_gone (Or.inl hm) (hA x hx hm.1)) hm T.rcd.ok.hash
  refine ⟨_, _, hri, T.rcd.eq, fun F n hF hT => ?_⟩
  have hge := live_not_gone hl
  have hmem : e ∈ centries (G.chain (c.tHash q)) := by rw [T.ents]; simp
  have hH1 := H.heads _ hh e hmem hge
  have hn1 : infoSize + nLongsB (t.disk (e.infoAdd + kinfoPathnameLength)) = numberInfo e.path := by
    have : t.disk (e.infoAdd + kinfoPathnameLength) = e.path.length := hH1.len
    rw [this]; rfl
  simp only [hn1]
  have hO1 := (H.inv.w.chains _ hh).rcd e hmem hge
  have hI30 : 30 ≤ numberInfo e.path := by simp only [numberInfo, infoSize]; omega
  have hbeh : ∀ i, i < numberInfo e.path → ¬ e.infoAdd + i < c.hdrSize := by
    intro i hi hlt
    have h1 := H.inv.w.sys _ hlt
    rw [hO1.mine _ (InRec.info hi)] at h1
    cases h1
  generalize ht' : (Eng.permWrite c _ : Eng) = t'
  have hdisk : ∀ x, ¬ x < c.hdrSize → t'.disk x = Wr.apply ⟨e.infoAdd, numberInfo e.path, F⟩ t.disk x := by
    intro x hx
    rw [← ht', permWrite_out _ hx]
    rfl
  have hin : ∀ i, i < numberInfo e.path → t'.disk (e.infoAdd + i) = F i := by
    intro i hi
    rw [hdisk _ (hbeh i hi)]
    simp only [Wr.apply]
    rw [if_pos ⟨by omega, by omega⟩, Nat.add_sub_cancel_left]
  have h4 : t'.disk (e.infoAdd + kinfoTypeVersion) = F kinfoTypeVersion := hin _ (by simp only [kinfoTypeVersion]; omega)
  have h6 : t'.disk (e.infoAdd + kinfoLastWriteTime) = F kinfoLastWriteTime := hin _ (by simp only [kinfoLastWriteTime]; omega)
  have h9 : t'.disk (e.infoAdd + kinfoFirstDate) = F kinfoFirstDate := hin _ (by simp only [kinfoFirstDate]; omega)
  obtain ⟨HF, SF, TF⟩ := patch_ok (s' := t') hc H hlen T hl hA
    (fun x hx hx' => by rw [hdisk x hx]; exact apply_out (by simpa using hx'))
    (fun i hi hs => by rw [hin i hi, hF i hs])
    (by rw [h4, hT])
    (by
      have hI := H.inv.h
      rw [← ht']
      exact ⟨hI.beyond, hI.free, hI.link, hI.len, hI.spare⟩)
    (by rw [← ht']; rfl)
  rw [h4, h6, h9] at SF
  exact ⟨HF, SF, TF⟩

/-- What a copy does to a store: `new v` is the record that is left when the write has version `v`. -/
inductive Received (st : Store) (q : Bytes) (t : UInt32) (new : UInt32 → Rec) : Res → Store → Prop
  | fresh {st' : Store} : st.live q = none → Set st.live st'.live q (some (new 1)) → DropOne st.trash st'.trash → Received st q t new .ok st'
  | over {st' : Store} {R' : Rec} : st.live q = some R' → compatible R'.dataType t → Set st.live st'.live q (some (new (R'.version + 1))) →
      st'.trash = st.trash → Received st q t new .ok st'
  | refused {R' : Rec} : st.live q = some R' → ¬ compatible R'.dataType t → Received st q t new .differentType st

theorem set_twice {f f1 f2 : Bytes → Option Rec} {p : Bytes} {v w : Option Rec} (h1 : Set f f1 p v) (h2 : Set f1 f2 p w) : Set f f2 p w :=
  fun q => ⟨(h2 q).1, fun h => ((h2 q).2 h).trans ((h1 q).2 h)⟩

/-- Any write, followed by setting words of the info block. -/
theorem write_set (hc : c.OK) {G : Ghost} {t : Eng} {past : List Op} (H : HInv c G t past) {r : Req} (ha : Allowed c past t (.write r))
    (F : (Nat → Nat) → Nat → Nat) (m : Nat) (hF : ∀ info i, ¬ Soft i → F info i = info i)
    (hT : ∀ info, lowInt (info kinfoTypeVersion) = r.dataType → lowInt (F info kinfoTypeVersion) = r.dataType)
    (new : UInt32 → Rec)
    (hnew : ∀ info v, highInt (info kinfoTypeVersion) = v → info kinfoLastWriteTime = r.now → info kinfoFirstDate = r.firstDate →
      { stored r v with version := highInt (F info kinfoTypeVersion), lastWrite := F info kinfoLastWriteTime, firstDate := F info kinfoFirstDate } = new v) :
    ∃ G' t' res, ((zwrite c t r).bind fun w =>
      if w.2 = .ok then
        (zreadInfo c w.1 r.path REC_STATUS_VALID).bind fun k =>
          k.2.map fun infoTo =>
            (Eng.permWrite c { (w.1.put k.1.infoAdd (infoSize + nLongsB (infoTo kinfoPathnameLength)) (F infoTo)) with hdr := { w.1.hdr with numberExpansions := w.1.hdr.numberExpansions + m } }, Res.ok)
      else some w) = some (t', res) ∧ HInv c G' t' past ∧ Received (abs c G t.disk) r.path r.dataType new res (abs c G' t'.disk) := by
  obtain ⟨G1, t1, res, hrun, S, H1⟩ := HInv.step hc H ha
  have H1 : HInv c G1 t1 past := H1.mono (fun d hd => by simpa [List.flatMap_append, Op.deletes] using hd)
  have hlen : r.path.length ≤ 392 := ha.2.1
  have hrun' : zwrite c t r = some (t1, res) := hrun
  rw [hrun', Option.bind_some]
  -- after a write that is accepted
  have acc : ∀ v, Set (abs c G t.disk).live (abs c G1 t1.disk).live r.path (some (stored r v)) →
      ∃ t', ((zreadInfo c t1 r.path REC_STATUS_VALID).bind fun k =>
          k.2.map fun infoTo =>
            (Eng.permWrite c { (t1.put k.1.infoAdd (infoSize + nLongsB (infoTo kinfoPathnameLength)) (F infoTo)) with hdr := { t1.hdr with numberExpansions := t1.hdr.numberExpansions + m } }, Res.ok)) = some (t', .ok) ∧
        HInv c G1 t' past ∧ Set (abs c G t.disk).live (abs c G1 t'.disk).live r.path (some (new v)) ∧ (abs c G1 t'.disk).trash = (abs c G1 t1.disk).trash := by
    intro v hs
    have hq : (abs c G1 t1.disk).live r.path = some (stored r v) := (hs r.path).1 (same_iff.mpr rfl)
    obtain ⟨k, info, k1, k2, k3⟩ := set_info hc H1 hlen hq
    have e1 : lowInt (info kinfoTypeVersion) = r.dataType := by
      have := congrArg Rec.dataType k2; exact this
    have e2 : highInt (info kinfoTypeVersion) = v := by
      have := congrArg Rec.version k2; exact this
    have e3 : info kinfoLastWriteTime = r.now := by
      have := congrArg Rec.lastWrite k2; exact this
    have e4 : info kinfoFirstDate = r.firstDate := by
      have := congrArg Rec.firstDate k2; exact this
    obtain ⟨j1, j2, j3⟩ := k3 (F info) (t1.hdr.numberExpansions + m) (hF info) (hT info e1)
    rw [hnew info v e2 e3 e4] at j2
    exact ⟨_, by rw [k1]; rfl, j1, set_twice hs j2, j3⟩
  have hS := S.step
  generalize hst' : abs c G1 t1.disk = st' at hS
  generalize hst : abs c G t.disk = st at hS
  generalize hop : Op.write r = op at hS
  cases hS with
  | writeNew a1 a2 a3 =>
    cases hop; subst hst'; subst hst
    obtain ⟨t', b1, b2, b3, b4⟩ := acc 1 a2
    refine ⟨G1, t', .ok, by rw [if_pos rfl]; exact b1, b2, .fresh a1 b3 ?_⟩
    rw [b4]; exact a3
  | overwrite a1 a2 a3 a4 =>
    cases hop; subst hst'; subst hst
    obtain ⟨t', b1, b2, b3, b4⟩ := acc _ a3
    refine ⟨G1, t', .ok, by rw [if_pos rfl]; exact b1, b2, .over a1 a2 b3 ?_⟩
    rw [b4]; exact a4
  | refused a1 a2 =>
    cases hop
    refine ⟨G1, t1, .differentType, by rw [if_neg (fun h => by cases h)], H1, ?_⟩
    rw [hst']
    exact .refused a1 a2
  | _ => cases hop

theorem join_pos (qs : List Bytes) : 0 < (join qs).length := by simp [join]

section
variable {d : Disk} {x : Nat} {R : Rec} {qs : List Bytes} {e : CopyEnv}

/-- The write that a copy makes. -/
theorem copy_stored (hR : readArrays d (fun i => d (x + i)) = R) (hlog : R.logicalNumber = 0 → R.numberValues = 0) (path q : Bytes) (v : UInt32) :
    stored { copyReq e path (fun i => d (x + i)) R R.ih (e.now x) with path := q } v = { R with version := v, lastWrite := e.now x } := by
  have hlg : (if R.logicalNumber > 0 then R.logicalNumber else R.numberValues) = R.logicalNumber := by
    split
    · rfl
    · have h0 : R.logicalNumber = 0 := by omega
      rw [hlog h0, h0]
  have h1 : d (x + kinfoFirstDate) = R.firstDate := congrArg Rec.firstDate hR
  have h2 : d (x + kinfoLastDate) = R.lastDate := congrArg Rec.lastDate hR
  simp only [stored, copyReq]
  rw [hlg, h1, h2]

theorem copy_to (hc : c.OK) {G : Ghost} {t : Eng} {past : List Op} (H : HInv c G t past) (hR : readArrays d (fun i => d (x + i)) = R)
    (hlog : R.logicalNumber = 0 → R.numberValues = 0) (hN : NewHeader R) (hqs : SixParts qs) (hl : (join qs).length ≤ 392)
    (hm : MayReceive c past t R (join qs)) :
    ∃ G' t' res, zcopyRecordTo c d e t x (join qs) = some (t', res) ∧ HInv c G' t' past ∧
      Received (abs c G t.disk) (join qs) R.dataType (fun _ => R) res (abs c G' t'.disk) := by
  unfold zcopyRecordTo
  simp only [hR, copiedHeader_same (ca := e.carray) hN, Option.bind_some, mallocAndCopyPath_join hqs]
  generalize unpackBytes (fun j => d (x + (kinfoPathname + j))) (toInt32 (d (x + kinfoPathnameLength))).toNat = path
  refine write_set (r := { copyReq e path (fun i => d (x + i)) R R.ih (e.now x) with path := join qs }) hc H ⟨join_pos qs, hl, hm⟩
    (fun infoTo => copiedInfo infoTo (fun i => d (x + i)) (copiedExpansions e path fun i => d (x + i)) (e.oldProg x)) _
    (fun info i hs => copiedInfo_hard hs) (fun info _ => ?_) _ (fun info v _ _ _ => ?_)
  · exact congrArg Rec.dataType hR
  · rw [copy_stored hR hlog]
    have h1 : highInt (d (x + kinfoTypeVersion)) = R.version := congrArg Rec.version hR
    have h2 : d (x + kinfoLastWriteTime) = R.lastWrite := congrArg Rec.lastWrite hR
    have h3 : d (x + kinfoFirstDate) = R.firstDate := congrArg Rec.firstDate hR
    show ({ R with version := highInt (d (x + kinfoTypeVersion)), lastWrite := d (x + kinfoLastWriteTime), firstDate := d (x + kinfoFirstDate) } : Rec) = R
    rw [h1, h2, h3]

theorem copy_within (hc : c.OK) {G : Ghost} {s : Eng} {past : List Op} (H : HInv c G s past) (hR : readArrays s.disk (fun i => s.disk (x + i)) = R)
    (hlog : R.logicalNumber = 0 → R.numberValues = 0) (hN : NewHeader R) (hqs : SixParts qs) (hl : (join qs).length ≤ 392)
    (hm : MayReceive c past s R (join qs)) :
    ∃ G' s' res, zcopyRecordSame c e s x (join qs) = some (s', res) ∧ HInv c G' s' past ∧
      Received (abs c G s.disk) (join qs) R.dataType (fun v => { R with version := v, lastWrite := e.now x }) res (abs c G' s'.disk) := by
  unfold zcopyRecordSame
  simp only [hR, copiedHeader_same (ca := e.carray) hN, Option.bind_some, mallocAndCopyPath_join hqs]
  generalize unpackBytes (fun j => s.disk (x + (kinfoPathname + j))) (toInt32 (s.disk (x + kinfoPathnameLength))).toNat = path
  refine write_set (r := { copyReq e path (fun i => s.disk (x + i)) R R.ih (e.now x) with path := join qs }) hc H ⟨join_pos qs, hl, hm⟩
    (fun infoTo => copiedInfo infoTo (upd infoTo kinfoExpansion (s.disk (x + kinfoExpansion))) (copiedExpansions e path fun i => s.disk (x + i)) (e.oldProg x)) _
    (fun info i hs => copiedInfo_hard hs) (fun info h => ?_) _ (fun info v h1 h2 h3 => ?_)
  · exact h
  · rw [copy_stored hR hlog]
    show ({ R with version := highInt (info kinfoTypeVersion), lastWrite := info kinfoLastWriteTime, firstDate := info kinfoFirstDate } : Rec) = _
    rw [h1, h2, h3]
    have h3 : s.disk (x + kinfoFirstDate) = R.firstDate := congrArg Rec.firstDate hR
    show ({ R with version := v, lastWrite := e.now x, firstDate := s.disk (x + kinfoFirstDate) } : Rec) = _
    rw [h3]

end

end Hec
