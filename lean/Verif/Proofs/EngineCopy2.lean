import Verif.Proofs.EngineCopy
/-! Copying one record. -/
namespace Hec
set_option linter.unusedSimpArgs false
set_option linter.unusedVariables false
open _root_.Spec (Op Store Step Steps run runs Set join SixParts NoLookAlikes FullNames NewHeaders stored)

variable {c : Cfg}

theorem intsToBytes_drop (xs : List UInt32) : ∀ n, (intsToBytes xs).drop (4 * n) = intsToBytes (xs.drop n) := by
  induction xs with
  | nil => intro n; simp [intsToBytes]
  | cons w xs ih =>
    intro n
    cases n with
    | zero => simp
    | succ n =>
      rw [show 4 * (n + 1) = 4 * n + 4 by omega]
      simp only [List.drop_succ_cons]
      rw [← ih n]
      simp [intsToBytes]

theorem padding_of {ih : List UInt32} (h : ih[17]? = some 0 ∨ ih[17]? = some 0x20202020) : unitsHavePadding (intsToBytes ih) 17 = true := by
  have hd : ∀ v, ih[17]? = some v → ∃ r, ih.drop 17 = v :: r := by
    intro v hv
    obtain ⟨hlt, he⟩ := List.getElem?_eq_some_iff.mp hv
    exact ⟨ih.drop 18, by rw [List.drop_eq_getElem_cons hlt, he]⟩
  unfold unitsHavePadding
  rw [intsToBytes_drop]
  rcases h with h | h
  · obtain ⟨r, hr⟩ := hd _ h
    rw [hr]
    simp [intsToBytes, byteOf, List.replicate]
  · obtain ⟨r, hr⟩ := hd _ h
    rw [hr]
    simp only [intsToBytes, List.flatMap_cons, List.cons_append, List.nil_append, List.take_succ_cons, List.take_zero]
    decide +kernel

theorem copiedHeader_same {t : UInt32} {ih : List UInt32} {ca : Bytes}
    (h : 100 ≤ t → t ≤ 119 → 18 < ih.length → ih[17]? = some 0 ∨ ih[17]? = some 0x20202020) : copiedHeader t ih ca = some ih := by
  unfold copiedHeader
  split
  · next hh =>
    have := padding_of (h hh.1 hh.2.1 hh.2.2.1)
    rw [this] at hh
    exact absurd hh.2.2.2 (by decide)
  · rfl

theorem permWrite_out (s : Eng) {x : Nat} (h : ¬ x < c.hdrSize) : (s.permWrite c).disk x = s.disk x := by
  show Wr.apply _ _ x = _
  exact apply_out (by simp only; omega)

theorem toInt32_small {w : Nat} (h : w < 2 ^ 31) : toInt32 w = w := by
  unfold toInt32 lo32
  rw [Nat.mod_eq_of_lt (by omega), if_pos h]

theorem copiedInfo_hard {a b : Nat → Nat} {x : UInt32} {pr : Nat × Nat} {i : Nat} (h : ¬ Soft i) : copiedInfo a b x pr i = a i := by
  simp only [Soft, List.mem_cons, List.mem_nil_iff, or_false, not_or] at h
  simp only [copiedInfo, upd, kinfoTypeVersion, kinfoExpansion, kinfoLastWriteTime, kinfoProgram, kinfoFirstDate, kinfoCreationTime]
  repeat rw [if_neg (by omega)]

/-- A record of a file is copied to another file that has no such record. -/
theorem copy_one {cd : Cfg} (hc : c.OK) (hcd : cd.OK) {G : Ghost} {s : Eng} {past : List Op} (H : HInv c G s past) {h : Nat} (hh : h < c.maxHash)
    {e : BinEnt} (he : e ∈ centries (G.chain h)) (hl : live e) {Gd : Ghost} {t : Eng} (Hd : HInv cd Gd t [])
    (hnone : (abs cd Gd t.disk).live e.path = none) (hjoin : ∃ ps, SixParts ps ∧ e.path = join ps)
    (hih : 100 ≤ (recAt s.disk e).dataType → (recAt s.disk e).dataType ≤ 119 → 18 < (recAt s.disk e).ih.length →
      (recAt s.disk e).ih[17]? = some 0 ∨ (recAt s.disk e).ih[17]? = some 0x20202020)
    (hlog : (recAt s.disk e).logicalNumber = 0 → (recAt s.disk e).numberValues = 0) (env : CopyEnv) :
    ∃ Gd' t', zcopyRecordInternal cd s.disk env t e.infoAdd = some t' ∧ HInv cd Gd' t' [] ∧
      Set (abs cd Gd t.disk).live (abs cd Gd' t'.disk).live e.path (some (recAt s.disk e)) ∧
      t'.hdr.numberRecords = t.hdr.numberRecords + 1 := by
  have hok := (H.inv.w.chains h hh).ok e he
  have hhd := H.heads h hh e he (live_not_gone hl)
  have hpath : unpackBytes (fun j => s.disk (e.infoAdd + (kinfoPathname + j))) (toInt32 (s.disk (e.infoAdd + kinfoPathnameLength))).toNat = e.path := by
    have h1 : s.disk (e.infoAdd + kinfoPathnameLength) = e.path.length := hhd.len
    have h2 := hok.len
    rw [h1, toInt32_small (by omega)]
    exact hhd.path
  have hmal : mallocAndCopyPath e.path = e.path := by
    obtain ⟨ps, h1, h2⟩ := hjoin
    rw [h2]; exact mallocAndCopyPath_join h1
  have hhead := copiedHeader_same (ca := env.carray) hih
  unfold zcopyRecordInternal zcopyRecordTo
  simp only [hpath]
  have hR : readArrays s.disk (fun i => s.disk (e.infoAdd + i)) = recAt s.disk e := rfl
  rw [hR, hhead]
  simp only [Option.bind_some]
  generalize hr : copyReq env e.path (fun i => s.disk (e.infoAdd + i)) (recAt s.disk e) (recAt s.disk e).ih (env.now e.infoAdd) = r
  have hrp : r.path = e.path := by rw [← hr]; exact hmal
  have hlen : r.path.length ≤ 392 := by rw [hrp]; exact hok.len
  have hpos : 0 < r.path.length := by rw [hrp]; exact hok.pos
  have hnone' : (abs cd Gd t.disk).live r.path = none := by rw [hrp]; exact hnone
  have hdead := dead_entries hcd Hd.inv hlen hnone'
  have hhd' := hcd.tHash_lt r.path hlen
  obtain ⟨G', t1, e1, hrun, D, ⟨hp1, _⟩, hst1, hnr, hR1, hH1, A, B, o, h1, h2, ho, ho1, hA⟩ :=
    zwrite_new_ok hcd Hd.inv r hpos hlen hdead (fun f hf hs => by
      obtain ⟨p, hp, _⟩ := Hd.trash _ hhd' f hf hs.1
      simp at hp)
  obtain ⟨k1, k2, k3, k4, k5, _, _⟩ := new_entry hcd Hd.inv hlen D hp1 hst1 hR1 h1 h2 ho ho1 hA
  have Hd1 : HInv cd G' t1 [] := by
    refine ⟨D.inv, by rw [hnr, Hd.count, k3], k5 hH1 Hd.heads, fun h hh' f hf hd' => ?_⟩
    obtain ⟨e0, he0, hd0, hp0⟩ := k4 h f hf hd'
    obtain ⟨p, hp, _⟩ := Hd.trash h hh' e0 he0 hd0
    simp at hp
  have hl1 : live e1 := Or.inr hst1
  have hs1 : Same r.path e1.path := by rw [hp1]; rfl
  have T : Target cd G' t1.disk r.path A B e1 (stored r 1) := ⟨h2, hs1, hR1⟩
  obtain ⟨C1, b, pre, post, C2, hC, hAeq, hBeq⟩ := split_centries h2
  have hm1 : EMatch r.path REC_STATUS_VALID e1 := ⟨hs1, matches_valid hl1⟩
  obtain ⟨ws, hri⟩ := zreadInfo_some hcd (hx := 0) (ax := 0) Hd1.inv.w (q := r.path) (wanted := REC_STATUS_VALID) hhd' hC
    (by have := Hd1.inv.h.len _ hhd'; omega)
    (fun x hx hm => by
      rw [← hAeq] at hx
      exact EMatch.not_gone (Or.inl hm) (hA x hx hm.1)) hm1 hR1.ok.hash
  have hrun' : zwrite cd t r = some (t1, .ok) := hrun
  have hre : ({ r with path := mallocAndCopyPath e.path } : Req) = r := by rw [← hr]; rfl
  have hrm : mallocAndCopyPath e.path = r.path := by rw [hrp, hmal]
  rw [hre, hrun']
  simp only [Option.bind_some, if_true]
  rw [hrm, hri]
  simp only [Option.bind_some, Option.map_some]
  generalize hex : copiedExpansions env e.path (fun i => s.disk (e.infoAdd + i)) = ex
  have hn1 : infoSize + nLongsB (t1.disk (e1.infoAdd + kinfoPathnameLength)) = numberInfo e1.path := by
    have : t1.disk (e1.infoAdd + kinfoPathnameLength) = e1.path.length := hH1.len
    rw [this]; rfl
  rw [hn1]
  have hge1 := live_not_gone hl1
  have hmem1 : e1 ∈ centries (G'.chain (cd.tHash r.path)) := by rw [h2]; simp
  have hO1 := (Hd1.inv.w.chains _ hhd').rcd e1 hmem1 hge1
  have hI30 : 30 ≤ numberInfo e1.path := by simp only [numberInfo, infoSize]; omega
  -- the info block lies behind the file header
  have hbeh : ∀ i, i < numberInfo e1.path → ¬ e1.infoAdd + i < cd.hdrSize := by
    intro i hi hlt
    have h1 := Hd1.inv.w.sys _ hlt
    rw [hO1.mine _ (InRec.info hi)] at h1
    cases h1
  generalize ht' : (Eng.permWrite cd _ : Eng) = t'
  have hdisk : ∀ x, ¬ x < cd.hdrSize → t'.disk x = Wr.apply ⟨e1.infoAdd, numberInfo e1.path, copiedInfo (fun i => t1.disk (e1.infoAdd + i)) (fun i => s.disk (e.infoAdd + i)) ex (env.oldProg e.infoAdd)⟩ t1.disk x := by
    intro x hx
    rw [← ht', permWrite_out _ hx]
    rfl
  have hin : ∀ i, i < numberInfo e1.path → t'.disk (e1.infoAdd + i) = copiedInfo (fun i => t1.disk (e1.infoAdd + i)) (fun i => s.disk (e.infoAdd + i)) ex (env.oldProg e.infoAdd) i := by
    intro i hi
    rw [hdisk _ (hbeh i hi)]
    simp only [Wr.apply]
    rw [if_pos ⟨by omega, by omega⟩, Nat.add_sub_cancel_left]
  have h4 : t'.disk (e1.infoAdd + kinfoTypeVersion) = s.disk (e.infoAdd + kinfoTypeVersion) := by
    rw [hin _ (by simp only [kinfoTypeVersion]; omega)]; rfl
  have h6 : t'.disk (e1.infoAdd + kinfoLastWriteTime) = s.disk (e.infoAdd + kinfoLastWriteTime) := by
    rw [hin _ (by simp only [kinfoLastWriteTime]; omega)]; rfl
  have h9 : t'.disk (e1.infoAdd + kinfoFirstDate) = s.disk (e.infoAdd + kinfoFirstDate) := by
    rw [hin _ (by simp only [kinfoFirstDate]; omega)]; rfl
  have hdt : (stored r 1).dataType = (recAt s.disk e).dataType := by rw [← hr]; rfl
  obtain ⟨HF, SF, _⟩ := patch_ok (s' := t') hcd Hd1 hlen T hl1 hA
    (fun x hx hx' => by rw [hdisk x hx]; exact apply_out (by simpa using hx'))
    (fun i hi hs => by rw [hin i hi, copiedInfo_hard hs])
    (by rw [h4, hdt]; rfl)
    (by
      have hI := Hd1.inv.h
      rw [← ht']
      exact ⟨hI.beyond, hI.free, hI.link, hI.len, hI.spare⟩)
    (by rw [← ht']; rfl)
  have hrec : ({ stored r 1 with version := highInt (t'.disk (e1.infoAdd + kinfoTypeVersion)), lastWrite := t'.disk (e1.infoAdd + kinfoLastWriteTime), firstDate := t'.disk (e1.infoAdd + kinfoFirstDate) } : Rec) = recAt s.disk e := by
    rw [h4, h6, h9]
    have hlg : (if (recAt s.disk e).logicalNumber > 0 then (recAt s.disk e).logicalNumber else (recAt s.disk e).numberValues) = (recAt s.disk e).logicalNumber := by
      split
      · rfl
      · have h0 : (recAt s.disk e).logicalNumber = 0 := by omega
        rw [hlog h0, h0]
    rw [← hr]
    simp only [stored, copyReq]
    rw [hlg]
    rfl
  rw [hrec] at SF
  refine ⟨G', t', rfl, HF, ?_, ?_⟩
  · intro q
    have a1 := k1 q
    have a2 := SF q
    rw [hrp] at a1 a2
    exact ⟨a2.1, fun hs => (a2.2 hs).trans (a1.2 hs)⟩
  · rw [← hnr, ← ht']; rfl

end Hec
