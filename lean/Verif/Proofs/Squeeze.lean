import Verif.Proofs.EngineCopy
import Verif.Proofs.EngineRename2
import Verif.Spec.Squeeze
/-! The header on disk, changes of the disk outside the records, and copying a file piece by piece (C71, C72). -/
namespace Hec
set_option linter.unusedSimpArgs false
set_option linter.unusedVariables false
open _root_.Spec (Op Store Step Steps run runs Allowed AllAllowed)

variable {c : Cfg}

/-- Words outside the records, bins and tables do not matter. -/
theorem HInv.quiet (hc : c.OK) {G : Ghost} {s : Eng} {past : List Op} (H : HInv c G s past) (s' : Eng) (hh : s'.hdr = s.hdr)
    (hd : ∀ x, G.own x ≠ .none → G.own x ≠ .sys → s'.disk x = s.disk x) :
    HInv c G s' past ∧ abs c G s'.disk = abs c G s.disk := by
  have I := H.inv
  have hW : InvW c G s'.disk 0 0 := I.w.quiet hc fun x hx => hd x (fun h => hx (Or.inl h)) (fun h => hx (Or.inr (Or.inl h)))
  have hkeep : ∀ h, h < c.maxHash → ∀ f ∈ centries (G.chain h), ¬ gone f → ∀ x, InRec (G.room f.infoAdd) f x → s'.disk x = s.disk x := by
    intro h hh' f hf hg x hx
    have h1 := ((I.w.chains h hh').rcd f hf hg).mine x hx
    exact hd x (by rw [h1]; intro h2; cases h2) (by rw [h1]; intro h2; cases h2)
  have hrec : ∀ h, h < c.maxHash → ∀ f ∈ centries (G.chain h), ¬ gone f → recAt s'.disk f = recAt s.disk f := by
    intro h hh' f hf hg
    have hr := (I.w.chains h hh').recs f hf hg (by simp only [ite_self]; exact I.w.info_ne hc hh' hf hg)
    have hk := hkeep h hh' f hf hg
    exact readArrays_congr rfl hr (fun i hi' _ => hk _ (InRec.info30 hi')) (fun i hi' => hk _ (InRec.arr hi'))
  refine ⟨⟨⟨hW, by rw [hh]; exact I.h, I.last⟩, by rw [hh]; exact H.count, ?_, H.trash⟩, ?_⟩
  · intro h hh' f hf hg
    exact HeadOK.congr (e := f) rfl rfl (fun i hi' => hkeep h hh' f hf hg _ (InRec.info hi')) (H.heads h hh' f hf hg)
  · have h1 : (abs c G s'.disk).live = (abs c G s.disk).live := by
      funext q
      simp only [abs]
      split
      · next hq =>
        cases hf : (centries (G.chain (c.tHash q))).find? fun e => decide (EMatch q REC_STATUS_VALID e) with
        | none => rfl
        | some e =>
          have hm := List.find?_some hf
          have hm := of_decide_eq_true hm
          simp only [Option.map_some]
          rw [hrec _ (hc.tHash_lt q hq) e (List.mem_of_find?_eq_some hf) (EMatch.not_gone (Or.inl hm))]
      · rfl
    have h2 : (abs c G s'.disk).trash = (abs c G s.disk).trash := by
      funext q
      simp only [abs]
      split
      · next hq =>
        apply List.map_congr_left
        intro e he
        have hm := List.mem_filter.mp he
        have hm' := of_decide_eq_true hm.2
        exact hrec _ (hc.tHash_lt q hq) e hm.1 (EMatch.not_gone (Or.inr hm'))
      · rfl
    cases h3 : abs c G s'.disk
    cases h4 : abs c G s.disk
    rw [h3, h4] at h1 h2
    simp only at h1 h2
    rw [h1, h2]

/-- The header on disk is the one in memory. -/
def HdrSaved (s : Eng) : Prop := readHdr s.disk = s.hdr

theorem saved_perm (hc : c.OK) (s : Eng) : HdrSaved (s.permWrite c) := by
  have h := hc.hdr
  unfold HdrSaved readHdr Eng.permWrite Eng.put
  have : ∀ i, i < 9 → Wr.apply ⟨0, c.hdrSize, hdrWords s.hdr⟩ s.disk i = hdrWords s.hdr i := by
    intro i hi
    unfold Wr.apply
    rw [if_pos (by simp only; omega)]
    rfl
  simp only [this 0 (by omega), this 1 (by omega), this 2 (by omega), this 3 (by omega), this 4 (by omega), this 5 (by omega), this 6 (by omega), this 7 (by omega), this 8 (by omega)]
  rfl

theorem saved_agree {s s' : Eng} (h : HdrSaved s) (hh : s'.hdr = s.hdr) (hd : ∀ x, x < 9 → s'.disk x = s.disk x) : HdrSaved s' := by
  unfold HdrSaved at *
  rw [hh, ← h]
  unfold readHdr
  rw [hd 0 (by omega), hd 1 (by omega), hd 2 (by omega), hd 3 (by omega), hd 4 (by omega), hd 5 (by omega), hd 6 (by omega), hd 7 (by omega), hd 8 (by omega)]

theorem saved_delete (hc : c.OK) {s s' : Eng} {p : Bytes} {u : Bool} {r : Res} (hr : zdeleteInternal c s p u = some (s', r)) : HdrSaved s' := by
  unfold zdeleteInternal at hr
  simp only at hr
  cases hz : zreadInfo c s p (if u = true then REC_STATUS_DELETED else REC_STATUS_VALID) with
  | none => rw [hz] at hr; cases hr
  | some k =>
    rw [hz] at hr
    simp only [Option.map_some] at hr
    injection hr with hr
    split at hr
    · injection hr with h1 h2; subst h1; exact saved_perm hc _
    · injection hr with h1 h2; subst h1; exact saved_perm hc _

theorem saved_from (hc : c.OK) {s s' : Eng} {o n : Bytes} {v : RenEnv} {r : Res} (hr : renameFrom c s o n v = some (s', r)) (h : HdrSaved s) : HdrSaved s' := by
  unfold renameFrom at hr
  simp only at hr
  cases hz : zcheck c s o REC_STATUS_VALID with
  | none => rw [hz] at hr; cases hr
  | some k =>
    rw [hz] at hr
    simp only [Option.bind_some] at hr
    split at hr
    · injection hr with hr; injection hr with h1 h2; subst h1; exact h
    · generalize (if 100 ≤ lo32 (s.disk (k.pathBinAddress + 4)) ∧ lo32 (s.disk (k.pathBinAddress + 4)) < 200 then renamePath o n v.junk
        else some (mallocAndCopyPath n)) = P at hr
      cases P with
      | none => cases hr
      | some path =>
        simp only [Option.bind_some] at hr
        unfold adoptRecord at hr
        simp only [Option.map_bind, Option.bind_eq_some_iff] at hr
        obtain ⟨k2, _, hr⟩ := hr
        simp only [Function.comp, Option.map_map, Option.map_eq_some_iff] at hr
        obtain ⟨s2, _, hr⟩ := hr
        injection hr with h1 h2
        subst h1
        exact saved_perm hc _

theorem saved_to (hc : c.OK) {s s' : Eng} {o n : Bytes} {v : RenEnv} {r : Res} (hr : zrenameTo c s o n v = some (s', r)) (h : HdrSaved s) : HdrSaved s' := by
  unfold zrenameTo at hr
  cases hz : zcheck c s n REC_STATUS_VALID with
  | none => rw [hz] at hr; cases hr
  | some k =>
    rw [hz] at hr
    simp only [Option.bind_some] at hr
    split at hr
    · cases hd : zdeleteInternal c s n false with
      | none => rw [hd] at hr; cases hr
      | some q =>
        obtain ⟨q1, q2⟩ := q
        rw [hd] at hr
        simp only [Option.bind_some] at hr
        split at hr
        · exact saved_from hc hr (saved_delete hc hd)
        · cases hr
    · exact saved_from hc hr h

theorem saved_rename (hc : c.OK) {s s' : Eng} {o n : Bytes} {v : RenEnv} {r : Res} (hr : zrename c s o n v = some (s', r)) (h : HdrSaved s) : HdrSaved s' := by
  unfold zrename at hr
  split at hr
  · cases h1 : stringCopy (List.replicate 393 0) o o.length with
    | none => rw [h1] at hr; cases hr
    | some d =>
      rw [h1] at hr
      simp only [Option.bind_some] at hr
      cases h2 : zpathnameSetPart v.before d.1 v.fpart 6 v.junk with
      | none => rw [h2] at hr; cases hr
      | some t =>
        rw [h2] at hr
        simp only [Option.bind_some] at hr
        split at hr
        · cases h3 : zrenameTo c s o (cstr t.1) v with
          | none => rw [h3] at hr; cases hr
          | some q =>
            obtain ⟨q1, q2⟩ := q
            rw [h3] at hr
            simp only [Option.bind_some] at hr
            have hq := saved_to hc h3 h
            split at hr
            · exact saved_to hc hr hq
            · injection hr with hr; injection hr with h4 h5; subst h4; exact hq
        · injection hr with hr; injection hr with h4 h5; subst h4; exact h
  · exact saved_to hc hr h

/-- The entry of a record that is found lies behind the header. -/
theorem entry_behind (hc : c.OK) {G : Ghost} {s : Eng} (I : Inv c G s) {p : Bytes} (hlen : p.length ≤ 392) {k : Chk}
    (hk : zcheck c s p REC_STATUS_VALID = some k) (hf : k.found = true) : 9 ≤ k.pathBinAddress := by
  have hh := hc.tHash_lt p hlen
  obtain ⟨k', h1, h2⟩ := zcheck_found hc I hlen
  rw [hk] at h1
  injection h1 with h1
  subst h1
  rw [hf] at h2
  obtain ⟨R, hR⟩ := Option.isSome_iff_exists.mp h2.symm
  obtain ⟨A, B, e, T, hm, hl, hA, hB⟩ := live_entry hc I hlen hR
  have I0 : InvW c G s.disk (c.tHash p) 0 := I.w.idle
  have K := I0.chains _ hh
  obtain ⟨C1, b, pre, post, C2, hC, hAeq, hBeq⟩ := split_centries T.ents
  have hlen' : (G.chain (c.tHash p)).length ≤ s.hdr.totalBins + 1 := by have := I.h.len _ hh; omega
  obtain ⟨ws, hz⟩ := zcheck_some hc I0 (q := p) (wanted := REC_STATUS_VALID) hh hC hlen' (by
    intro x hx' hmm
    rw [← hAeq] at hx'
    exact hmm.not_dead (Or.inr (hA x hx' hmm.1))) hm
  rw [hk] at hz
  injection hz with hz
  subst hz
  simp only
  refine Decidable.byContradiction fun hx => ?_
  have hK := K
  rw [hC] at hK
  obtain ⟨hbin, _⟩ := ChainAt_bin C1 hK.at_
  have hfit := hbin.fits
  simp only [esize_append, esize, BinEnt.size] at hfit
  have h3 := hK.bins (b, pre ++ e :: post) (by simp) (esize pre) (by omega)
  have h4 := I.w.sys (b + esize pre) (by have := hc.hdr; omega)
  rw [h4] at h3
  cases h3

theorem saved_write (hc : c.OK) {G : Ghost} {s s' : Eng} (I : Inv c G s) {r : Req} (hlen : r.path.length ≤ 392) {res : Res}
    (hr : zwrite c s r = some (s', res)) (h : HdrSaved s) : HdrSaved s' := by
  unfold zwrite at hr
  cases hz : zreadInfo c s r.path REC_STATUS_VALID with
  | none => rw [hz] at hr; cases hr
  | some p =>
    rw [hz] at hr
    simp only [Option.bind_some] at hr
    split at hr
    · rw [Option.map_eq_some_iff] at hr
      obtain ⟨q, _, hr⟩ := hr
      injection hr with h1 h2
      subst h1
      exact saved_perm hc _
    · next info hi =>
      split at hr
      · injection hr with hr; injection hr with h1 h2; subst h1; exact saved_perm hc _
      · next hne =>
        injection hr with hr; injection hr with h1 h2; subst h1
        unfold zwriteExisting at hne ⊢
        simp only at hne ⊢
        have hb : 9 ≤ p.1.pathBinAddress := by
          unfold zreadInfo at hz
          cases hk : zcheck c s r.path REC_STATUS_VALID with
          | none => rw [hk] at hz; cases hz
          | some k =>
            rw [hk] at hz
            simp only [Option.map_some] at hz
            injection hz with hz
            by_cases hf : k.found = true
            · have := entry_behind hc I hlen hk hf
              rw [if_pos hf] at hz
              split at hz <;> (subst hz; exact this)
            · rw [if_neg hf] at hz
              subst hz
              cases hi
        split at hne
        · next h3 =>
          rw [if_pos h3]
          refine saved_agree h rfl fun x hx => ?_
          exact apply_out (by simp only; omega)
        · split at hne <;> exact absurd rfl hne

theorem saved_run (hc : c.OK) {G : Ghost} {s s' : Eng} {past : List Op} (H : HInv c G s past) {op : Op} (ha : Allowed c past s op) {res : Res}
    (hr : run c s op = some (s', res)) (h : HdrSaved s) : HdrSaved s' := by
  cases op with
  | write r => exact saved_write hc H.inv ha.2.1 hr h
  | delete p => exact saved_delete hc hr
  | undelete p => exact saved_delete hc hr
  | rename o n v => exact saved_rename hc hr h

end Hec
