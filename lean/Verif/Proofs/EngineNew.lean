import Verif.Proofs.EngineSt
/-! New bins and new entries. -/
namespace Hec
set_option linter.unusedSimpArgs false
set_option linter.unusedVariables false

variable {c : Cfg} {p : Bytes} {G0 : Ghost} {s0 : Eng} {hx a0 : Nat}

/-- After zbinNew: `nb` is a free bin, not yet counted among the remaining ones. -/
structure Fresh (c : Cfg) (G : Ghost) (h : Hdr) (nb : Nat) : Prop where
  beyond : ∀ x, h.fileSize ≤ x → G.own x = .none
  free : ∀ i, i < h.binsRemain * c.isize → G.own (h.nextEmpty + i) = .free
  link : G.own (h.nextEmpty + h.binsRemain * c.isize) = .link
  len : ∀ x, x < c.maxHash → (G.chain x).length + 1 ≤ h.totalBins
  bin : ∀ i, i < c.isize → G.own (nb + i) = .free
  next : h.nextEmpty = nb + c.isize
  spare : Spares c G nb (h.binsRemain + 1)

theorem zbinNew_ok (hc : c.OK) (I0 : InvW c G0 s0.disk hx 0) (hh : hx < c.maxHash) {G : Ghost} {s : Eng} {ax : Nat}
    (S : St c p G0 s0 hx a0 G s ax) (H : InvH c G s.hdr) (tb cur : Nat)
    (htb : tb ≠ 0 → G.chain hx ≠ [] ∧ cur = lastAddr (G.chain hx)) :
    ∃ G', St c p G0 s0 hx a0 G' (zbinNew c s tb cur).1 ax ∧ Fresh c G' (zbinNew c s tb cur).1.hdr (zbinNew c s tb cur).2 ∧
      G'.chain = G.chain ∧ (∀ h, G'.last h = if tb ≠ 0 ∧ h = hx then (zbinNew c s tb cur).2 else G.last h) ∧
      G'.room = G.room ∧ (∀ x, G.own x ≠ .none → G'.own x = G.own x) ∧ s.hdr.fileSize ≤ (zbinNew c s tb cur).1.hdr.fileSize ∧
      (zbinNew c s tb cur).1.hdr.numberRecords = s.hdr.numberRecords ∧ (zbinNew c s tb cur).1.hdr.catSequence = s.hdr.catSequence := by
  have hi := hc.isize
  have hb := hc.bins
  -- the link word of the last bin
  have linkStep : ∀ (s1 : Eng) (nb : Nat), St c p G0 s0 hx a0 G s1 ax →
      St c p G0 s0 hx a0 { G with last := fun h => if tb ≠ 0 ∧ h = hx then nb else G.last h }
        (if tb ≠ 0 then s1.put (cur + c.isize - 1) 1 (fun _ => nb) else s1) ax := by
    intro s1 nb S1
    by_cases ht : tb = 0
    · have : ({ G with last := fun h => if tb ≠ 0 ∧ h = hx then nb else G.last h } : Ghost) = G := by
        simp [ht]
      rw [this, if_neg (by simp [ht])]
      exact S1
    · rw [if_pos ht]
      obtain ⟨hne, hcur⟩ := htb ht
      have hw : cur + c.isize - 1 = lastAddr (G.chain hx) + (c.isize - 1) := by rw [hcur]; omega
      have hinv : InvW c { G with last := fun h => if tb ≠ 0 ∧ h = hx then nb else G.last h } (s1.put (cur + c.isize - 1) 1 (fun _ => nb)).disk hx ax := by
        have := S1.inv.relink hc hh (d' := (s1.put (cur + c.isize - 1) 1 (fun _ => nb)).disk) (v := nb) (cur + c.isize - 1)
          (by rw [if_neg hne]; exact hw)
          (fun x hx' => by rw [put_disk]; exact apply_out (by simp only; omega))
          (by rw [put_disk]; exact apply_in (w := ⟨cur + c.isize - 1, 1, _⟩) (i := 0) (by simp))
        simpa [ht] using this
      refine S1.step hc I0 hinv (fun _ _ _ h => h) (fun _ _ _ => rfl) (fun h hh' => ⟨rfl, by simp [hh']⟩) ?_ S1.near.edit S1.near.fresh
      intro i hi' h b hbb
      exfalso
      have : i = 0 := by omega
      subst this
      obtain ⟨es, hes⟩ := lastAddr_mem hne
      have := (S1.inv.chains hx hh).bins _ hes (c.isize - 1) (by omega)
      rw [Nat.add_zero, hw, this] at hbb
      cases hbb
  by_cases hr : s.hdr.binsRemain = 0
  · have hl : G.own s.hdr.nextEmpty = .link := by have := H.link; rw [hr] at this; simpa using this
    let nb := s.hdr.fileSize
    let bs := c.isize * c.binsPerBlock + 1
    let s1 : Eng := { s with hdr := { s.hdr with totalBins := s.hdr.totalBins + 1, fileSize := nb + bs } }
    let s2 := if tb ≠ 0 then s1.put (cur + c.isize - 1) 1 (fun _ => nb) else s1
    let s3 := s2.put s.hdr.nextEmpty 1 fun _ => nb
    let s4 : Eng := { s3 with hdr := { s3.hdr with binsRemain := c.binsPerBlock - 1 } }
    let s5 := s4.put nb bs fun _ => 0
    let s6 : Eng := { s5 with hdr := { s5.hdr with nextEmpty := nb + c.isize } }
    have hs2h : s2.hdr = s1.hdr := by
      show (if tb ≠ 0 then s1.put (cur + c.isize - 1) 1 (fun _ => nb) else s1).hdr = _
      split <;> rfl
    have e0 : zbinNew c s tb cur = (s6.writeEOF, nb) := by
      unfold zbinNew
      simp only [hr, if_true, Eng.getFileSpace]
      by_cases ht : tb = 0
      · simp [s6, s5, s4, s3, s2, s1, nb, bs, ht]
      · simp [s6, s5, s4, s3, s2, s1, nb, bs, ht]
    have S1 : St c p G0 s0 hx a0 G s1 ax := S.hdr rfl rfl
    have S2 := linkStep s1 nb S1
    let G1 : Ghost := { G with last := fun h => if tb ≠ 0 ∧ h = hx then nb else G.last h }
    obtain ⟨bks, lb, kk, hbl, hlb, hkk⟩ := H.spare.lastB
    have hlw : s.hdr.nextEmpty = lb + c.binsPerBlock * c.isize := by rw [hlb]; congr 2; omega
    let G1t : Ghost := { G1 with tail := nb }
    have S3 : St c p G0 s0 hx a0 G1t s3 ax := by
      refine S2.step hc I0 (S2.inv.setTail hc hbl (fun x hx' => ?_) ?_) (fun _ _ _ h => h) (fun _ _ _ => rfl) (fun _ _ => ⟨rfl, rfl⟩) ?_ S2.near.edit S2.near.fresh
      · rw [put_disk]
        exact apply_out (by simp only; omega)
      · rw [put_disk, ← hlw]; exact apply_in (w := ⟨s.hdr.nextEmpty, 1, fun _ => nb⟩) (i := 0) (by simp)
      · intro i hi' h b hbb
        have : i = 0 := by omega
        subst this
        have hbb : G.own _ = _ := hbb
        rw [Nat.add_zero, hl] at hbb; cases hbb
    have S4 : St c p G0 s0 hx a0 G1t s4 ax := S3.hdr rfl rfl
    have S5 : St c p G0 s0 hx a0 G1t s5 ax := by
      refine St.quiet hc I0 S4 (fun i hi' => Or.inl ?_)
      exact H.beyond _ (by simp only [nb]; omega)
    let own' : Nat → Own := fun x => if nb ≤ x ∧ x < nb + c.isize * c.binsPerBlock then .free
      else if x = nb + c.isize * c.binsPerBlock then .link else G.own x
    have hown : ∀ x, G.own x ≠ .none → own' x = G.own x := by
      intro x hx'
      have : x < nb := by
        apply Decidable.byContradiction
        intro h; exact hx' (H.beyond x (by simp only [nb] at h; omega))
      simp only [own']
      rw [if_neg (by omega), if_neg (by omega)]
    have hnf : ∀ x, G.own x ≠ .free := by
      intro x hx'
      have := H.spare.used x hx'
      rw [hr] at this
      omega
    let G2 : Ghost := { G1t with own := own', room := G1.room, blocks := G.blocks ++ [nb], tail := 0 }
    have S6 : St c p G0 s0 hx a0 G2 s6 ax := by
      have S5' : St c p G0 s0 hx a0 G1t s6 ax := S5.hdr rfl rfl
      have hzz : s6.disk (nb + c.binsPerBlock * c.isize) = 0 := by
        show Wr.apply ⟨nb, bs, fun _ => 0⟩ s4.disk _ = 0
        exact apply_in (w := ⟨nb, bs, fun _ => 0⟩) (d := s4.disk) (i := c.binsPerBlock * c.isize) (by simp only [bs, Nat.mul_comm c.isize]; omega)
      have hB := S5'.inv.blk.newBlock (room' := G1.room) (own' := own') (by omega) rfl H.beyond hnf hzz (fun _ => rfl)
      refine S5'.ghost (S5'.inv.recolor hc (own' := own') (room' := G1.room) hown ?_ (fun _ _ => rfl) hB) ?_ (fun _ _ _ => rfl) (fun _ _ => ⟨rfl, rfl⟩) S5'.near.edit S5'.near.fresh
      · intro x hx'
        simp only [own'] at hx'
        split at hx'
        · next hin =>
          show Wr.apply ⟨nb, bs, fun _ => 0⟩ s4.disk x = 0
          have := apply_in (w := ⟨nb, bs, fun _ => 0⟩) (d := s4.disk) (i := x - nb) (by simp only [bs]; omega)
          rw [show nb + (x - nb) = x by omega] at this
          exact this
        · next hin =>
          split at hx'
          · cases hx'
          · exact S5'.inv.free x hx'
      · intro x h a hx'
        rw [← hx']
        exact hown x (by show G.own x ≠ _; intro h0; have : G1t.own x = .none := h0; rw [this] at hx'; cases hx')
    have hfs : s6.hdr.fileSize = nb + bs := by
      show s2.hdr.fileSize = _
      rw [hs2h]
    have hbelow : ∀ x, nb + bs ≤ x → own' x = .none := by
      intro x hx'
      simp only [own']
      rw [if_neg (by simp only [bs] at hx'; omega), if_neg (by simp only [bs] at hx'; omega)]
      exact H.beyond x (by simp only [nb] at hx'; omega)
    have S7 : St c p G0 s0 hx a0 G2 s6.writeEOF ax := by
      refine St.quiet hc I0 S6 (fun i hi' => Or.inl ?_)
      exact hbelow _ (by rw [hfs]; omega)
    obtain ⟨m, hm⟩ : ∃ m, c.binsPerBlock = m + 1 := ⟨c.binsPerBlock - 1, by omega⟩
    have hmul : c.isize * c.binsPerBlock = m * c.isize + c.isize := by rw [hm, Nat.mul_comm, Nat.add_mul]; omega
    have hbr : s6.writeEOF.hdr.binsRemain = m := by show c.binsPerBlock - 1 = m; omega
    have hne : s6.writeEOF.hdr.nextEmpty = nb + c.isize := rfl
    have hfs' : s6.writeEOF.hdr.fileSize = nb + bs := hfs
    have htot : s6.writeEOF.hdr.totalBins = s.hdr.totalBins + 1 := by
      show s2.hdr.totalBins = _; rw [hs2h]
    rw [e0]
    have hspare : Spares c G2 nb (m + 1) := by
      refine ⟨rfl, fun x hx' => ?_, G.blocks, nb, 0, rfl, by omega, by omega⟩
      have hx' : own' x = .free := hx'
      simp only [own'] at hx'
      split at hx'
      · rw [Nat.add_mul]; omega
      · split at hx'
        · cases hx'
        · exact absurd hx' (hnf x)
    refine ⟨G2, S7, ⟨?_, ?_, ?_, ?_, ?_, hne, by rw [hbr]; exact hspare⟩, rfl, fun h => rfl, rfl, hown, ?_, ?_, ?_⟩
    · intro x hx'
      rw [hfs'] at hx'
      exact hbelow x hx'
    · intro i hi'
      rw [hbr] at hi'
      rw [hne]
      show own' _ = _
      simp only [own']
      rw [if_pos (by omega)]
    · rw [hbr, hne]
      show own' _ = _
      simp only [own']
      rw [if_neg (by omega), if_pos (by omega)]
    · intro x hx'
      rw [htot]
      have := H.len x hx'
      show (G.chain x).length + 1 ≤ _
      omega
    · intro i hi'
      show own' _ = _
      simp only [own']
      rw [if_pos (by omega)]
    · rw [hfs']; simp only [nb]; omega
    · show s2.hdr.numberRecords = _; rw [hs2h]
    · show s2.hdr.catSequence = _; rw [hs2h]
  · let nb := s.hdr.nextEmpty
    let s1 : Eng := { s with hdr := { s.hdr with totalBins := s.hdr.totalBins + 1 } }
    let s2 := if tb ≠ 0 then s1.put (cur + c.isize - 1) 1 (fun _ => nb) else s1
    let s3 : Eng := { s2 with hdr := { s2.hdr with binsRemain := s2.hdr.binsRemain - 1, nextEmpty := s2.hdr.nextEmpty + c.isize } }
    have hs2h : s2.hdr = s1.hdr := by
      show (if tb ≠ 0 then s1.put (cur + c.isize - 1) 1 (fun _ => nb) else s1).hdr = _
      split <;> rfl
    have e0 : zbinNew c s tb cur = (s3, nb) := by
      unfold zbinNew
      simp only [if_neg hr]
      by_cases ht : tb = 0
      · simp [s3, s2, s1, nb, ht]
      · simp [s3, s2, s1, nb, ht]
    have S1 : St c p G0 s0 hx a0 G s1 ax := S.hdr rfl rfl
    have S2 := linkStep s1 nb S1
    obtain ⟨m, hm⟩ : ∃ m, s.hdr.binsRemain = m + 1 := ⟨s.hdr.binsRemain - 1, by omega⟩
    have hmul : s.hdr.binsRemain * c.isize = m * c.isize + c.isize := by rw [hm, Nat.add_mul]; omega
    have hbr : s3.hdr.binsRemain = m := by show s2.hdr.binsRemain - 1 = m; rw [hs2h]; show s.hdr.binsRemain - 1 = m; omega
    have hne : s3.hdr.nextEmpty = nb + c.isize := by show s2.hdr.nextEmpty + c.isize = _; rw [hs2h]
    have hfs' : s3.hdr.fileSize = s.hdr.fileSize := by show s2.hdr.fileSize = _; rw [hs2h]
    have htot : s3.hdr.totalBins = s.hdr.totalBins + 1 := by
      show s2.hdr.totalBins = _; rw [hs2h]
    rw [e0]
    have hspare : Spares c { G with last := fun h => if tb ≠ 0 ∧ h = hx then nb else G.last h } nb (m + 1) := by
      have := H.spare
      rw [hm] at this
      exact ⟨this.tail, this.used, this.lastB⟩
    refine ⟨_, S2.hdr rfl rfl, ⟨?_, ?_, ?_, ?_, ?_, hne, by rw [hbr]; exact hspare⟩, rfl, fun h => rfl, rfl, fun _ _ => rfl, ?_, ?_, ?_⟩
    · intro x hx'
      rw [hfs'] at hx'
      exact H.beyond x hx'
    · intro i hi'
      rw [hbr] at hi'
      rw [hne, Nat.add_assoc]
      exact H.free _ (by omega)
    · rw [hbr, hne]
      have := H.link
      rw [hmul] at this
      rw [show nb + c.isize + m * c.isize = s.hdr.nextEmpty + (m * c.isize + c.isize) by simp only [nb]; omega]
      exact this
    · intro x hx'
      rw [htot]
      have := H.len x hx'
      show (G.chain x).length + 1 ≤ _
      omega
    · intro i hi'
      exact H.free i (by omega)
    · rw [hfs']; omega
    · show s2.hdr.numberRecords = _; rw [hs2h]
    · show s2.hdr.catSequence = _; rw [hs2h]

/-- A new bin does not touch records. -/
theorem zbinNew_keep {G : Ghost} {s : Eng} {hx ax : Nat} (hi0 : 0 < c.isize) (I : InvW c G s.disk hx ax) (hh : hx < c.maxHash) (H : InvH c G s.hdr) (tb cur : Nat)
    (htb : tb ≠ 0 → G.chain hx ≠ [] ∧ cur = lastAddr (G.chain hx)) {x h a : Nat} (hx' : G.own x = .rcd h a) :
    (zbinNew c s tb cur).1.disk x = s.disk x := by
  have hlink : tb ≠ 0 → x ≠ cur + c.isize - 1 := by
    intro ht e
    obtain ⟨hne, hcur⟩ := htb ht
    obtain ⟨es, hes⟩ := lastAddr_mem hne
    have := (I.chains hx hh).bins _ hes (c.isize - 1) (by omega)
    rw [show (lastAddr (G.chain hx), es).1 + (c.isize - 1) = x by simp only; omega, hx'] at this
    cases this
  have hlt : x < s.hdr.fileSize := by
    apply Decidable.byContradiction
    intro hn
    rw [H.beyond x (by omega)] at hx'; cases hx'
  unfold zbinNew
  simp only
  split
  · next hr =>
    have hl : x ≠ s.hdr.nextEmpty := by
      intro e
      have := H.link
      rw [hr] at this
      simp only [Nat.zero_mul, Nat.add_zero] at this
      rw [← e, hx'] at this; cases this
    simp only [Eng.getFileSpace, Eng.writeEOF]
    by_cases ht : tb = 0
    · simp only [ht, ne_eq, not_true_eq_false, if_false, put_disk, put_hdr]
      rw [apply_out (by simp only; omega), apply_out (by simp only; omega), apply_out (by simp only; omega)]
    · have := hlink ht
      simp only [ht, ne_eq, not_false_eq_true, if_true, put_disk, put_hdr]
      rw [apply_out (by simp only; omega), apply_out (by simp only; omega), apply_out (by simp only; omega), apply_out (by simp only; omega)]
  · by_cases ht : tb = 0
    · simp only [ht, ne_eq, not_true_eq_false, if_false]
    · have := hlink ht
      simp only [ht, ne_eq, not_false_eq_true, if_true, put_disk, put_hdr]
      rw [apply_out (by simp only; omega)]

/-- What placing the entry of a new record leaves. -/
structure Placed (c : Cfg) (p : Bytes) (G0 : Ghost) (s0 : Eng) (hx a0 : Nat) (G : Ghost) (s : Eng) (e : BinEnt)
    (G' : Ghost) (s' : Eng) : Prop where
  st : St c p G0 s0 hx a0 G' s' e.infoAdd
  hdr : InvH c G' s'.hdr
  last : G'.last hx = 0
  room : G'.room = G.room
  own : ∀ x, G.own x ≠ .none → G.own x ≠ .free → G'.own x = G.own x
  keep : ∀ x h a, G.own x = .rcd h a → s'.disk x = s.disk x
  size : s.hdr.fileSize ≤ s'.hdr.fileSize
  recs : s'.hdr.numberRecords = s.hdr.numberRecords
  ents : ∃ A B o, centries (G.chain hx) = A ++ o ++ B ∧ centries (G'.chain hx) = A ++ e :: B ∧
    (∀ x ∈ o, dead x) ∧ o.length ≤ 1 ∧ (∀ x ∈ A, Same p x.path → gone x)

/-- Conditions on the new entry. -/
structure NewEntry (c : Cfg) (p : Bytes) (hx : Nat) (G : Ghost) (e : BinEnt) : Prop where
  path : e.path = p
  st : e.st = REC_STATUS_PRIMARY
  hash : c.tHash p = hx
  pos : 0 < p.length
  len : p.length ≤ 392
  rcd : Owned G.own hx (G.room e.infoAdd) e
  fresh : ∀ f ∈ centries (G.chain hx), ¬ gone f → f.infoAdd ≠ e.infoAdd
  dead : ∀ f ∈ centries (G.chain hx), Same p f.path → dead f

theorem NewEntry.ok {G : Ghost} {e : BinEnt} (n : NewEntry c p hx G e) : EntryOK c hx e := by
  refine ⟨by rw [n.path]; exact n.hash, by rw [n.path]; exact n.pos, by rw [n.path]; exact n.len, Or.inl (Or.inr n.st)⟩

theorem NewEntry.size {G : Ghost} {e : BinEnt} (hc : c.OK) (n : NewEntry c p hx G e) : e.size + 1 < c.isize := by
  have := hc.isize
  have := n.len
  simp only [BinEnt.size, n.path, nLongsB]
  omega

/-- The entry goes into the free bin `nb`, to which the chain already points. -/
theorem place_bin (hc : c.OK) (I0 : InvW c G0 s0.disk hx 0) (hh : hx < c.maxHash) {G : Ghost} {s : Eng}
    {e : BinEnt} {nb : Nat} (S : St c p G0 s0 hx a0 G s e.infoAdd) (F : Fresh c G s.hdr nb) (hl : G.last hx = nb)
    (n : NewEntry c p hx G e) (hG0 : G.chain hx = G0.chain hx) (hns : ∀ x ∈ centries (G.chain hx), Same p x.path → gone x)
    {bin : Nat → Nat} (hbin : ∀ i, i < c.isize → bin i = 0) :
    ∃ G', Placed c p G0 s0 hx a0 G s e G'
      (s.put nb c.isize (setEntry c bin 0 e.path e.infoAdd e.st e.typeCat e.lastWrite e.dates)) := by
  have hi := hc.isize
  have hsz := n.size hc
  let s' := s.put nb c.isize (setEntry c bin 0 e.path e.infoAdd e.st e.typeCat e.lastWrite e.dates)
  have hzero : ∀ i, i < c.isize → s.disk (nb + i) = 0 := fun i hi' => S.inv.free _ (F.bin i hi')
  have hspec := setEntry_spec (c := c) (d := s.disk) (b := nb) (ic := 0) (bin := bin) (path := e.path) (infoAdd := e.infoAdd)
    (st := e.st) (typeCat := e.typeCat) (lastWrite := e.lastWrite) (dates := e.dates)
    (fun i hi' => by rw [hbin i hi', hzero i hi']) (by simp only [BinEnt.size] at hsz; omega)
  obtain ⟨hat, hd⟩ := hspec
  rw [Nat.add_zero] at hat
  simp only [Nat.add_zero] at hd
  have hinv := S.inv.newBin hc hh (d' := s'.disk) (ax' := e.infoAdd) (e' := e) hl F.bin (by omega) F.spare (by omega) hat ?_ ?_ n.ok (fun _ => n.rcd) (fun f hf hg _ => n.fresh f hf hg)
    (fun f hf hg hs => absurd (hns f hf (by rw [← n.path]; exact hs.symm)) hg) (fun _ h => absurd rfl h) (Or.inl rfl)
  rotate_left
  · intro i h1 h2
    rcases hd (nb + i) with h | h
    · exact h.trans (hzero i h2)
    · simp only [BinEnt.size] at h1; omega
  · intro x
    rcases hd x with h | h
    · exact Or.inl h
    · exact Or.inr (by simp only [BinEnt.size] at hsz; omega)
  have hspare : Spares c { G with own := (fun x => if nb ≤ x ∧ x < nb + c.isize then .bin hx nb else G.own x), chain := (fun h => if h = hx then G.chain hx ++ [(nb, [e])] else G.chain h), last := (fun h => if h = hx then 0 else G.last h) } s.hdr.nextEmpty s.hdr.binsRemain := by
    obtain ⟨bs, lb, kk, h1, h2, h3⟩ := F.spare.lastB
    refine ⟨F.spare.tail, fun x hx' => ?_, bs, lb, kk + 1, h1, by rw [F.next, h2, Nat.add_mul]; omega, by omega⟩
    simp only at hx'
    split at hx'
    · cases hx'
    · have := F.spare.used x hx'
      rw [Nat.add_mul] at this
      rw [F.next]; omega
  have hnoR : ∀ x h a, G.own x = .rcd h a → ¬ (nb ≤ x ∧ x < nb + c.isize) := by
    intro x h a hx' hin
    have := F.bin (x - nb) (by omega)
    rw [show nb + (x - nb) = x by omega, hx'] at this
    cases this
  refine ⟨_, ⟨S.step hc I0 hinv ?_ (fun _ _ _ => rfl) ?_ ?_ ?_ S.near.fresh, ⟨?_, ?_, ?_, ?_, hspare⟩, by simp, rfl, ?_, fun x h a hx' => apply_out (hnoR x h a hx'), by simp, rfl, ?_⟩⟩
  · intro x h a hx'
    simp only [if_neg (hnoR x h a hx')]
    exact hx'
  · intro h hne
    simp [hne]
  · intro i hi' h b hb
    exact absurd (And.intro (by omega) (by omega)) (hnoR _ _ _ hb)
  · simp only [if_true]
    refine ⟨by rw [hG0]; simp, centries (G0.chain hx), [], [], [e], by simp, by simp [hG0], by simp, ?_⟩
    intro x hx'
    simp at hx'
    rw [hx', n.path]; rfl
  · intro x hx'
    have h1 := F.beyond x hx'
    simp only
    rw [if_neg]
    · exact h1
    · intro hin
      have := F.bin (x - nb) (by omega)
      rw [show nb + (x - nb) = x by omega, h1] at this
      cases this
  · intro i hi'
    have hi' : i < s.hdr.binsRemain * c.isize := hi'
    refine Eq.trans (if_neg ?_) (F.free i hi')
    show ¬ (nb ≤ s.hdr.nextEmpty + i ∧ s.hdr.nextEmpty + i < nb + c.isize)
    have := F.next; omega
  · refine Eq.trans (if_neg ?_) F.link
    show ¬ (nb ≤ s.hdr.nextEmpty + s.hdr.binsRemain * c.isize ∧ s.hdr.nextEmpty + s.hdr.binsRemain * c.isize < nb + c.isize)
    have := F.next; omega
  · intro x hx'
    simp only [put_hdr]
    have := F.len x hx'
    split
    · next h => subst h; simp; exact this
    · omega
  · intro x h1 h2
    simp only
    rw [if_neg]
    intro hin
    have := F.bin (x - nb) (by omega)
    rw [show nb + (x - nb) = x by omega] at this
    exact h2 this
  · exact ⟨centries (G.chain hx), [], [], by simp, by simp, by simp, by simp, hns⟩

/-- The first element with a property. -/
theorem first_split {α : Type} {P : α → Prop} [DecidablePred P] {l : List α} (h : ∃ z ∈ l, P z) :
    ∃ pre x post, l = pre ++ x :: post ∧ P x ∧ ∀ y ∈ pre, ¬ P y := by
  induction l with
  | nil => obtain ⟨y, hy, _⟩ := h; simp at hy
  | cons y l ih =>
    by_cases hy : P y
    · exact ⟨[], y, l, rfl, hy, by simp⟩
    · obtain ⟨z, hz, hz2⟩ := h
      have hz' : z ∈ l := by
        rcases List.mem_cons.mp hz with rfl | h
        · exact absurd hz2 hy
        · exact h
      obtain ⟨pre, x, post, h1, h2, h3⟩ := ih ⟨z, hz', hz2⟩
      refine ⟨y :: pre, x, post, by rw [h1]; rfl, h2, ?_⟩
      intro w hw'
      rcases List.mem_cons.mp hw' with rfl | h
      · exact hy
      · exact h3 w h

/-- The entry takes the place of a dead one of the same size. -/
theorem place_replace (hc : c.OK) (I0 : InvW c G0 s0.disk hx 0) (hh : hx < c.maxHash) {G : Ghost} {s : Eng}
    {e : BinEnt} (S : St c p G0 s0 hx a0 G s e.infoAdd) (H : InvH c G s.hdr) (hl : G.last hx = 0)
    (n : NewEntry c p hx G e) (hG0 : G.chain hx = G0.chain hx) {C1 C2 : Chain} {b : Nat} {pre post : List BinEnt} {x : BinEnt}
    (hC : G.chain hx = C1 ++ (b, pre ++ x :: post) :: C2) (hxd : dead x) (hxz : nLongsB x.path.length = nLongsB p.length)
    (hnsA : ∀ y ∈ centries C1 ++ pre, Same p y.path → gone y) :
    ∃ G', Placed c p G0 s0 hx a0 G s e G'
      (s.put b c.isize (setEntry c (fun i => s.disk (b + i)) (esize pre) p e.infoAdd e.st e.typeCat e.lastWrite e.dates)) := by
  have hi := hc.isize
  have hsz := n.size hc
  have K := S.inv.chains hx hh
  rw [if_pos rfl] at K
  have hat := K.at_
  rw [hC] at hat K
  obtain ⟨hbin, _⟩ := ChainAt_bin C1 hat
  have hfit := hbin.fits
  simp only [esize_append, esize] at hfit
  have hxs : x.size = 7 + nLongsB p.length := by simp only [BinEnt.size, hxz]
  have hes : e.size = x.size := by simp only [BinEnt.size, n.path, hxz]
  have hspec := setEntry_spec (c := c) (d := s.disk) (b := b) (ic := esize pre) (bin := fun i => s.disk (b + i)) (path := e.path)
    (infoAdd := e.infoAdd) (st := e.st) (typeCat := e.typeCat) (lastWrite := e.lastWrite) (dates := e.dates)
    (fun i hi' => rfl) (by rw [n.path]; omega)
  obtain ⟨hat', hd⟩ := hspec
  have hsub : ∀ f, f ∈ (centries C1 ++ pre) ++ (post ++ centries C2) → f ∈ centries (G.chain hx) := by
    intro f hf
    rw [hC]
    simp only [centries_append, centries_cons, List.mem_append, List.mem_cons] at hf ⊢
    rcases hf with (h | h) | (h | h) <;> simp [h]
  have hinv := S.inv.replace hc hh (ax' := e.infoAdd) (e' := e) hC hes hat' (by rw [← hes]; simpa only [BinEnt.size] using hd) n.ok (fun _ => n.rcd)
      (fun f hf hg _ => n.fresh f (hsub f hf) hg)
      (fun f hf hg hs => absurd (hnsA f hf (by rw [← n.path]; exact hs.symm)) hg)
      (fun f hf _ hs => n.dead f (hsub f (by simp only [List.mem_append] at hf ⊢; exact Or.inr hf)) (by rw [← n.path]; exact hs)) (fun _ h => absurd rfl h) (Or.inl rfl)
  have hst := S.step hc I0 hinv (fun _ _ _ h => h) (fun _ _ _ => rfl) ?_ ?_ ?_ S.near.fresh
  rotate_left
  · intro h hne'; simp [hne']
  · intro i hi' h b' hb
    have := K.bins (b, pre ++ x :: post) (by simp) i hi'
    rw [hb] at this; cases this
  · simp only [if_true]
    refine ⟨by rw [← hG0, hC]; simp, centries C1 ++ pre, post ++ centries C2, [x], [e], by rw [← hG0, hC]; simp, by simp, ?_, ?_⟩
    · intro y hy; simp at hy; rw [hy]; exact Or.inr hxd
    · intro y hy
      simp at hy
      rw [hy, n.path]; rfl
  rw [n.path] at hst
  have hkeep : ∀ f : Nat → Nat, ∀ y h a, G.own y = .rcd h a → (s.put b c.isize f).disk y = s.disk y := by
    intro f y h a hy
    rw [put_disk]
    apply apply_out
    rintro ⟨h1, h2⟩
    simp only at h1 h2
    have := K.bins (b, pre ++ x :: post) (by simp) (y - b) (by omega)
    simp only at this
    rw [show b + (y - b) = y by omega, hy] at this; cases this
  refine ⟨_, ⟨hst, ⟨H.beyond, H.free, H.link, ?_, ⟨H.spare.tail, H.spare.used, H.spare.lastB⟩⟩, ?_, rfl, fun x _ _ => rfl, hkeep _, ?_, ?_, ?_⟩⟩
  · intro x hx'
    have := H.len x hx'
    simp only [put_hdr]
    split
    · next h => subst h; rw [hC] at this; simpa using this
    · exact this
  · simp [hl]
  · simp
  · rfl
  · exact ⟨centries C1 ++ pre, post ++ centries C2, [x], by rw [hC]; simp, by simp, by intro y hy; simp at hy; rw [hy]; exact hxd, by simp, hnsA⟩

theorem zbinUpdate_ok (hc : c.OK) (I0 : InvW c G0 s0.disk hx 0) (hh : hx < c.maxHash) {G : Ghost} {s : Eng}
    {e : BinEnt} (S : St c p G0 s0 hx a0 G s e.infoAdd) (H : InvH c G s.hdr) (hl : G.last hx = 0)
    (n : NewEntry c p hx G e) (hG0 : G.chain hx = G0.chain hx) (hne : G.chain hx ≠ [])
    (hG : ∀ f ∈ centries (G.chain hx), Spare p f → nLongsB f.path.length = nLongsB p.length)
    (k : Chk) (hk1 : k.hashTableBinAdd ≠ 0) (hk2 : k.binAddCurrent = lastAddr (G.chain hx))
    (hk3 : k.binWithSpace = wsC p 0 (G.chain hx)) :
    ∃ G' s', zbinUpdate c s k p e.infoAdd e.st e.typeCat e.lastWrite e.dates = some s' ∧ Placed c p G0 s0 hx a0 G s e G' s' := by
  have hi := hc.isize
  have hsz := n.size hc
  have hszp : 7 + nLongsB p.length + 1 < c.isize := by simp only [BinEnt.size, n.path] at hsz; exact hsz
  have K := S.inv.chains hx hh
  rw [if_pos rfl] at K
  have hat := K.at_
  have hsame : ∀ f ∈ centries (G.chain hx), Same p f.path → ¬ Spare p f → gone f := by
    intro f hf hs hsp
    rcases n.dead f hf hs with h | h
    · exact absurd ⟨h, by rw [hs.length]; exact Nat.le_refl _⟩ hsp
    · exact h
  have hb0 : ∀ be ∈ G.chain hx, be.1 ≠ 0 := by
    intro be hbe
    obtain ⟨C1, C2, hC⟩ := List.append_of_mem hbe
    rw [hC] at hat
    exact (ChainAt_bin C1 hat).2
  unfold zbinUpdate
  rcases wsC_spec p (G.chain hx) hb0 with ⟨hw, hno⟩ | ⟨C1, b, es, C2, hC, hw, hno, hsp⟩
  · -- no recovered space: the last bin
    rw [hk3, hw]
    have hlb : lastBin c s.disk (s.hdr.totalBins + 1) k.binAddCurrent = some (lastAddr (G.chain hx)) := by
      unfold lastBin
      rw [hk2, if_neg]
      rw [ChainAt_last _ hne hat, hl]; simp
    simp only [show decide ((0:Nat) > 0) = false from rfl, hlb, Option.bind_some, Bool.false_eq_true, if_false]
    obtain ⟨C1, es, hC⟩ := chain_snoc hne
    have hns : ∀ x ∈ centries (G.chain hx), Same p x.path → gone x := fun x hx' hs => hsame x hx' hs (hno x hx')
    generalize hLB : lastAddr (G.chain hx) = lb at *
    rw [hC] at hat K
    obtain ⟨hbin, hlb0⟩ := ChainAt_bin C1 hat
    have hfit := hbin.fits
    by_cases hown : ∃ z ∈ es, Same p z.path
    · -- the last bin has a renamed entry of this pathname
      obtain ⟨pre, x, post, rfl, hx1, hx2⟩ := first_split hown
      have hslot : findSlot c p false (fun i => s.disk (lb + i)) c.isize 0 = some (esize pre) := by
        have := findSlot_own hc (path := p) (b := lb) hx1 pre (fuel := c.isize) (ic := 0) (post := post) (by simpa using hbin.entries)
          (fun y hy => K.ok y (by simp only [centries_append, centries_cons, List.mem_append]; exact Or.inr (Or.inl (by simpa using hy)))) (by omega)
          (by have := length_lt_isize hc hbin; simp at this; omega) hx2
        simpa using this
      rw [hslot, Option.map_some]
      have hxz : nLongsB x.path.length = nLongsB p.length := by rw [hx1.length]
      simp only [esize_append, esize] at hfit
      have hxs : x.size = 7 + nLongsB p.length := by simp only [BinEnt.size, hxz]
      rw [if_neg (by omega)]
      obtain ⟨G', P⟩ := place_replace hc I0 hh S H hl n hG0 hC (Or.inr (hns x (by rw [hC]; simp) hx1)) hxz
        (fun y hy hs => hns y (by rw [hC]; simp only [centries_append, centries_cons, List.mem_append] at hy ⊢; rcases hy with h | h <;> simp [h]) hs)
      exact ⟨G', _, rfl, P⟩
    have hno' : ∀ x ∈ es, ¬ Same p x.path := fun x hx' hs => hown ⟨x, hx', hs⟩
    clear hown
    have hslot : findSlot c p false (fun i => s.disk (lb + i)) c.isize 0 = some (esize es) := by
      have := findSlot_end hc (path := p) (b := lb) es (fuel := c.isize) (ic := 0) (by simpa using hbin.entries)
        (fun x hx' => K.ok x (by simp [hx'])) (by omega) (hbin.zero _ (by omega) (by omega)) (length_lt_isize hc hbin)
        hno'
      simpa using this
    rw [hslot, Option.map_some]
    split
    · -- a new bin
      next hbig =>
      obtain ⟨G1, S1, F1, hch, hlast, hroom, hown, hfs, hnr, hcs⟩ := zbinNew_ok hc I0 hh S H k.hashTableBinAdd lb (fun _ => ⟨hne, hLB.symm⟩)
      have n1 : NewEntry c p hx G1 e := by
        refine ⟨n.path, n.st, n.hash, n.pos, n.len, ?_, by rw [hch]; exact n.fresh, by rw [hch]; exact n.dead⟩
        rw [hroom]
        refine ⟨fun y hy => ?_, n.rcd.apart⟩
        rw [hown _ (by rw [n.rcd.mine y hy]; intro h; cases h)]
        exact n.rcd.mine y hy
      obtain ⟨G2, P⟩ := place_bin hc I0 hh S1 F1 (by rw [hlast, if_pos ⟨hk1, rfl⟩]) n1 (by rw [hch]; exact hG0)
        (by rw [hch]; exact hns) (bin := fun _ => 0) (fun _ _ => rfl)
      rw [n.path] at P
      refine ⟨G2, _, rfl, ⟨P.st, P.hdr, P.last, P.room.trans hroom, ?_, fun x h a hx' => ?_, ?_, ?_, ?_⟩⟩
      rotate_left
      · rw [P.keep x h a (by rw [hown x (by rw [hx']; intro h; cases h)]; exact hx')]
        exact zbinNew_keep (by omega) S.inv hh H _ _ (fun _ => ⟨hne, hLB.symm⟩) hx'
      rotate_right
      · intro x h1 h2
        have := hown x h1
        rw [P.own x (by rw [this]; exact h1) (by rw [this]; exact h2), this]
      · exact Nat.le_trans hfs P.size
      · exact P.recs.trans hnr
      · have := P.ents
        rw [hch] at this
        exact this
    · -- room in the last bin
      next hsm =>
      have hspec := setEntry_spec (c := c) (d := s.disk) (b := lb) (ic := esize es) (bin := fun i => s.disk (lb + i)) (path := e.path)
        (infoAdd := e.infoAdd) (st := e.st) (typeCat := e.typeCat) (lastWrite := e.lastWrite) (dates := e.dates)
        (fun i hi' => rfl) (by rw [n.path]; omega)
      obtain ⟨hat', hd⟩ := hspec
      have hinv := S.inv.append hc hh (ax' := e.infoAdd) (e' := e) hC (by simp only [BinEnt.size, n.path]; omega) hat' (by simpa only [BinEnt.size] using hd) n.ok (fun _ => n.rcd)
        (fun f hf hg _ => n.fresh f (by rw [hC]; simpa using hf) hg)
        (fun f hf hg hs => absurd (hns f (by rw [hC]; simpa using hf) (by rw [← n.path]; exact hs.symm)) hg)
        (by simp) (fun _ h => absurd rfl h) (Or.inl rfl)
      have hst := S.step hc I0 hinv (fun _ _ _ h => h) (fun _ _ _ => rfl) ?_ ?_ ?_ S.near.fresh
      rotate_left
      · intro h hne'; simp [hne']
      · intro i hi' h b hb
        have := K.bins (lb, es) (by simp) i hi'
        rw [hb] at this; cases this
      · simp only [if_true]
        refine ⟨by rw [← hG0, hC]; simp, centries C1 ++ es, [], [], [e], by rw [← hG0, hC]; simp, by simp, by simp, ?_⟩
        intro x hx'
        simp at hx'
        rw [hx', n.path]; rfl
      rw [n.path] at hst
      have hkeep : ∀ f : Nat → Nat, ∀ y h a, G.own y = .rcd h a → (s.put lb c.isize f).disk y = s.disk y := by
        intro f y h a hy
        rw [put_disk]
        apply apply_out
        rintro ⟨h1, h2⟩
        simp only at h1 h2
        have := K.bins (lb, es) (by simp) (y - lb) (by omega)
        simp only at this
        rw [show lb + (y - lb) = y by omega, hy] at this; cases this
      refine ⟨_, _, rfl, ⟨hst, ⟨H.beyond, H.free, H.link, ?_, ⟨H.spare.tail, H.spare.used, H.spare.lastB⟩⟩, ?_, rfl, fun x _ _ => rfl, hkeep _, ?_, ?_, ?_⟩⟩
      · intro x hx'
        have := H.len x hx'
        simp only [put_hdr]
        split
        · next h => subst h; rw [hC] at this; simpa using this
        · exact this
      · simp [hl]
      · simp
      · rfl
      · refine ⟨centries C1 ++ es, [], [], by rw [hC]; simp, by simp, by simp, by simp, ?_⟩
        intro x hx'
        exact hns x (by rw [hC]; simpa using hx')
  · -- a dead entry of the same size
    have hbne : b ≠ 0 := hb0 (b, es) (by rw [hC]; simp)
    rw [hk3, hw]
    have hdec : decide (b > 0) = true := by simp; omega
    simp only [hdec, if_true, Option.bind_some]
    rw [hC] at hat K
    obtain ⟨hbin, _⟩ := ChainAt_bin C1 hat
    -- the first dead entry of this size
    have hsp' : ∃ z ∈ es, dead z ∧ nLongsB z.path.length = nLongsB p.length := by
      obtain ⟨z, hz, hz2⟩ := hsp
      exact ⟨z, hz, Or.inl hz2.1, hG z (by rw [hC]; simp [hz]) hz2⟩
    obtain ⟨pre, x, post, rfl, ⟨hx1, hxz⟩, hx2⟩ := first_split hsp'
    have hmem : ∀ y, y ∈ pre ++ x :: post → y ∈ centries (G.chain hx) := by
      intro y hy; rw [hC]; simp only [centries_append, centries_cons, List.mem_append]
      exact Or.inr (Or.inl (by simpa using hy))
    have hfit := hbin.fits
    have hslot : findSlot c p true (fun i => s.disk (b + i)) c.isize 0 = some (esize pre) := by
      have := findSlot_reuse hc (path := p) (b := b) hx1 hxz pre (fuel := c.isize) (ic := 0) (post := post) (by simpa using hbin.entries)
        (fun y hy => K.ok y (by simp only [centries_append, centries_cons, List.mem_append]; exact Or.inr (Or.inl (by simpa using hy)))) (by omega)
        (by have := length_lt_isize hc hbin; simp at this; omega)
        (fun y hy hs => hx2 y hy ⟨n.dead y (hmem y (by simp [hy])) hs, by rw [hs.length]⟩) hx2
      simpa using this
    rw [hslot, Option.map_some]
    simp only [esize_append, esize] at hfit
    have hxs : x.size = 7 + nLongsB p.length := by simp only [BinEnt.size, hxz]
    rw [if_neg (by omega)]
    have hnsA : ∀ y ∈ centries C1 ++ pre, Same p y.path → gone y := by
      intro y hy hs
      rcases List.mem_append.mp hy with h | h
      · exact hsame y (by rw [hC]; simp [h]) hs (hno y h)
      · exact absurd ⟨n.dead y (hmem y (by simp [h])) hs, by rw [hs.length]⟩ (hx2 y h)
    obtain ⟨G', P⟩ := place_replace hc I0 hh S H hl n hG0 hC hx1 hxz hnsA
    exact ⟨G', _, rfl, P⟩

end Hec
