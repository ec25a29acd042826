import Verif.Model.Check
import Verif.Spec.Check
import Verif.Spec.Copy
import Verif.Props.Catalog
import Verif.Proofs.PairedPart
import Verif.Proofs.EngineCopy4
/-! The check of a file (C73): the four parts of zcheckFile. -/
namespace Hec
set_option linter.unusedSimpArgs false
set_option linter.unusedVariables false
open _root_.Spec (Op Reachable GoodSizes create runs compatible Sound AllSound NoLookAlikes NoUndelete Allowed AllAllowed
  SoundCall Store Step Steps stored Set renamed join keepDates)

/-! ### The lists of pathnames -/

theorem validPaths_eq (c : Cfg) (b : Nat) (bin : Nat → Nat) : ∀ fuel ic,
    validPaths c bin fuel ic = (catEntries c everything b bin fuel ic).map (·.path) := by
  intro fuel
  induction fuel with
  | zero => intro ic; rfl
  | succ f ih =>
    intro ic
    unfold validPaths catEntries
    by_cases h0 : bin ic = 0
    · simp only [h0, if_true, List.map_nil]
    · have hr : ∀ r, rowFound everything r = true := fun r => by simp [rowFound, everything, timeFound]
      simp only [h0, if_false, hr, and_true]
      have hs : everything.statusWanted = REC_STATUS_VALID := rfl
      rw [hs]
      split
      · split <;> simp [ih]
      · split <;> simp [ih]

theorem validPaths_zero {c : Cfg} {bin : Nat → Nat} (h : bin 0 = 0) (f : Nat) : validPaths c bin f 0 = [] := by
  cases f with
  | zero => rfl
  | succ f => unfold validPaths; rw [if_pos h]

variable {c : Cfg} {G : Ghost} {s : Eng}

/-- Behind a free bin of a block all are free. -/
theorem free_bins (hc : c.OK) {d : Disk} {hx ax : Nat} (I : InvW c G d hx ax) {k : Nat} (hk : k ∈ G.blocks) {y : Nat} (hy : G.own y = .free) : ∀ (n a : Nat),
    n ≤ c.binsPerBlock → a = k + (c.binsPerBlock - n) * c.isize → y ≤ a → blockPaths c d n a = [] := by
  have hi := hc.isize
  intro n
  induction n with
  | zero => intro a _ _ _; rfl
  | succ n ih =>
    intro a hn ha hle
    have hnext : a + c.isize = k + (c.binsPerBlock - n) * c.isize := by
      rw [ha, show c.binsPerBlock - n = (c.binsPerBlock - (n + 1)) + 1 by omega, Nat.add_mul]; omega
    unfold blockPaths
    rw [ih (a + c.isize) (by omega) hnext (by omega), List.append_nil]
    apply validPaths_zero
    rw [Nat.add_zero]
    rcases I.blk.slots k hk (c.binsPerBlock - (n + 1)) (by omega) with hf | ⟨h, hb⟩
    · rw [← ha] at hf; exact I.free a hf
    · rw [← ha] at hb
      have := I.blk.ord y a h a hy hb
      omega

theorem blockPaths_eq (hc : c.OK) {d : Disk} {hx ax : Nat} (I : InvW c G d hx ax) {k : Nat} (hk : k ∈ G.blocks) : ∀ (n a : Nat),
    n ≤ c.binsPerBlock → a = k + (c.binsPerBlock - n) * c.isize → blockPaths c d n a = (catBins c everything d n a).1.map (·.path) := by
  have hi := hc.isize
  intro n
  induction n with
  | zero => intro a _ _; rfl
  | succ n ih =>
    intro a hn ha
    have hnext : a + c.isize = k + (c.binsPerBlock - n) * c.isize := by
      rw [ha, show c.binsPerBlock - n = (c.binsPerBlock - (n + 1)) + 1 by omega, Nat.add_mul]; omega
    rcases I.blk.slots k hk (c.binsPerBlock - (n + 1)) (by omega) with hf | ⟨h, hb⟩
    · rw [← ha] at hf
      rw [free_bins hc I hk hf (n + 1) a hn ha (Nat.le_refl _)]
      unfold catBins
      rw [if_pos (I.free a hf)]
      rfl
    · rw [← ha] at hb
      obtain ⟨_, es, _, hne, hat, _⟩ := bin_of_slot hc I hb
      have hd0 : d a ≠ 0 := by
        cases es with
        | nil => exact absurd rfl hne
        | cons e es => rw [hat.entries.1.1]; exact hc.pHash_ne _
      unfold blockPaths catBins
      rw [if_neg hd0, ih (a + c.isize) (by omega) hnext, validPaths_eq c a, List.map_append]

/-- The check of the pathnames walks over the bins of the catalog. -/
theorem filePaths_eq (hc : c.OK) {d : Disk} {hx ax : Nat} (I : InvW c G d hx ax) (ht : G.tail = 0)
    (hsp : ∀ pre k k2 post, G.blocks = pre ++ k :: k2 :: post → ∀ x, G.own x = .free → k2 ≤ x) (post : List Nat) : ∀ (pre : List Nat) (k fuel : Nat),
    G.blocks = pre ++ k :: post → post.length < fuel →
    filePaths c d fuel k = (catBlocks c everything d fuel k).map (·.map (·.path)) := by
  have hi := hc.isize
  induction post with
  | nil =>
    intro pre k fuel hb hf
    obtain ⟨f, rfl⟩ : ∃ f, fuel = f + 1 := ⟨fuel - 1, by simp at hf; omega⟩
    have hk : k ∈ G.blocks := by rw [hb]; simp
    obtain ⟨L, hL1, hL2, hL3, hL4, hL5⟩ := catBins_ok hc I (q := everything) hk c.binsPerBlock k (by omega) (by simp)
    have hl : d (k + c.binsPerBlock * c.isize) = 0 := by rw [I.blk.links pre k [] hb]; simpa using ht
    have h0 : d (catBins c everything d c.binsPerBlock k).2 = 0 := by
      rcases hL5 with h | ⟨h, _⟩
      · rw [h]; exact hl
      · exact I.free _ h
    unfold filePaths catBlocks
    simp only [h0, hl, if_true, Option.map_some]
    rw [blockPaths_eq hc I hk c.binsPerBlock k (by omega) (by simp)]
  | cons k2 post ih =>
    intro pre k fuel hb hf
    obtain ⟨f, rfl⟩ : ∃ f, fuel = f + 1 := ⟨fuel - 1, by simp at hf; omega⟩
    have hk : k ∈ G.blocks := by rw [hb]; simp
    have hs := I.blk.sorted
    rw [hb, List.pairwise_append] at hs
    have hkk2 := (List.pairwise_cons.mp hs.2.1).1 k2 (by simp)
    obtain ⟨L, hL1, hL2, hL3, hL4, hL5⟩ := catBins_ok hc I (q := everything) hk c.binsPerBlock k (by omega) (by simp)
    have h5 : (catBins c everything d c.binsPerBlock k).2 = k + c.binsPerBlock * c.isize := by
      rcases hL5 with h | ⟨h, h2⟩
      · exact h
      · have := hsp pre k k2 post hb _ h; omega
    have hl : d (k + c.binsPerBlock * c.isize) = k2 := by rw [I.blk.links pre k (k2 :: post) hb]; rfl
    unfold filePaths catBlocks
    simp only [h5, hl]
    rw [if_neg (by omega), if_neg (by omega), ih (pre ++ [k]) k2 f (by rw [hb]; simp) (by simp at hf; omega),
      blockPaths_eq hc I hk c.binsPerBlock k (by omega) (by simp)]
    cases catBlocks c everything d f k2 with
    | none => rfl
    | some L => simp

theorem last_block (hc : c.OK) (I : Inv c G s) : ∀ pre k k2 post, G.blocks = pre ++ k :: k2 :: post → ∀ x, G.own x = .free → k2 ≤ x := by
  intro pre k k2 post hb x hx
  obtain ⟨bs, lb, j, h1, h2, h3⟩ := I.h.spare.lastB
  have := (I.h.spare.used x hx).1
  have hs := I.w.blk.sorted
  have hmem : k2 ∈ bs ++ [lb] := by rw [← h1, hb]; simp
  rw [h1, List.pairwise_append] at hs
  rcases List.mem_append.mp hmem with h | h
  · have := hs.2.2 k2 h lb (by simp)
    omega
  · simp at h; omega

/-- All pathnames of the bins that stand for records. -/
theorem all_paths (hc : c.OK) (I : Inv c G s) : ∃ es : List BinEnt, filePaths c s.disk (s.hdr.fileSize + 1) c.firstBin = some (es.map (·.path)) ∧
    es.length = liveCount c G ∧ ∀ e ∈ es, live e ∧ c.tHash e.path < c.maxHash ∧ e ∈ centries (G.chain (c.tHash e.path)) := by
  have hi := hc.isize
  obtain ⟨L, h1, h2, h3, h4⟩ := walk_all hc I
  have hL : ∀ p ∈ binsPlaced L, EntryOK c (c.tHash p.1.path) p.1 := fun p hp => (entry_of_mem hc I h2 (e := p.1) (y := p.2) hp).2.2
  refine ⟨((binsPlaced L).filter fun p => decide (live p.1)).map (·.1), ?_, ?_, ?_⟩
  · have hh := I.w.blk.head
    cases hb : G.blocks with
    | nil => rw [hb] at hh; cases hh
    | cons k post =>
      rw [hb] at hh
      have hk : k = c.firstBin := by simpa using hh
      have hs := I.w.blk.sorted
      rw [hb, List.pairwise_cons] at hs
      have hlt : ∀ x ∈ G.blocks, x < s.hdr.fileSize := by
        intro x hx
        apply Decidable.byContradiction
        intro hge
        have h1 := I.w.blk.own x hx
        rw [I.h.beyond _ (by omega)] at h1
        cases h1
      have hlen : post.length ≤ s.hdr.fileSize - 0 := by
        refine increasing_length post 0 _ (fun x hx => ⟨by omega, hlt x (by rw [hb]; simp [hx])⟩) ?_
        exact hs.2.imp (fun h => by omega)
      have := filePaths_eq hc I.w I.h.spare.tail (last_block hc I) post [] k (s.hdr.fileSize + 1) (by rw [hb]; rfl) (by omega)
      rw [← hk, this, hk, h1, Option.map_some, rowsOf_valid hL rfl]
      have hr : ∀ r, rowFound everything r = true := fun r => by simp [rowFound, everything, timeFound]
      rw [List.filter_eq_self.mpr (fun a _ => hr a), List.map_map, List.map_map]
      rfl
  · rw [List.length_map]
    exact rows_count h2 h3 h4 I (by omega)
  · intro e he
    obtain ⟨⟨e', y⟩, hp, rfl⟩ := List.mem_map.mp he
    have := List.mem_filter.mp hp
    have h5 := entry_of_mem hc I h2 this.1
    exact ⟨by simpa using this.2, h5.1, h5.2.1⟩

/-- The pathnames in a chain. -/
theorem chain_paths (hc : c.OK) {d : Disk} {h : Nat} (C : Chain) : ∀ {a fuel : Nat}, ChainAt c d a C 0 → (∀ e ∈ centries C, EntryOK c h e) →
    C.length < fuel → ∃ es : List BinEnt, chainPaths c d fuel a = some (es.map (·.path)) ∧ ∀ e ∈ es, live e ∧ e ∈ centries C := by
  have hi := hc.isize
  induction C with
  | nil =>
    intro a fuel h0 _ hf
    obtain ⟨f, rfl⟩ : ∃ f, fuel = f + 1 := ⟨fuel - 1, by simp at hf; omega⟩
    refine ⟨[], ?_, by simp⟩
    unfold chainPaths
    rw [if_pos (show a = 0 from h0)]; rfl
  | cons be C ih =>
    intro a fuel h0 hok hf
    obtain ⟨f, rfl⟩ : ∃ f, fuel = f + 1 := ⟨fuel - 1, by simp at hf; omega⟩
    obtain ⟨b, es⟩ := be
    obtain ⟨rfl, hb0, hat, hrest⟩ := h0
    obtain ⟨es2, k1, k2⟩ := ih hrest (fun e he => hok e (by simp [he])) (by simp at hf; omega)
    have hfit := hat.fits
    have hents := catEntries_ok hc (q := everything) (b := a) (h := h) es (fuel := c.isize) (ic := 0) (by simpa using hat.entries) (fun e he => hok e (by simp [he])) (by omega)
          (fun _ => hat.zero _ (by omega) (by omega)) (length_lt_isize hc hat) (Or.inr (by omega))
    refine ⟨((placed (a + 0) es).filter (want everything)).map (·.1) ++ es2, ?_, ?_⟩
    · unfold chainPaths
      rw [if_neg hb0, k1, Option.map_some, validPaths_eq c a, hents, List.map_append, List.map_map, List.map_map]
      rfl
    · intro e he
      rcases List.mem_append.mp he with h1 | h1
      · obtain ⟨⟨e', y⟩, hp, rfl⟩ := List.mem_map.mp h1
        have hw := (List.mem_filter.mp hp)
        have hm := placed_mem _ hw.1
        refine ⟨?_, by simp [hm]⟩
        have hw2 := hw.2
        unfold want at hw2
        simp only [Bool.and_eq_true] at hw2
        have := entry_valid (hok e' (by simp [hm]))
        rw [show everything.statusWanted = REC_STATUS_VALID from rfl, this] at hw2
        simpa using hw2.1
      · exact ⟨(k2 e h1).1, by simp [(k2 e h1).2]⟩

/-! ### The record of an entry -/

/-- A live entry is found under its pathname. -/
theorem live_target (hc : c.OK) (I : Inv c G s) {e : BinEnt} (hh : c.tHash e.path < c.maxHash) (hem : e ∈ centries (G.chain (c.tHash e.path))) (hel : live e) :
    ∃ R, zread c s e.path = some (some R) ∧ RecIs c s.disk (G.room e.infoAdd) e R ∧ zreadInfoBlock c s e.path = some (some e.infoAdd) := by
  have K := I.w.chains _ hh
  have hok := K.ok e hem
  cases hz : (abs c G s.disk).live e.path with
  | some R =>
    obtain ⟨A, B, e', T, hm, hl, hA, hB⟩ := live_entry hc I hok.len hz
    have he : e = e' := by
      have h1 := T.ents
      rw [h1] at hem
      simp only [List.mem_append, List.mem_cons] at hem
      rcases hem with h | h | h
      · exact absurd (Or.inr (hA e h (Same.refl _))) (live_not_dead hel)
      · exact h
      · exact absurd (hB e h (Same.refl _)) (live_not_dead hel)
    subst he
    obtain ⟨k, hk, hkf, hka, _⟩ := kill_ok hc I hok.len T hm hA
    refine ⟨R, by rw [zread_abs hc I hok.len, hz], T.rcd, ?_⟩
    unfold zreadInfoBlock
    rw [hk, Option.map_some, hkf, hka]
    rfl
  | none =>
    have := dead_entries hc I hok.len hz e hem (Same.refl _)
    exact absurd this (live_not_dead hel)

theorem signed64_nat {w : Nat} (h : w < 2 ^ 63) : signed64 w = (w : Int) := by
  unfold signed64
  rw [if_pos (by omega), Nat.mod_eq_of_lt (by omega)]

theorem array_right {fs a n : Nat} (hfs : fs < 2 ^ 62) (h : a + n / 2 ≤ fs) : arrayWrong fs a n = false := by
  unfold arrayWrong
  rw [signed64_nat (show a < 2 ^ 63 by omega), signed64_nat (show n < 2 ^ 63 by omega)]
  have h3 : ((n : Int)).tdiv 2 = ((n / 2 : Nat) : Int) := rfl
  rw [h3]
  simp only [Bool.or_eq_false_iff, decide_eq_false_iff_not]
  omega

theorem half_le (n : Nat) : n / 2 ≤ nLongs n := by unfold nLongs; omega

/-- The info block of a sound record is right. -/
theorem info_right (hc : c.OK) (I : Inv c G s) {past : List Op} (H : HInv c G s past) {e : BinEnt} (hh : c.tHash e.path < c.maxHash)
    (hem : e ∈ centries (G.chain (c.tHash e.path))) (hel : live e) {R : Rec} (hR : RecIs c s.disk (G.room e.infoAdd) e R)
    (hfs : s.hdr.fileSize < 2 ^ 62) (hlen : e.path.length ≤ 391) (hS : Sound R) (grid : Bytes → Int) (hg : grid e.path = 0) :
    zcheckInfo s grid e.path (fun i => s.disk (e.infoAdd + i)) = some 0 := by
  have K := I.w.chains _ hh
  have hge := live_not_gone hel
  have hcol := K.rcd e hem hge
  have hd := H.heads _ hh e hem hge
  obtain ⟨k1, k2, k3, k4, k5, k6⟩ := hd
  have hst : s.disk (e.infoAdd + kinfoStatus) ≤ 1 := k4 hel
  have O := hR.ok
  have hE := hR.eq
  -- the room
  obtain ⟨r1, r2, r3, r4, r5, r6, r7, r8, r9, r10⟩ := O
  have hres := r9
  unfold reserved at hres
  simp only at hres
  have hfit := reserved4_fits (a := s.disk (e.infoAdd + kinfoInternalHeadNumber)) (b := s.disk (e.infoAdd + kinfoHeader2Number))
    (x := s.disk (e.infoAdd + kinfoUserHeadNumber)) (n := s.disk (e.infoAdd + kinfoAllocatedSize)) (t := s.disk (e.infoAdd + kinfoAllocatedSize) / 2) (by omega)
  -- the record as read
  have e1 : R.dataType = lowInt (s.disk (e.infoAdd + kinfoTypeVersion)) := by rw [← hE]; rfl
  have e2 : R.version = highInt (s.disk (e.infoAdd + kinfoTypeVersion)) := by rw [← hE]; rfl
  have e3 : R.numberValues = s.disk (e.infoAdd + kinfoNumberData) := by rw [← hE]; rfl
  have e4 : R.logicalNumber = s.disk (e.infoAdd + kinfoLogicalNumber) := by rw [← hE]; rfl
  have e5 : R.ih = getInts s.disk (s.disk (e.infoAdd + kinfoInternalHeadAddress)) (s.disk (e.infoAdd + kinfoInternalHeadNumber)) := by rw [← hE]; rfl
  have e6 : R.h2 = getInts s.disk (s.disk (e.infoAdd + kinfoHeader2Address)) (s.disk (e.infoAdd + kinfoHeader2Number)) := by rw [← hE]; rfl
  have e7 : R.uh = getInts s.disk (s.disk (e.infoAdd + kinfoUserHeadAddress)) (s.disk (e.infoAdd + kinfoUserHeadNumber)) := by rw [← hE]; rfl
  have e8 : R.v1 = getInts s.disk (s.disk (e.infoAdd + kinfoValues1Address)) (s.disk (e.infoAdd + kinfoValues1Number)) := by rw [← hE]; rfl
  have e9 : R.v2 = getInts s.disk (s.disk (e.infoAdd + kinfoValues2Address)) (s.disk (e.infoAdd + kinfoValues2Number)) := by rw [← hE]; rfl
  have e10 : R.v3 = getInts s.disk (s.disk (e.infoAdd + kinfoValues3Address)) (s.disk (e.infoAdd + kinfoValues3Number)) := by rw [← hE]; rfl
  have hsum : 0 < s.disk (e.infoAdd + kinfoInternalHeadNumber) + s.disk (e.infoAdd + kinfoHeader2Number) + s.disk (e.infoAdd + kinfoUserHeadNumber) +
      s.disk (e.infoAdd + kinfoValues1Number) + s.disk (e.infoAdd + kinfoValues2Number) + s.disk (e.infoAdd + kinfoValues3Number) := by
    have := List.length_pos_iff.mpr hS.data
    simp only [List.length_append, e5, e6, e7, e8, e9, e10, getInts_length] at this
    omega
  have g1 := half_le (s.disk (e.infoAdd + kinfoInternalHeadNumber))
  have g2 := half_le (s.disk (e.infoAdd + kinfoHeader2Number))
  have g3 := half_le (s.disk (e.infoAdd + kinfoUserHeadNumber))
  have g4 := half_le (s.disk (e.infoAdd + kinfoValues1Number))
  have g5 := half_le (s.disk (e.infoAdd + kinfoValues2Number))
  have g6 := half_le (s.disk (e.infoAdd + kinfoValues3Number))
  have hpos : 0 < nLongs (s.disk (e.infoAdd + kinfoInternalHeadNumber)) + nLongs (s.disk (e.infoAdd + kinfoHeader2Number)) + nLongs (s.disk (e.infoAdd + kinfoUserHeadNumber)) +
      nLongs (s.disk (e.infoAdd + kinfoValues1Number)) + nLongs (s.disk (e.infoAdd + kinfoValues2Number)) + nLongs (s.disk (e.infoAdd + kinfoValues3Number)) := by
    unfold nLongs; omega
  have hcap : 0 < (G.room e.infoAdd).cap := by omega
  have hend : (G.room e.infoAdd).dat + (G.room e.infoAdd).cap ≤ s.hdr.fileSize := by
    refine Nat.le_of_not_lt fun h => ?_
    have h1 := hcol.mine ((G.room e.infoAdd).dat + ((G.room e.infoAdd).cap - 1)) (Or.inr (by omega))
    rw [I.h.beyond _ (by omega)] at h1
    cases h1
  have hw : infoWrong s.hdr.fileSize (fun i => s.disk (e.infoAdd + i)) = false := by
    unfold infoWrong
    simp only [Bool.or_eq_false_iff, decide_eq_false_iff_not, Decidable.not_not]
    have hv := hS.values
    have hlg := hS.logical
    rw [e3] at hv
    rw [e4] at hlg
    rw [signed64_nat (w := s.disk (e.infoAdd + kinfoStatus)) (by omega), k2, signed64_nat (w := e.path.length) (by omega), k6,
      signed64_nat hv, signed64_nat hlg,
      signed64_nat (w := s.disk (e.infoAdd + kinfoInternalHeadAddress)) (by omega), signed64_nat (w := s.disk (e.infoAdd + kinfoHeader2Address)) (by omega),
      signed64_nat (w := s.disk (e.infoAdd + kinfoUserHeadAddress)) (by omega), signed64_nat (w := s.disk (e.infoAdd + kinfoValues1Address)) (by omega),
      signed64_nat (w := s.disk (e.infoAdd + kinfoValues2Address)) (by omega), signed64_nat (w := s.disk (e.infoAdd + kinfoValues3Address)) (by omega),
      signed64_nat (w := 0) (by decide)]
    have a1 := array_right hfs (a := s.disk (e.infoAdd + kinfoInternalHeadAddress)) (n := s.disk (e.infoAdd + kinfoInternalHeadNumber)) (by omega)
    have a2 := array_right hfs (a := s.disk (e.infoAdd + kinfoHeader2Address)) (n := s.disk (e.infoAdd + kinfoHeader2Number)) (by omega)
    have a3 := array_right hfs (a := s.disk (e.infoAdd + kinfoUserHeadAddress)) (n := s.disk (e.infoAdd + kinfoUserHeadNumber)) (by omega)
    have a4 := array_right hfs (a := s.disk (e.infoAdd + kinfoValues1Address)) (n := s.disk (e.infoAdd + kinfoValues1Number)) (by omega)
    have a5 := array_right hfs (a := s.disk (e.infoAdd + kinfoValues2Address)) (n := s.disk (e.infoAdd + kinfoValues2Number)) (by omega)
    have a6 := array_right hfs (a := s.disk (e.infoAdd + kinfoValues3Address)) (n := s.disk (e.infoAdd + kinfoValues3Number)) (by omega)
    have a7 := array_right hfs (a := s.disk (e.infoAdd + kinfoValues1Address)) (n := s.disk (e.infoAdd + kinfoAllocatedSize)) (by omega)
    simp only [a1, a2, a3, a4, a5, a6, a7, and_true]
    repeat' apply And.intro
    all_goals first | exact k1 | omega
  unfold zcheckInfo
  rw [hw]
  have ht : toInt32 (s.disk (e.infoAdd + kinfoTypeVersion)) = (R.dataType.toNat : Int) := by
    have h1 := hS.type
    have h2 : R.dataType.toNat < 2 ^ 31 := Nat.lt_of_lt_of_eq (UInt32.lt_iff_toNat_lt.mp h1) (by decide)
    have h3 : R.dataType.toNat = lo32 (s.disk (e.infoAdd + kinfoTypeVersion)) := by
      rw [e1]; unfold lowInt lo32; simp
    unfold toInt32
    rw [← h3, if_pos h2]
  have hv : toInt32 (hi32 (s.disk (e.infoAdd + kinfoTypeVersion))) = (R.version.toNat : Int) := by
    have h1 := hS.version
    have h2 : R.version.toNat < 2 ^ 31 := Nat.lt_of_lt_of_eq (UInt32.lt_iff_toNat_lt.mp h1) (by decide)
    have h3 : R.version.toNat = lo32 (hi32 (s.disk (e.infoAdd + kinfoTypeVersion))) := by
      rw [e2]; unfold highInt lo32 hi32; simp
    unfold toInt32
    rw [← h3, if_pos h2]
  simp only [ht, hv, hg, Bool.false_eq_true, if_false, ite_self, Int.add_zero]
  rw [if_neg (show ¬ (R.version.toNat : Int) < 0 by omega), if_neg (show ¬ (R.dataType.toNat : Int) < 0 by omega)]
  split
  · next h =>
    obtain ⟨q1, q2⟩ := hS.series (by simpa [UInt32.le_iff_toNat_le] using (show 100 ≤ R.dataType.toNat by omega)) (by simpa [UInt32.lt_iff_toNat_lt] using (show R.dataType.toNat < 200 by omega))
    rw [e5, getInts_length] at q1
    have h9 : 9 ≤ nLongs (s.disk (e.infoAdd + kinfoInternalHeadNumber)) := by unfold nLongs; omega
    rw [if_neg (by omega)]
    rw [if_neg]
    · rfl
    · rintro ⟨p1, p2⟩
      refine q2 ?_ (by rw [e6, p2]; rfl)
      rw [e5, getInts_get, if_pos (by omega)]
      simp only [show ¬ (9 % 2 = 0) by decide, if_false]
      congr 1
      have : lo32 (hi32 (s.disk (s.disk (e.infoAdd + kinfoInternalHeadAddress) + 4))) = 1 := by
        unfold toInt32 at p1
        split at p1
        · omega
        · have : lo32 (hi32 (s.disk (s.disk (e.infoAdd + kinfoInternalHeadAddress) + 4))) < 2 ^ 32 := Nat.mod_lt _ (by decide)
          omega
      apply UInt32.toNat_inj.mp
      unfold highInt
      unfold lo32 hi32 at this
      simpa using this
  · rfl

/-! ### The four checks -/

theorem sumErrors_zero {α : Type} {f : α → Option Int} (l : List α) (h : ∀ a ∈ l, f a = some 0) : sumErrors f l = some 0 := by
  induction l with
  | nil => rfl
  | cons a l ih =>
    unfold sumErrors
    rw [h a (by simp), Option.bind_some, ih (fun b hb => h b (by simp [hb])), Option.map_some]
    rfl

theorem entry_right (hc : c.OK) {past : List Op} (H : HInv c G s past) (hfs : s.hdr.fileSize < 2 ^ 62) (hS : AllSound c s)
    (grid : Bytes → Int) (hg : ∀ p R, p.length ≤ 391 → zread c s p = some (some R) → grid p = 0) {e : BinEnt} (hh : c.tHash e.path < c.maxHash)
    (hem : e ∈ centries (G.chain (c.tHash e.path))) (hel : live e) :
    entryWrong c s grid e.path = some 0 ∧ entryFound c s e.path = true := by
  obtain ⟨R, h1, h2, h3⟩ := live_target hc H.inv hh hem hel
  have hok := (H.inv.w.chains _ hh).ok e hem
  obtain ⟨h4, h5⟩ := hS _ _ hok.len h1
  unfold entryWrong entryFound
  rw [h3]
  exact ⟨info_right hc H.inv H hh hem hel h2 hfs h4 h5 grid (hg _ _ h4 h1), rfl⟩

theorem pathnames_right (hc : c.OK) {past : List Op} (H : HInv c G s past) (hfs : s.hdr.fileSize < 2 ^ 62) (hS : AllSound c s)
    (grid : Bytes → Int) (hg : ∀ p R, p.length ≤ 391 → zread c s p = some (some R) → grid p = 0) : zcheckPathnames c s grid = some 0 := by
  obtain ⟨es, h1, h2, h3⟩ := all_paths hc H.inv
  have hr : ∀ e ∈ es, entryWrong c s grid e.path = some 0 ∧ entryFound c s e.path = true := fun e he =>
    entry_right hc H hfs hS grid hg (h3 e he).2.1 (h3 e he).2.2 (h3 e he).1
  unfold zcheckPathnames
  rw [h1, Option.bind_some, sumErrors_zero _ (by
    intro p hp
    obtain ⟨e, he, rfl⟩ := List.mem_map.mp hp
    exact (hr e he).1), Option.map_some, if_pos rfl]
  have hcnt : (es.map (·.path)).countP (entryFound c s) = es.length := by
    rw [List.countP_map, List.countP_eq_length]
    intro e he
    exact (hr e he).2
  rw [hcnt, h2, H.count]
  simp

theorem hashTable_right (hc : c.OK) {past : List Op} (H : HInv c G s past) (hfs : s.hdr.fileSize < 2 ^ 62) (hS : AllSound c s)
    (grid : Bytes → Int) (hg : ∀ p R, p.length ≤ 391 → zread c s p = some (some R) → grid p = 0) : zcheckHashTable c s grid = some 0 := by
  unfold zcheckHashTable
  apply sumErrors_zero
  intro h hh
  have hh := List.mem_range.mp hh
  have K := H.inv.w.chains h hh
  have hat := K.at_
  rw [H.inv.last h hh] at hat
  obtain ⟨es, h1, h2⟩ := chain_paths hc (G.chain h) (fuel := s.hdr.totalBins + 2) hat K.ok (by have := H.inv.h.len h hh; omega)
  simp only [h1, Option.bind_some]
  apply sumErrors_zero
  intro p hp
  obtain ⟨e, he, rfl⟩ := List.mem_map.mp hp
  obtain ⟨hel, hem⟩ := h2 e he
  have hth := (K.ok e hem).hash
  exact (entry_right hc H hfs hS grid hg (by rw [hth]; exact hh) (by rw [hth]; exact hem) hel).1

/-- Every word that looks like the start of a record is the start of one that is found. -/
theorem links_right (hc : c.OK) {past : List Op} (H : HInv c G s past) (hlook : NoLookAlikes c s)
    (hend : s.disk (s.hdr.fileSize - 1) ≠ DSS_INFO_FLAG) : zcheckLinks c s = some 0 := by
  unfold zcheckLinks
  apply sumErrors_zero
  intro x hx
  have hx := List.mem_range.mp hx
  unfold linkWrong
  split
  · next hf =>
    rw [if_neg (by
      intro h
      have : x = s.hdr.fileSize - 1 := by omega
      rw [this] at hf; exact hend hf)]
    split
    · next hp =>
      obtain ⟨p1, p2, p3⟩ := hp
      have hn : 0 < s.disk (x + 2) % 2 ^ 32 ∧ s.disk (x + 2) % 2 ^ 32 ≤ 392 := by
        unfold signed64 at p1 p2
        split at p1 <;> split at p2 <;> omega
      obtain ⟨p, k, h1, h2, h3, h4⟩ := hlook x hx hf (Or.inl (by rcases p3 with h | h <;> rw [h] <;> decide))
        hn.1 hn.2
      obtain ⟨k', hk', hkf⟩ := zcheck_found hc H.inv h1
      have h2' : zcheck c s p REC_STATUS_VALID = some k := h2
      rw [h2'] at hk'
      cases hk'
      rw [h3] at hkf
      obtain ⟨R, hR⟩ := Option.isSome_iff_exists.mp hkf.symm
      obtain ⟨A, B, e, T, hm, hl, hA, hB⟩ := live_entry hc H.inv h1 hR
      obtain ⟨k', hk', _, hka, _⟩ := kill_ok hc H.inv h1 T hm hA
      rw [h2'] at hk'
      cases hk'
      rw [h4] at hka
      have hth := hc.tHash_same _ _ T.same
      have hh := hc.tHash_lt p h1
      have hem : e ∈ centries (G.chain (c.tHash p)) := by rw [T.ents]; simp
      have hd := H.heads _ hh e hem (live_not_gone hl)
      obtain ⟨_, d2, d3, _, _, _⟩ := hd
      have e2 : s.disk (x + 2) = e.path.length := by rw [hka]; exact d2
      have e3 : unpackBytes (fun j => s.disk (x + kinfoPathname + j)) e.path.length = e.path := by
        rw [hka]
        refine Eq.trans (unpackBytes_congr fun j _ => ?_) d3
        rw [Nat.add_assoc]
      rw [hth] at hh hem
      obtain ⟨_, _, _, hf⟩ := live_target hc H.inv hh hem hl
      rw [e2, e3]
      simp only [hf, hka, Option.map_some, if_true]
    · rfl
  · rfl

/-! ### The bins, without messages -/

theorem entryErrors_zero {fs : Nat} {bin : Nat → Nat} {n : Nat} (h : bin (n + 1) ≠ 0) (h2 : bin (n + 1) ≤ 15) : binEntryErrors fs false bin n = 0 := by
  unfold binEntryErrors
  have : signed64 (bin (n + 1)) = (bin (n + 1) : Int) := signed64_nat (by omega)
  simp only [this, Bool.and_false, Bool.false_eq_true, if_false]
  rw [if_neg (by omega)]
  split <;> rfl

theorem binErrors_zero (hc : c.OK) {d : Disk} {b h fs : Nat} (es : List BinEnt) : ∀ {fuel ic : Nat},
    EntriesAt c d (b + ic) es → (∀ e ∈ es, EntryOK c h e) → (∀ e ∈ es, e.st ≠ 0) → ic + esize es ≤ c.isize - 2 →
    (∀ i, ic + esize es ≤ i → i < c.isize - 1 → d (b + i) = 0) → es.length < fuel →
    binErrors c fs false (fun i => d (b + i)) fuel ic = 0 := by
  have hi := hc.isize
  induction es with
  | nil =>
    intro fuel ic _ _ _ hfit hz hf
    obtain ⟨f, rfl⟩ : ∃ f, fuel = f + 1 := ⟨fuel - 1, by simp at hf; omega⟩
    simp only [esize, Nat.add_zero] at hfit hz
    unfold binErrors
    rw [if_neg (by omega), if_pos (hz ic (by omega) (by omega)), List.length_eq_zero_iff, List.filter_eq_nil_iff]
    intro i hi'
    have hi' := List.mem_range.mp hi'
    simp only [hz (ic + i) (by omega) (by omega)]
    simp
  | cons e es ih =>
    intro fuel ic hat hok hst hfit hz hf
    obtain ⟨f, rfl⟩ : ∃ f, fuel = f + 1 := ⟨fuel - 1, by simp at hf; omega⟩
    simp only [esize] at hfit hz
    obtain ⟨⟨h0, h1, h2, h3, h4, h5, h6, h7⟩, hrest⟩ := hat
    have hlen := (hok e (by simp)).len
    have hhi : hi32 (d (b + (ic + 2))) = nLongsB e.path.length := by
      rw [show b + (ic + 2) = b + ic + 2 by omega, h2]; exact hi32_pack (by omega)
    have hne : ¬ d (b + ic) = 0 := by rw [h0]; exact hc.pHash_ne _
    have hst1 : d (b + (ic + 1)) = e.st := by rw [show b + (ic + 1) = b + ic + 1 by omega, h1]
    unfold binErrors
    rw [if_neg (by omega), if_neg hne]
    simp only [hhi]
    have := ih (fuel := f) (ic := ic + e.size) (by rw [← Nat.add_assoc]; exact hrest) (fun x hx => hok x (by simp [hx])) (fun x hx => hst x (by simp [hx])) (by omega)
      (fun i k1 k2 => hz i (by omega) k2) (by simp at hf; omega)
    simp only [BinEnt.size] at this
    rw [this]
    refine Eq.trans (Nat.add_zero _) (entryErrors_zero ?_ ?_)
    · simp only [hst1]; exact hst e (by simp)
    · simp only [hst1]
      have := (hok e (by simp)).st
      unfold live dead gone REC_STATUS_DELETED REC_STATUS_RENAMED at this
      omega

theorem blockErrors_zero (hc : c.OK) (I : Inv c G s) (hz : NoZeros c G) {k : Nat} (hk : k ∈ G.blocks) {fs : Nat} : ∀ (n a : Nat),
    n ≤ c.binsPerBlock → a = k + (c.binsPerBlock - n) * c.isize → blockErrors c fs false s.disk n a = 0 := by
  have hi := hc.isize
  intro n
  induction n with
  | zero => intro a _ _; rfl
  | succ n ih =>
    intro a hn ha
    have hnext : a + c.isize = k + (c.binsPerBlock - n) * c.isize := by
      rw [ha, show c.binsPerBlock - n = (c.binsPerBlock - (n + 1)) + 1 by omega, Nat.add_mul]; omega
    unfold blockErrors
    rw [ih (a + c.isize) (by omega) hnext, Nat.add_zero]
    rcases I.w.blk.slots k hk (c.binsPerBlock - (n + 1)) (by omega) with hf | ⟨h, hb⟩
    · rw [← ha] at hf
      -- a bin that is not used lies among the spare ones
      have hfree : ∀ i, i < c.isize → s.disk (a + i) = 0 := by
        intro i hi'
        obtain ⟨bs, lb, j, h1, h2, h3⟩ := I.h.spare.lastB
        have hu := I.h.spare.used a hf
        have hkl : k = lb := by
          have hs := I.w.blk.sorted
          rw [h1] at hk hs
          rw [List.pairwise_append] at hs
          rcases List.mem_append.mp hk with h | h
          · have := hs.2.2 k h lb (by simp)
            have hle : (c.binsPerBlock - (n + 1)) * c.isize ≤ c.binsPerBlock * c.isize := Nat.mul_le_mul_right _ (by omega)
            omega
          · simpa using h
        subst hkl
        have hle : (c.binsPerBlock - (n + 1) + 1) * c.isize ≤ (j + s.hdr.binsRemain) * c.isize := Nat.mul_le_mul_right _ (by omega)
        rw [Nat.add_mul, Nat.add_mul] at hle
        have := I.w.free _ (I.h.free (a + i - s.hdr.nextEmpty) (by omega))
        rwa [show s.hdr.nextEmpty + (a + i - s.hdr.nextEmpty) = a + i by omega] at this
      exact binErrors_zero hc (h := 0) [] (b := a) (ic := 0) trivial (by simp) (by simp) (by simp [esize]) (fun i _ h => hfree i (by omega)) (by simp; omega)
    · rw [← ha] at hb
      obtain ⟨hh, es, hmem, hne, hat, hok⟩ := bin_of_slot hc I.w hb
      refine binErrors_zero hc (h := h) es (b := a) (ic := 0) (by simpa using hat.entries) hok ?_ (by have := hat.fits; omega) ?_ (length_lt_isize hc hat)
      · intro e he
        refine hz h hh e ?_
        obtain ⟨C1, C2, hC⟩ := List.append_of_mem hmem
        rw [hC]; simp [he]
      · intro i k1 k2
        exact hat.zero i (by omega) k2

theorem binsErrors_zero (hc : c.OK) (I : Inv c G s) (hz : NoZeros c G) {fs : Nat} (post : List Nat) : ∀ (pre : List Nat) (k fuel : Nat),
    G.blocks = pre ++ k :: post → post.length < fuel → binsErrors c fs false s.disk fuel k = some 0 := by
  have hi := hc.isize
  induction post with
  | nil =>
    intro pre k fuel hb hf
    obtain ⟨f, rfl⟩ : ∃ f, fuel = f + 1 := ⟨fuel - 1, by simp at hf; omega⟩
    have hk : k ∈ G.blocks := by rw [hb]; simp
    have hl : s.disk (k + c.binsPerBlock * c.isize) = 0 := by rw [I.w.blk.links pre k [] hb]; simpa using I.h.spare.tail
    unfold binsErrors
    simp only [hl, if_true, blockErrors_zero hc I hz hk c.binsPerBlock k (by omega) (by simp)]
  | cons k2 post ih =>
    intro pre k fuel hb hf
    obtain ⟨f, rfl⟩ : ∃ f, fuel = f + 1 := ⟨fuel - 1, by simp at hf; omega⟩
    have hk : k ∈ G.blocks := by rw [hb]; simp
    have hs := I.w.blk.sorted
    rw [hb, List.pairwise_append] at hs
    have hkk2 := (List.pairwise_cons.mp hs.2.1).1 k2 (by simp)
    have hl : s.disk (k + c.binsPerBlock * c.isize) = k2 := by rw [I.w.blk.links pre k (k2 :: post) hb]; rfl
    unfold binsErrors
    simp only [hl]
    rw [if_neg (by omega), ih (pre ++ [k]) k2 f (by rw [hb]; simp) (by simp at hf; omega),
      blockErrors_zero hc I hz hk c.binsPerBlock k (by omega) (by simp)]
    rfl

theorem bins_right (hc : c.OK) (I : Inv c G s) (hz : NoZeros c G) : zcheckPathnameBins c s false = some 0 := by
  have hh := I.w.blk.head
  cases hb : G.blocks with
  | nil => rw [hb] at hh; cases hh
  | cons k post =>
    rw [hb] at hh
    have hk : k = c.firstBin := by simpa using hh
    have hs := I.w.blk.sorted
    rw [hb, List.pairwise_cons] at hs
    have hlt : ∀ x ∈ G.blocks, x < s.hdr.fileSize := by
      intro x hx
      apply Decidable.byContradiction
      intro hge
      have h1 := I.w.blk.own x hx
      rw [I.h.beyond _ (by omega)] at h1
      cases h1
    have hlen : post.length ≤ s.hdr.fileSize - 0 := by
      refine increasing_length post 0 _ (fun x hx => ⟨by omega, hlt x (by rw [hb]; simp [hx])⟩) ?_
      exact hs.2.imp (fun h => by omega)
    unfold zcheckPathnameBins
    rw [← hk, binsErrors_zero hc I hz post [] k _ (by rw [hb]; rfl) (by omega)]
    rfl

/-- Histories without undelete leave no entry with the status 0. -/
theorem prim_runs (hc : c.OK) (ops : List Op) : ∀ {G : Ghost} {s : Eng} {past : List Op}, HInv c G s past → NoZeros c G → AllAllowed c past s ops → NoUndelete ops →
    ∃ G' s' ress, runs c s ops = some (s', ress) ∧ HInv c G' s' (past ++ ops) ∧ NoZeros c G' := by
  induction ops with
  | nil => intro G s past H hz _ _; exact ⟨G, s, [], rfl, by simpa using H, hz⟩
  | cons op ops ih =>
    intro G s past H hz ha hn
    obtain ⟨G1, s1, res, hr, S, H1⟩ := H.step hc ha.1
    obtain ⟨G2, s2, ress, hr2, H2, hz2⟩ := ih H1 (S.prim (hn op (by simp)) hz) (ha.2 s1 res hr) (fun o ho => hn o (by simp [ho]))
    refine ⟨G2, s2, res :: ress, ?_, by simpa using H2, hz2⟩
    simp [_root_.Spec.runs, hr, hr2]

/-! ### What was written -/

/-- The records are sound, but for the version, which is not above `k`. -/
def SoundUpTo (k : Nat) (st : Store) : Prop :=
  ∀ q R, st.live q = some R ∨ R ∈ st.trash q → q.length ≤ 391 ∧ Sound { R with version := 1 } ∧ R.version.toNat ≤ k

theorem SoundUpTo.mono {k k' : Nat} {st : Store} (h : k ≤ k') (L : SoundUpTo k st) : SoundUpTo k' st :=
  fun q R hR => ⟨(L q R hR).1, (L q R hR).2.1, Nat.le_trans (L q R hR).2.2 h⟩

theorem SoundUpTo.step {st st' : Store} {op : Op} {res : Res} (h : Step st op res st') : ∀ {k : Nat}, SoundCall op → SoundUpTo k st → SoundUpTo (k + 1) st' := by
  induction h with
  | writeNew h1 h2 h3 =>
    intro k W L q R hR
    rcases hR with hR | hR
    · rcases NamesOK.set h2 hR with ⟨hs, h⟩ | h
      · injection h with h; rw [← h]
        exact ⟨by rw [← hs.length]; exact W.1, W.2, by simp [stored]⟩
      · exact L.mono (Nat.le_succ _) q R (Or.inl h)
    · exact L.mono (Nat.le_succ _) q R (Or.inr (DropOne.mem h3 hR))
  | overwrite h1 h2 h3 h4 =>
    intro k W L q R hR
    rcases hR with hR | hR
    · rcases NamesOK.set h3 hR with ⟨hs, h⟩ | h
      · injection h with h; rw [← h]
        refine ⟨by rw [← hs.length]; exact W.1, W.2, ?_⟩
        have := (L _ _ (Or.inl h1)).2.2
        show (_ + 1 : UInt32).toNat ≤ k + 1
        rw [UInt32.toNat_add]
        exact Nat.le_trans (Nat.mod_le _ _) (by simp; omega)
      · exact L.mono (Nat.le_succ _) q R (Or.inl h)
    · rw [h4] at hR; exact L.mono (Nat.le_succ _) q R (Or.inr hR)
  | refused => exact fun _ L => L.mono (Nat.le_succ _)
  | @delete st1 p R0 h1 h2 h3 =>
    intro k _ L q R hR
    rcases hR with hR | hR
    · rcases NamesOK.set h2 hR with ⟨_, h⟩ | h
      · cases h
      · exact L.mono (Nat.le_succ _) q R (Or.inl h)
    · by_cases hs : Spec.sameUpToCase p q
      · rw [(h3 q).1 hs] at hR
        have := L.mono (Nat.le_succ _) p R (by
          rcases List.mem_cons.mp hR with h | h
          · subst h; exact Or.inl h1
          · exact Or.inr h)
        exact ⟨by rw [← (same_iff.mp hs).length]; exact this.1, this.2⟩
      · rw [(h3 q).2 hs] at hR; exact L.mono (Nat.le_succ _) q R (Or.inr hR)
  | deleteMissing => exact fun _ L => L.mono (Nat.le_succ _)
  | @undelete st1 p R0 rest h1 h2 h3 =>
    intro k _ L q R hR
    rcases hR with hR | hR
    · rcases NamesOK.set h2 hR with ⟨hs, h⟩ | h
      · injection h with h; subst h
        have := L.mono (Nat.le_succ _) p R0 (Or.inr (by rw [h1]; exact List.mem_cons_self ..))
        exact ⟨by rw [← hs.length]; exact this.1, this.2⟩
      · exact L.mono (Nat.le_succ _) q R (Or.inl h)
    · by_cases hs : Spec.sameUpToCase p q
      · rw [(h3 q).1 hs] at hR
        have := L.mono (Nat.le_succ _) p R (Or.inr (by rw [h1]; simp [hR]))
        exact ⟨by rw [← (same_iff.mp hs).length]; exact this.1, this.2⟩
      · rw [(h3 q).2 hs] at hR; exact L.mono (Nat.le_succ _) q R (Or.inr hR)
  | undeleteMissing => exact fun _ L => L.mono (Nat.le_succ _)
  | rename h1 h2 h3 h4 h5 ih =>
    intro k W L q R hR
    have L1 := ih (k := k) trivial L
    rcases hR with hR | hR
    · rcases NamesOK.set h4 hR with ⟨hs, h⟩ | h
      · injection h with h; subst h
        refine ⟨?_, (L1 _ _ (Or.inl h2)).2⟩
        rw [← hs.length]
        unfold renamed
        split
        · exact W.2
        · exact W.1
      · rcases NamesOK.set h3 h with ⟨_, h⟩ | h
        · cases h
        · exact L1 q R (Or.inl h)
    · exact L1 q R (Or.inr (DropOne.mem h5 hR))
  | renameMissing h1 h2 ih => exact fun _ => ih trivial

theorem SoundUpTo.steps {st st' : Store} {ops : List Op} {ress : List Res} (h : Steps st ops ress st') : ∀ {k : Nat},
    (∀ op ∈ ops, SoundCall op) → SoundUpTo k st → SoundUpTo (k + ops.length) st' := by
  induction h with
  | nil => exact fun _ => id
  | cons h1 _ ih =>
    intro k W L
    have := ih (fun op hop => W op (by simp [hop])) (SoundUpTo.step h1 (W _ (by simp)) L)
    rw [List.length_cons, show ∀ a b : Nat, a + (b + 1) = a + 1 + b by omega]
    exact this

/-- If what was written was sound, so are the records of the file. -/
theorem sound_written {hdrSize maxHash binSize : Nat} {mul : Nat → Nat} (g : GoodSizes hdrSize maxHash binSize) {past : List Op} {s : Eng}
    (hs : Reachable (create hdrSize maxHash binSize mul).1 (create hdrSize maxHash binSize mul).2 past s) (hw : ∀ op ∈ past, SoundCall op)
    (hn : past.length < 2 ^ 31) : AllSound (create hdrSize maxHash binSize mul).1 s := by
  have hc := create_OK (mul := mul) g
  obtain ⟨ha, ress, hr⟩ := hs
  obtain ⟨G, s', ress', k1, k2, H⟩ := HInv.runs hc past (newFile_inv (by have := g.bin; omega)) ha
  have : some (s', ress') = some (s, ress) := k1.symm.trans hr
  injection this with this
  injection this with this _
  subst this
  have N := SoundUpTo.steps k2 (k := 0) hw (by
    rw [newFile_abs]
    intro q R h
    simp [Store.empty] at h)
  intro q R hq hR
  rw [zread_abs hc H.inv hq] at hR
  injection hR with hR
  obtain ⟨n1, n2, n3⟩ := N q R (Or.inl hR)
  refine ⟨n1, n2.data, n2.type, ?_, n2.values, n2.logical, n2.series⟩
  rw [UInt32.lt_iff_toNat_lt, show (2 ^ 31 : UInt32).toNat = 2 ^ 31 by decide]
  omega

end Hec
