import Verif.Model.Catalog
import Verif.Proofs.EngineHist
/-! The walk of the catalog over the blocks of bins. -/
namespace Hec
set_option linter.unusedSimpArgs false
set_option linter.unusedVariables false

/-- The row of an entry. -/
def rowOf (e : BinEnt) (x : Nat) : CatRow := ⟨e.path, x, lo32 e.typeCat, e.lastWrite, e.dates⟩

/-- The entries of a bin with their addresses. -/
def placed : Nat → List BinEnt → List (BinEnt × Nat)
  | _, [] => []
  | x, e :: es => (e, x) :: placed (x + e.size) es

theorem placed_fst (es : List BinEnt) : ∀ x, (placed x es).map (·.1) = es := by
  induction es with
  | nil => intro x; rfl
  | cons e es ih => intro x; simp [placed, ih]

/-- Wanted. -/
def want (q : CatReq) (p : BinEnt × Nat) : Bool := zcompareRecordStatus p.1.st q.statusWanted && rowFound q (rowOf p.1 p.2)

theorem catEntries_ok {c : Cfg} (hc : c.OK) {d : Disk} {q : CatReq} {b h : Nat} (es : List BinEnt) : ∀ {fuel ic : Nat},
    EntriesAt c d (b + ic) es → (∀ e ∈ es, EntryOK c h e) → ic + esize es ≤ c.isize - 2 →
    (ic + esize es < c.isize - 1 → d (b + (ic + esize es)) = 0) → es.length < fuel → (es ≠ [] ∨ ic ≤ c.isize - 2) →
    catEntries c q b (fun i => d (b + i)) fuel ic = ((placed (b + ic) es).filter (want q)).map fun p => rowOf p.1 p.2 := by
  have hi := hc.isize
  induction es with
  | nil =>
    intro fuel ic _ _ hfit hz hf _
    obtain ⟨f, rfl⟩ : ∃ f, fuel = f + 1 := ⟨fuel - 1, by simp at hf; omega⟩
    simp only [esize, Nat.add_zero] at hfit hz
    unfold catEntries
    rw [if_pos (hz (by omega))]
    rfl
  | cons e es ih =>
    intro fuel ic hat hok hfit hz hf _
    obtain ⟨f, rfl⟩ : ∃ f, fuel = f + 1 := ⟨fuel - 1, by simp at hf; omega⟩
    simp only [esize] at hfit hz
    obtain ⟨⟨h0, h1, h2, h3, h4, h5, h6, h7⟩, hrest⟩ := hat
    have hlen := (hok e (by simp)).len
    have hlo : lo32 (d (b + (ic + 2))) = e.path.length := by
      rw [show b + (ic + 2) = b + ic + 2 by omega, h2]; exact lo32_pack (by omega)
    have hhi : hi32 (d (b + (ic + 2))) = nLongsB e.path.length := by
      rw [show b + (ic + 2) = b + ic + 2 by omega, h2]; exact hi32_pack (by omega)
    have hne : ¬ d (b + ic) = 0 := by rw [h0]; exact hc.pHash_ne _
    have hub : unpackBytes (fun j => d (b + (ic + 7 + j))) e.path.length = e.path := by
      conv => rhs; rw [← h7]
      congr 1; funext j; congr 1; omega
    unfold catEntries
    simp only [if_neg hne, hlo, hhi, hub, show d (b + (ic + 1)) = e.st from by rw [show b + (ic + 1) = b + ic + 1 by omega, h1],
      show d (b + (ic + 4)) = e.typeCat from by rw [show b + (ic + 4) = b + ic + 4 by omega, h4],
      show d (b + (ic + 5)) = e.lastWrite from by rw [show b + (ic + 5) = b + ic + 5 by omega, h5],
      show d (b + (ic + 6)) = e.dates from by rw [show b + (ic + 6) = b + ic + 6 by omega, h6]]
    have hnext : (if ic + (7 + nLongsB e.path.length) ≥ c.isize - 2 then [] else catEntries c q b (fun i => d (b + i)) f (ic + (7 + nLongsB e.path.length))) =
        ((placed (b + ic + e.size) es).filter (want q)).map fun p => rowOf p.1 p.2 := by
      split
      · next hge =>
        have : es = [] := by
          cases es with
          | nil => rfl
          | cons e2 es2 => simp only [esize, BinEnt.size] at hfit; omega
        rw [this]; rfl
      · next hlt =>
        have := ih (fuel := f) (ic := ic + e.size) (by rw [← Nat.add_assoc]; exact hrest) (fun x hx => hok x (by simp [hx])) (by omega)
          (by intro h; rw [Nat.add_assoc]; exact hz (by omega)) (by simp at hf; omega) (Or.inr (by simp only [BinEnt.size]; omega))
        rw [Nat.add_assoc]
        exact this
    rw [hnext]
    simp only [placed, List.filter_cons]
    by_cases hw : want q (e, b + ic) = true
    · rw [if_pos hw, if_pos]
      · rfl
      · simpa [want, rowOf] using hw
    · rw [if_neg hw, if_neg]
      simpa [want, rowOf] using hw

/-- The entries of bins with their addresses. -/
def binsPlaced (L : Chain) : List (BinEnt × Nat) := L.flatMap fun be => placed be.1 be.2

theorem binsPlaced_fst (L : Chain) : (binsPlaced L).map (·.1) = centries L := by
  induction L with
  | nil => rfl
  | cons be L ih =>
    obtain ⟨b, es⟩ := be
    simp only [binsPlaced, List.flatMap_cons, List.map_append, placed_fst, centries_cons] at ih ⊢
    rw [ih]

/-- The rows of bins. -/
def rowsOf (q : CatReq) (L : Chain) : List CatRow := ((binsPlaced L).filter (want q)).map fun p => rowOf p.1 p.2

theorem rowsOf_append (q : CatReq) (L M : Chain) : rowsOf q (L ++ M) = rowsOf q L ++ rowsOf q M := by
  simp [rowsOf, binsPlaced]

variable {c : Cfg} {G : Ghost} {d : Disk}

theorem bin_of_slot (hc : c.OK) {hx ax : Nat} (I : InvW c G d hx ax) {a h : Nat} (h1 : G.own a = .bin h a) :
    h < c.maxHash ∧ ∃ es, (a, es) ∈ G.chain h ∧ es ≠ [] ∧ BinAt c d a es ∧ ∀ e ∈ es, EntryOK c h e := by
  obtain ⟨hh, ⟨be, hbe, h2⟩, _⟩ := I.blk.bins a h a h1
  obtain ⟨b, es⟩ := be
  simp only at h2
  subst h2
  refine ⟨hh, es, hbe, I.blk.full h hh _ hbe, ?_, ?_⟩
  · obtain ⟨C1, C2, hC⟩ := List.append_of_mem hbe
    have := (I.chains h hh).at_
    rw [hC] at this
    exact (ChainAt_bin C1 this).1
  · intro e he
    refine (I.chains h hh).ok e ?_
    obtain ⟨C1, C2, hC⟩ := List.append_of_mem hbe
    rw [hC]; simp [he]

/-- The bins of one block. -/
theorem catBins_ok (hc : c.OK) {hx ax : Nat} (I : InvW c G d hx ax) {q : CatReq} {k : Nat} (hk : k ∈ G.blocks) : ∀ (n a : Nat),
    n ≤ c.binsPerBlock → a = k + (c.binsPerBlock - n) * c.isize →
    ∃ L : Chain, (catBins c q d n a).1 = rowsOf q L ∧
      (∀ be ∈ L, (∃ h, h < c.maxHash ∧ be ∈ G.chain h) ∧ a ≤ be.1 ∧ be.1 < k + c.binsPerBlock * c.isize) ∧
      L.Pairwise (fun x y => x.1 < y.1) ∧
      (∀ h, h < c.maxHash → ∀ be ∈ G.chain h, a ≤ be.1 → be.1 < k + c.binsPerBlock * c.isize → be ∈ L) ∧
      ((catBins c q d n a).2 = k + c.binsPerBlock * c.isize ∨
        (G.own (catBins c q d n a).2 = .free ∧ (catBins c q d n a).2 < k + c.binsPerBlock * c.isize)) := by
  have hi := hc.isize
  intro n
  induction n with
  | zero =>
    intro a _ ha
    rw [Nat.sub_zero] at ha
    refine ⟨[], rfl, by simp, by simp, ?_, Or.inl ha⟩
    intro h _ be _ h1 h2; omega
  | succ n ih =>
    intro a hn ha
    let i := c.binsPerBlock - (n + 1)
    have hib : i < c.binsPerBlock := by simp only [i]; omega
    have hai : a = k + i * c.isize := ha
    have hnext : a + c.isize = k + (c.binsPerBlock - n) * c.isize := by
      rw [hai, show c.binsPerBlock - n = i + 1 by simp only [i]; omega, Nat.add_mul]; omega
    have hle : (i + 1) * c.isize ≤ c.binsPerBlock * c.isize := Nat.mul_le_mul_right _ (by omega)
    rw [Nat.add_mul] at hle
    unfold catBins
    rcases I.blk.slots k hk i hib with hfree | ⟨h, hbin⟩
    · rw [← hai] at hfree
      rw [if_pos (I.free a hfree)]
      refine ⟨[], rfl, by simp, by simp, ?_, Or.inr ⟨hfree, by simp only; omega⟩⟩
      intro h hh be hbe h1 h2
      have hb := (I.chains h hh).bins be hbe 0 (by omega)
      have := I.blk.ord a be.1 h be.1 hfree (by simpa using hb)
      omega
    · rw [← hai] at hbin
      obtain ⟨hh, es, hes, hne, hat, hok⟩ := bin_of_slot hc I hbin
      have hd0 : d a ≠ 0 := by
        cases es with
        | nil => exact absurd rfl hne
        | cons e es => rw [hat.entries.1.1]; exact hc.pHash_ne _
      rw [if_neg hd0]
      obtain ⟨L, hL1, hL2, hL3, hL4, hL5⟩ := ih (a + c.isize) (by omega) hnext
      have hfit := hat.fits
      have hents : catEntries c q a (fun i => d (a + i)) c.isize 0 = rowsOf q [(a, es)] := by
        have := catEntries_ok hc (q := q) (b := a) es (fuel := c.isize) (ic := 0) (by simpa using hat.entries) hok (by omega)
          (fun _ => hat.zero _ (by omega) (by omega)) (length_lt_isize hc hat) (Or.inl hne)
        rw [this]
        simp [rowsOf, binsPlaced]
      refine ⟨(a, es) :: L, ?_, ?_, ?_, ?_, hL5⟩
      · simp only [hents, hL1]
        rw [← rowsOf_append]; rfl
      · intro be hbe
        rcases List.mem_cons.mp hbe with rfl | hbe
        · exact ⟨⟨h, hh, hes⟩, by simp only; omega, by simp only; omega⟩
        · have := hL2 be hbe
          exact ⟨this.1, by omega, this.2.2⟩
      · rw [List.pairwise_cons]
        refine ⟨fun be hbe => ?_, hL3⟩
        have := hL2 be hbe
        simp only; omega
      · intro h' hh' be hbe h1 h2
        by_cases hlt : be.1 < a + c.isize
        · have hb := (I.chains h' hh').bins be hbe 0 (by omega)
          have hb2 := (I.chains h hh).bins (a, es) hes (be.1 - a) (by omega)
          rw [show a + (be.1 - a) = be.1 by omega] at hb2
          rw [Nat.add_zero, hb2] at hb
          injection hb with e1 e2
          simp only at e2
          subst e1
          have hnd := (I.chains h hh).nodupB
          have : be = (a, es) := by
            obtain ⟨C1, C2, hC⟩ := List.append_of_mem hes
            rw [hC] at hnd hbe
            simp only [List.map_append, List.map_cons] at hnd
            rw [List.perm_middle.nodup_iff, List.nodup_cons] at hnd
            simp only [List.mem_append, List.mem_cons] at hbe
            rcases hbe with h3 | h3 | h3
            · exact absurd (by rw [e2]; exact List.mem_append.mpr (Or.inl (List.mem_map_of_mem (f := (·.1)) h3))) hnd.1
            · exact h3
            · exact absurd (by rw [e2]; exact List.mem_append.mpr (Or.inr (List.mem_map_of_mem (f := (·.1)) h3))) hnd.1
          rw [this]; simp
        · exact List.mem_cons.mpr (Or.inr (hL4 h' hh' be hbe (by omega) h2))

/-- All blocks. -/
theorem catBlocks_ok (hc : c.OK) {hx ax : Nat} (I : InvW c G d hx ax) (ht : G.tail = 0) {q : CatReq} (post : List Nat) : ∀ (pre : List Nat) (k fuel : Nat),
    G.blocks = pre ++ k :: post → post.length < fuel →
    ∃ L : Chain, catBlocks c q d fuel k = some (rowsOf q L) ∧
      (∀ be ∈ L, (∃ h, h < c.maxHash ∧ be ∈ G.chain h) ∧ k ≤ be.1) ∧ L.Pairwise (fun x y => x.1 < y.1) ∧
      (∀ h, h < c.maxHash → ∀ be ∈ G.chain h, k ≤ be.1 → be ∈ L) := by
  have hi := hc.isize
  induction post with
  | nil =>
    intro pre k fuel hb hf
    obtain ⟨f, rfl⟩ : ∃ f, fuel = f + 1 := ⟨fuel - 1, by simp at hf; omega⟩
    have hk : k ∈ G.blocks := by rw [hb]; simp
    obtain ⟨L, hL1, hL2, hL3, hL4, hL5⟩ := catBins_ok hc I (q := q) hk c.binsPerBlock k (by omega) (by simp)
    refine ⟨L, ?_, fun be h => ⟨(hL2 be h).1, (hL2 be h).2.1⟩, hL3, ?_⟩
    · have h0 : d (catBins c q d c.binsPerBlock k).2 = 0 := by
        rcases hL5 with h | ⟨h, _⟩
        · rw [h, I.blk.links pre k [] hb]; simpa using ht
        · exact I.free _ h
      unfold catBlocks
      simp only [h0, if_true, hL1]
    · intro h hh be hbe h1
      refine hL4 h hh be hbe h1 ?_
      have hb' := (I.chains h hh).bins be hbe 0 (by omega)
      obtain ⟨_, _, k', hk', i, hi', he⟩ := I.blk.bins _ _ _ hb'
      have hle : (i + 1) * c.isize ≤ c.binsPerBlock * c.isize := Nat.mul_le_mul_right _ (by omega)
      rw [Nat.add_mul] at hle
      rw [hb] at hk'
      rcases List.mem_append.mp hk' with h2 | h2
      · have hs := I.blk.sorted
        rw [hb, List.pairwise_append] at hs
        have := hs.2.2 k' h2 k (by simp)
        omega
      · simp at h2; omega
  | cons k2 post ih =>
    intro pre k fuel hb hf
    obtain ⟨f, rfl⟩ : ∃ f, fuel = f + 1 := ⟨fuel - 1, by simp at hf; omega⟩
    have hk : k ∈ G.blocks := by rw [hb]; simp
    have hs := I.blk.sorted
    rw [hb, List.pairwise_append] at hs
    have hs2 := List.pairwise_cons.mp hs.2.1
    have hkk2 := hs2.1 k2 (by simp)
    obtain ⟨L, hL1, hL2, hL3, hL4, hL5⟩ := catBins_ok hc I (q := q) hk c.binsPerBlock k (by omega) (by simp)
    -- where a bin lies
    have hcase : ∀ h, h < c.maxHash → ∀ be ∈ G.chain h, k ≤ be.1 → be.1 < k + c.binsPerBlock * c.isize ∨ k2 ≤ be.1 := by
      intro h hh be hbe h1
      have hb' := (I.chains h hh).bins be hbe 0 (by omega)
      obtain ⟨_, _, k', hk', i, hi', he⟩ := I.blk.bins _ _ _ hb'
      have hle : (i + 1) * c.isize ≤ c.binsPerBlock * c.isize := Nat.mul_le_mul_right _ (by omega)
      rw [Nat.add_mul] at hle
      rw [hb] at hk'
      rcases List.mem_append.mp hk' with h2 | h2
      · have := hs.2.2 k' h2 k (by simp)
        omega
      · rcases List.mem_cons.mp h2 with rfl | h2
        · left; omega
        · rcases List.mem_cons.mp h2 with rfl | h2
          · right; omega
          · have := (List.pairwise_cons.mp hs2.2).1 k' h2
            right; omega
    rcases hL5 with h5 | ⟨h5, h5b⟩
    · have hlink := I.blk.links pre k (k2 :: post) hb
      obtain ⟨M, hM1, hM2, hM3, hM4⟩ := ih (pre ++ [k]) k2 f (by rw [hb]; simp) (by simp at hf; omega)
      refine ⟨L ++ M, ?_, ?_, ?_, ?_⟩
      · unfold catBlocks
        simp only [h5, hlink, List.headD_cons]
        rw [if_neg (by omega), hM1, Option.map_some, hL1, rowsOf_append]
      · intro be hbe
        rcases List.mem_append.mp hbe with h | h
        · exact ⟨(hL2 be h).1, (hL2 be h).2.1⟩
        · have := hM2 be h
          exact ⟨this.1, by omega⟩
      · rw [List.pairwise_append]
        refine ⟨hL3, hM3, fun x hx y hy => ?_⟩
        have h1 := (hL2 x hx).2.2
        have h2 := (hM2 y hy).2
        omega
      · intro h hh be hbe h1
        rcases hcase h hh be hbe h1 with h2 | h2
        · exact List.mem_append.mpr (Or.inl (hL4 h hh be hbe h1 h2))
        · exact List.mem_append.mpr (Or.inr (hM4 h hh be hbe h2))
    · refine ⟨L, ?_, fun be h => ⟨(hL2 be h).1, (hL2 be h).2.1⟩, hL3, ?_⟩
      · unfold catBlocks
        simp only [I.free _ h5, if_true, hL1]
      · intro h hh be hbe h1
        refine hL4 h hh be hbe h1 ?_
        have hb' := (I.chains h hh).bins be hbe 0 (by omega)
        have := I.blk.ord _ be.1 h be.1 h5 (by simpa using hb')
        omega

/-- Increasing numbers below a bound are not many. -/
theorem increasing_length (l : List Nat) : ∀ lo hi, (∀ x ∈ l, lo ≤ x ∧ x < hi) → l.Pairwise (· < ·) → l.length ≤ hi - lo := by
  induction l with
  | nil => intro lo hi _ _; simp
  | cons a l ih =>
    intro lo hi h1 h2
    rw [List.pairwise_cons] at h2
    have ha := h1 a (by simp)
    have := ih (a + 1) hi (fun x hx => ⟨h2.1 x hx, (h1 x (by simp [hx])).2⟩) h2.2
    simp only [List.length_cons]
    omega

/-- The rows of the catalog, before they are cut to the size of the list. -/
theorem walk_ok (hc : c.OK) {s : Eng} (I : Inv c G s) (q : CatReq) :
    ∃ L : Chain, catBlocks c q s.disk (s.hdr.fileSize + 1) c.firstBin = some (rowsOf q L) ∧
      (∀ be ∈ L, ∃ h, h < c.maxHash ∧ be ∈ G.chain h) ∧ L.Pairwise (fun x y => x.1 < y.1) ∧
      (∀ h, h < c.maxHash → ∀ be ∈ G.chain h, be ∈ L) := by
  have hh := I.w.blk.head
  cases hb : G.blocks with
  | nil => rw [hb] at hh; cases hh
  | cons k post =>
    rw [hb] at hh
    have hk : k = c.firstBin := by simpa using hh
    have hs := I.w.blk.sorted
    rw [hb, List.pairwise_cons] at hs
    have hlt : ∀ x ∈ G.blocks, x < s.hdr.fileSize := by
      intro x hx
      apply Decidable.byContradiction
      intro hge
      have h1 := I.w.blk.own x hx
      rw [I.h.beyond _ (by omega)] at h1
      cases h1
    have hlen : post.length ≤ s.hdr.fileSize - 0 := by
      refine increasing_length post 0 _ (fun x hx => ⟨by omega, hlt x (by rw [hb]; simp [hx])⟩) ?_
      exact hs.2.imp (fun h => by omega)
    obtain ⟨L, h1, h2, h3, h4⟩ := catBlocks_ok hc I.w I.h.spare.tail (q := q) post [] k (s.hdr.fileSize + 1) (by rw [hb]; rfl) (by omega)
    rw [hk] at h1
    refine ⟨L, h1, fun be h => (h2 be h).1, h3, fun h hh' be hbe => h4 h hh' be hbe ?_⟩
    have hb' := (I.w.chains h hh').bins be hbe 0 (by have := hc.isize; omega)
    obtain ⟨_, _, k', hk', i, hi', he⟩ := I.w.blk.bins _ _ _ hb'
    rw [hb] at hk'
    rcases List.mem_cons.mp hk' with rfl | hk'
    · omega
    · have := hs.1 k' hk'; omega

end Hec
