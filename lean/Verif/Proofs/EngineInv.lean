import Verif.Proofs.EngineScan
import Verif.Spec.Store
/-! The invariant of an open file: who owns each word, the chains of bins, the records. -/
namespace Hec
open _root_.Spec (compatible)
set_option linter.unusedSimpArgs false
set_option linter.unusedVariables false

/-- Owner of a word of the file. -/
inductive Own
  | none
  | sys
  | link
  | tab (h : Nat)
  | bin (h b : Nat)
  | free
  | rcd (h a : Nat)
deriving DecidableEq

/-- Where the arrays of a record are: `cap` words from `dat` on. -/
structure Ext where
  dat : Nat
  cap : Nat

structure Ghost where
  own : Nat → Own
  chain : Nat → Chain
  last : Nat → Nat
  room : Nat → Ext
  blocks : List Nat
  tail : Nat

/-- Words certainly reserved for headers of `a`, `b` and `x` ints and `n` ints of values. -/
def reserved4 (a b x n : Nat) : Nat :=
  nLongs (a + b + x + n + if a % 2 + b % 2 + x % 2 ≤ 1 then 0 else a % 2 + b % 2 + x % 2)

theorem reserved4_le (a b x n : Nat) : reserved4 a b x n ≤ nLongs a + nLongs b + nLongs x + nLongs n := by
  unfold reserved4 nLongs
  split <;> omega

theorem reserved4_shift {a b x a' b' x' n n' : Nat} (h : a % 2 + b % 2 + x % 2 ≤ 1 ∨ a % 2 + b % 2 + x % 2 ≤ a' % 2 + b' % 2 + x' % 2)
    (hs : a + b + x + n = a' + b' + x' + n') : reserved4 a b x n ≤ reserved4 a' b' x' n' := by
  unfold reserved4
  rw [hs]
  generalize a % 2 + b % 2 + x % 2 = u at *
  generalize a' % 2 + b' % 2 + x' % 2 = u' at *
  unfold nLongs
  split <;> split <;> omega

theorem reserved4_fits {a b x n t : Nat} (h : 2 * t ≤ n) : nLongs a + nLongs b + nLongs x + t ≤ reserved4 a b x n := by
  unfold reserved4 nLongs
  split <;> omega

/-- Words reserved for the arrays described by an info block. -/
def reserved (info : Nat → Nat) : Nat :=
  reserved4 (info kinfoInternalHeadNumber) (info kinfoHeader2Number) (info kinfoUserHeadNumber) (info kinfoAllocatedSize)

/-- The record of an entry: info block and arrays lie in its room, one after the other. -/
structure RecOK (c : Cfg) (d : Disk) (room : Ext) (e : BinEnt) : Prop where
  hash : d (e.infoAdd + kinfoHash) = c.pHash e.path
  ih : d (e.infoAdd + kinfoInternalHeadAddress) = room.dat
  h2 : d (e.infoAdd + kinfoHeader2Address) =
    d (e.infoAdd + kinfoInternalHeadAddress) + nLongs (d (e.infoAdd + kinfoInternalHeadNumber))
  uh : d (e.infoAdd + kinfoUserHeadAddress) =
    d (e.infoAdd + kinfoHeader2Address) + nLongs (d (e.infoAdd + kinfoHeader2Number))
  v1 : d (e.infoAdd + kinfoValues1Address) =
    d (e.infoAdd + kinfoUserHeadAddress) + nLongs (d (e.infoAdd + kinfoUserHeadNumber))
  v2 : d (e.infoAdd + kinfoValues2Address) =
    d (e.infoAdd + kinfoValues1Address) + nLongs (d (e.infoAdd + kinfoValues1Number))
  v3 : d (e.infoAdd + kinfoValues3Address) =
    d (e.infoAdd + kinfoValues2Address) + nLongs (d (e.infoAdd + kinfoValues2Number))
  fits : d (e.infoAdd + kinfoValues3Address) + nLongs (d (e.infoAdd + kinfoValues3Number)) ≤ room.dat + room.cap
  orig : reserved (fun i => d (e.infoAdd + i)) ≤ room.cap
  tc : compatible (UInt32.ofNat (lo32 e.typeCat)) (lowInt (d (e.infoAdd + kinfoTypeVersion)))

/-- The words of a record: info block and arrays. -/
def InRec (X : Ext) (e : BinEnt) (x : Nat) : Prop :=
  (e.infoAdd ≤ x ∧ x < e.infoAdd + numberInfo e.path) ∨ (X.dat ≤ x ∧ x < X.dat + X.cap)

/-- All words of the record belong to it, and info block and arrays do not overlap. -/
structure Owned (own : Nat → Own) (h : Nat) (X : Ext) (e : BinEnt) : Prop where
  mine : ∀ x, InRec X e x → own x = .rcd h e.infoAdd
  apart : X.cap = 0 ∨ X.dat + X.cap ≤ e.infoAdd ∨ e.infoAdd + numberInfo e.path ≤ X.dat

theorem InRec.info {X : Ext} {e : BinEnt} {i : Nat} (h : i < numberInfo e.path) : InRec X e (e.infoAdd + i) :=
  Or.inl (by omega)

theorem InRec.info30 {X : Ext} {e : BinEnt} {i : Nat} (h : i < 30) : InRec X e (e.infoAdd + i) :=
  InRec.info (by simp only [numberInfo, infoSize]; omega)

theorem InRec.arr {X : Ext} {e : BinEnt} {i : Nat} (h : i < X.cap) : InRec X e (X.dat + i) := Or.inr (by omega)

theorem InRec.congr {X : Ext} {e e' : BinEnt} {x : Nat} (hp : e'.path = e.path) (ha : e'.infoAdd = e.infoAdd)
    (h : InRec X e x) : InRec X e' x := by
  unfold InRec at *; rw [hp, ha]; exact h

theorem Owned.congr {own : Nat → Own} {h : Nat} {X : Ext} {e e' : BinEnt} (hp : e'.path = e.path) (ha : e'.infoAdd = e.infoAdd)
    (o : Owned own h X e) : Owned own h X e' :=
  ⟨fun x hx => by rw [ha]; exact o.mine x (hx.congr hp.symm ha.symm), by rw [hp, ha]; exact o.apart⟩

theorem Owned.info {own : Nat → Own} {h : Nat} {X : Ext} {e : BinEnt} (o : Owned own h X e) {i : Nat} (hi : i < 30) :
    own (e.infoAdd + i) = .rcd h e.infoAdd := o.mine _ (InRec.info30 hi)

theorem Owned.head {own : Nat → Own} {h : Nat} {X : Ext} {e : BinEnt} (o : Owned own h X e) :
    own e.infoAdd = .rcd h e.infoAdd := by simpa using o.info (i := 0) (by omega)

theorem reserved_congr {f g : Nat → Nat} (h : ∀ i, i < 30 → f i = g i) : reserved f = reserved g := by
  simp only [reserved, h kinfoInternalHeadNumber (by decide), h kinfoHeader2Number (by decide),
    h kinfoUserHeadNumber (by decide), h kinfoAllocatedSize (by decide)]

theorem reserved_congr1 {f g : Nat → Nat} (h : ∀ i, i < 30 → i ≠ kinfoStatus → f i = g i) : reserved f = reserved g := by
  simp only [reserved, h kinfoInternalHeadNumber (by decide) (by decide), h kinfoHeader2Number (by decide) (by decide),
    h kinfoUserHeadNumber (by decide) (by decide), h kinfoAllocatedSize (by decide) (by decide)]

theorem RecOK_congr1 {c : Cfg} {d d' : Disk} {room room' : Ext} {e e' : BinEnt} (hr : room' = room)
    (hp : e'.path = e.path) (ha : e'.infoAdd = e.infoAdd) (ht : e'.typeCat = e.typeCat)
    (h : ∀ i, i < 30 → i ≠ kinfoStatus → d' (e.infoAdd + i) = d (e.infoAdd + i)) (hk : RecOK c d room e) :
    RecOK c d' room' e' := by
  subst hr
  refine ⟨?_, ?_, ?_, ?_, ?_, ?_, ?_, ?_, ?_, ?_⟩
  all_goals
    rw [ha]
    try rw [hp]
  · rw [h _ (by decide) (by decide)]; exact hk.hash
  · rw [h _ (by decide) (by decide)]; exact hk.ih
  · rw [h _ (by decide) (by decide), h _ (by decide) (by decide), h _ (by decide) (by decide)]; exact hk.h2
  · rw [h _ (by decide) (by decide), h _ (by decide) (by decide), h _ (by decide) (by decide)]; exact hk.uh
  · rw [h _ (by decide) (by decide), h _ (by decide) (by decide), h _ (by decide) (by decide)]; exact hk.v1
  · rw [h _ (by decide) (by decide), h _ (by decide) (by decide), h _ (by decide) (by decide)]; exact hk.v2
  · rw [h _ (by decide) (by decide), h _ (by decide) (by decide), h _ (by decide) (by decide)]; exact hk.v3
  · rw [h _ (by decide) (by decide), h _ (by decide) (by decide)]; exact hk.fits
  · rw [reserved_congr1 (g := fun i => d (e.infoAdd + i)) h]; exact hk.orig
  · rw [h _ (by decide) (by decide), ht]; exact hk.tc

theorem RecOK_congr {c : Cfg} {d d' : Disk} {room room' : Ext} {e e' : BinEnt} (hr : room' = room)
    (hp : e'.path = e.path) (ha : e'.infoAdd = e.infoAdd) (ht : e'.typeCat = e.typeCat)
    (h : ∀ i, i < 30 → d' (e.infoAdd + i) = d (e.infoAdd + i)) (hk : RecOK c d room e) :
    RecOK c d' room' e' := RecOK_congr1 hr hp ha ht (fun i hi _ => h i hi) hk

/-- One chain of bins, of table hash `h`; `ax` is the info address of a record that is being
written (0 for none). -/
structure ChainOK (c : Cfg) (own : Nat → Own) (room : Nat → Ext) (d : Disk) (h last ax : Nat) (C : Chain) : Prop where
  at_ : ChainAt c d (d (c.hashStart + h)) C last
  bins : ∀ be ∈ C, ∀ i, i < c.isize → own (be.1 + i) = .bin h be.1
  ok : ∀ e ∈ centries C, EntryOK c h e
  rcd : ∀ e ∈ centries C, ¬ gone e → Owned own h (room e.infoAdd) e
  nodupB : (C.map (·.1)).Nodup
  nodupR : (centries C).Pairwise fun e f => ¬ gone e → ¬ gone f → e.infoAdd ≠ f.infoAdd
  order : (centries C).Pairwise fun e f => ¬ gone e → Same e.path f.path → dead f
  recs : ∀ e ∈ centries C, ¬ gone e → e.infoAdd ≠ ax → RecOK c d (room e.infoAdd) e

theorem ChainAt_congr {c : Cfg} (hc : c.OK) {d d' : Disk} {last : Nat} (C : Chain) : ∀ {a : Nat},
    (∀ be ∈ C, ∀ i, i < c.isize → d' (be.1 + i) = d (be.1 + i)) → ChainAt c d a C last → ChainAt c d' a C last := by
  have hi := hc.isize
  induction C with
  | nil => intro a _ h; exact h
  | cons be C ih =>
    obtain ⟨b, es⟩ := be
    intro a hd hat
    obtain ⟨h1, h2, h3, h4⟩ := hat
    have hb := hd (b, es) (by simp)
    refine ⟨h1, h2, BinAt_congr (by omega) (fun i hi' => hb i (by omega)) h3, ?_⟩
    rw [hb _ (by omega)]
    exact ih (fun be h => hd be (by simp [h])) h4

/-- Words a chain and its records live in. -/
def Mine (own : Nat → Own) (h ax x : Nat) : Prop :=
  own x = .tab h ∨ (∃ b, own x = .bin h b) ∨ ∃ a, a ≠ ax ∧ own x = .rcd h a

theorem ChainOK.frame {c : Cfg} (hc : c.OK) {own own' : Nat → Own} {room room' : Nat → Ext} {d d' : Disk} {h last ax : Nat} {C : Chain}
    (k : ChainOK c own room d h last ax C) (ht : own (c.hashStart + h) = .tab h)
    (ho : ∀ x, (∃ b, own x = .bin h b) ∨ (∃ a, own x = .rcd h a) → own' x = own x)
    (hr : ∀ x, own x = .rcd h x → room' x = room x)
    (hd : ∀ x, Mine own h ax x → d' x = d x) : ChainOK c own' room' d' h last ax C := by
  have hi := hc.isize
  have hrr : ∀ e ∈ centries C, ¬ gone e → room' e.infoAdd = room e.infoAdd := by
    intro e he hg
    exact hr _ (k.rcd e he hg).head
  refine ⟨?_, ?_, k.ok, ?_, k.nodupB, k.nodupR, k.order, ?_⟩
  · rw [hd _ (Or.inl ht)]
    refine ChainAt_congr hc C (fun be hbe i hi' => hd _ (Or.inr (Or.inl ⟨be.1, k.bins be hbe i hi'⟩))) k.at_
  · intro be hbe i hi'
    rw [ho _ (Or.inl ⟨_, k.bins be hbe i hi'⟩)]
    exact k.bins be hbe i hi'
  · intro e he hg
    rw [hrr e he hg]
    refine ⟨fun x hx => ?_, (k.rcd e he hg).apart⟩
    rw [ho _ (Or.inr ⟨_, (k.rcd e he hg).mine x hx⟩)]
    exact (k.rcd e he hg).mine x hx
  · intro e he hg hne
    have hrec := k.recs e he hg hne
    refine RecOK_congr (hrr e he hg) rfl rfl rfl (fun i hi' => ?_) hrec
    apply hd
    exact Or.inr (Or.inr ⟨e.infoAdd, hne, (k.rcd e he hg).info hi'⟩)

/-- The blocks of bins: they are linked from the first one of the file, `tail` is the link word of the last
one; every bin lies in a slot of a block, used slots come before free ones, no used bin is empty. -/
structure Blk (c : Cfg) (G : Ghost) (d : Disk) : Prop where
  head : G.blocks.head? = some c.firstBin
  links : ∀ pre b post, G.blocks = pre ++ b :: post → d (b + c.binsPerBlock * c.isize) = post.headD G.tail
  own : ∀ b ∈ G.blocks, G.own (b + c.binsPerBlock * c.isize) = .link
  slots : ∀ b ∈ G.blocks, ∀ i, i < c.binsPerBlock → G.own (b + i * c.isize) = .free ∨
    ∃ h, G.own (b + i * c.isize) = .bin h (b + i * c.isize)
  bins : ∀ x h b, G.own x = .bin h b → h < c.maxHash ∧ (∃ be ∈ G.chain h, be.1 = b) ∧
    ∃ k ∈ G.blocks, ∃ i, i < c.binsPerBlock ∧ b = k + i * c.isize
  full : ∀ h, h < c.maxHash → ∀ be ∈ G.chain h, be.2 ≠ []
  sorted : G.blocks.Pairwise fun a b => a + c.binsPerBlock * c.isize < b
  ord : ∀ x y h b, G.own x = .free → G.own y = .bin h b → y < x

/-- Other words, same bins. -/
theorem Blk.frame {c : Cfg} {G G' : Ghost} {d d' : Disk} (B : Blk c G d)
    (hb : G'.blocks = G.blocks) (ht : G'.tail = G.tail)
    (ho : ∀ x, G.own x ≠ .none → G'.own x = G.own x)
    (ho2 : ∀ x, G.own x = .none → G'.own x ≠ .free ∧ ∀ h b, G'.own x ≠ .bin h b)
    (hc : ∀ h, (G'.chain h).map (·.1) = (G.chain h).map (·.1))
    (hf : ∀ h, h < c.maxHash → ∀ be ∈ G'.chain h, be.2 ≠ [])
    (hd : ∀ x, G.own x = .link → d' x = d x) : Blk c G' d' := by
  have hbin : ∀ x h b, G'.own x = .bin h b → G.own x = .bin h b := by
    intro x h b hx
    by_cases h0 : G.own x = .none
    · exact absurd hx ((ho2 x h0).2 h b)
    · rw [← ho x h0]; exact hx
  have hfree : ∀ x, G'.own x = .free → G.own x = .free := by
    intro x hx
    by_cases h0 : G.own x = .none
    · exact absurd hx (ho2 x h0).1
    · rw [← ho x h0]; exact hx
  refine ⟨by rw [hb]; exact B.head, ?_, ?_, ?_, ?_, hf, by rw [hb]; exact B.sorted, ?_⟩
  · intro pre b post h
    rw [hb] at h
    rw [hd _ (B.own b (by rw [h]; simp)), ht]
    exact B.links pre b post h
  · intro b h
    rw [hb] at h
    have := B.own b h
    rw [ho _ (by rw [this]; intro h; cases h)]; exact this
  · intro b h i hi
    rw [hb] at h
    rcases B.slots b h i hi with h1 | ⟨k, h1⟩
    · exact Or.inl (by rw [ho _ (by rw [h1]; intro h; cases h)]; exact h1)
    · exact Or.inr ⟨k, by rw [ho _ (by rw [h1]; intro h; cases h)]; exact h1⟩
  · intro x h b hx
    obtain ⟨h1, ⟨be, h2, h3⟩, h4⟩ := B.bins x h b (hbin x h b hx)
    refine ⟨h1, ?_, by rw [hb]; exact h4⟩
    have : be.1 ∈ (G'.chain h).map (·.1) := by rw [hc]; exact List.mem_map_of_mem (f := (·.1)) h2
    obtain ⟨be', h5, h6⟩ := List.mem_map.mp this
    exact ⟨be', h5, by rw [h6]; exact h3⟩
  · intro x y h b h1 h2
    exact B.ord x y h b (hfree x h1) (hbin y h b h2)

/-- The part of the invariant that speaks of the disk.  `hx`, `ax`: chain and address of the record
being written. -/
structure InvW (c : Cfg) (G : Ghost) (d : Disk) (hx ax : Nat) : Prop where
  sys : ∀ x, x < c.hdrSize → G.own x = .sys
  tab : ∀ h, h < c.maxHash → G.own (c.hashStart + h) = .tab h
  free : ∀ x, G.own x = .free → d x = 0
  chains : ∀ h, h < c.maxHash → ChainOK c G.own G.room d h (G.last h) (if h = hx then ax else 0) (G.chain h)
  blk : Blk c G d

/-- Info addresses are not zero. -/
theorem InvW.info_ne {c : Cfg} (hc : c.OK) {G : Ghost} {d : Disk} {hx ax : Nat} (I : InvW c G d hx ax) {h : Nat}
    (hh : h < c.maxHash) {e : BinEnt} (he : e ∈ centries (G.chain h)) (hg : ¬ gone e) : e.infoAdd ≠ 0 := by
  intro h0
  have h2 := ((I.chains h hh).rcd e he hg).head
  have h3 := I.sys 0 (by have := hc.hdr; omega)
  rw [h0] at h2
  rw [h3] at h2
  cases h2

/-- Words that nothing but the record being written depends on. -/
def Quiet (own : Nat → Own) (hx ax x : Nat) : Prop := own x = .none ∨ own x = .sys ∨ (own x = .rcd hx ax ∧ ax ≠ 0)

theorem InvW.quiet {c : Cfg} (hc : c.OK) {G : Ghost} {d d' : Disk} {hx ax : Nat} (I : InvW c G d hx ax)
    (hd : ∀ x, ¬ Quiet G.own hx ax x → d' x = d x) : InvW c G d' hx ax := by
  refine ⟨I.sys, I.tab, ?_, ?_, I.blk.frame rfl rfl (fun _ _ => rfl) (fun x h => ⟨by simp [h], by simp [h]⟩) (fun _ => rfl) I.blk.full
    fun x hl => hd x (by rintro (h | h | ⟨h, _⟩) <;> rw [hl] at h <;> cases h)⟩
  · intro x hx'
    rw [hd x (by rintro (h | h | ⟨h, _⟩) <;> rw [hx'] at h <;> cases h)]
    exact I.free x hx'
  · intro h hh
    refine (I.chains h hh).frame hc (I.tab h hh) (fun _ _ => rfl) (fun _ _ => rfl) (fun x hm => ?_)
    apply hd
    rintro (h1 | h1 | ⟨h1, h1'⟩)
    · rcases hm with h | ⟨_, h⟩ | ⟨_, _, h⟩ <;> rw [h1] at h <;> cases h
    · rcases hm with h | ⟨_, h⟩ | ⟨_, _, h⟩ <;> rw [h1] at h <;> cases h
    · rcases hm with h | ⟨_, h⟩ | ⟨a, ha, h⟩
      · rw [h1] at h; cases h
      · rw [h1] at h; cases h
      · rw [h1] at h; cases h; simp at ha

/-- The link word of the last block is set. -/
theorem InvW.setTail {c : Cfg} (hc : c.OK) {G : Ghost} {d d' : Disk} {hx ax v lb : Nat} {bs : List Nat} (I : InvW c G d hx ax)
    (hb : G.blocks = bs ++ [lb]) (hd : ∀ x, x ≠ lb + c.binsPerBlock * c.isize → d' x = d x)
    (hv : d' (lb + c.binsPerBlock * c.isize) = v) : InvW c { G with tail := v } d' hx ax := by
  have hl := I.blk.own lb (by rw [hb]; simp)
  refine ⟨I.sys, I.tab, ?_, ?_, ⟨I.blk.head, ?_, I.blk.own, I.blk.slots, I.blk.bins, I.blk.full, I.blk.sorted, I.blk.ord⟩⟩
  · intro x hx'
    have hx' : G.own x = .free := hx'
    rw [hd x (by intro h; rw [← h, hx'] at hl; cases hl)]
    exact I.free x hx'
  · intro h hh
    refine (I.chains h hh).frame hc (I.tab h hh) (fun _ _ => rfl) (fun _ _ => rfl) (fun x hm => ?_)
    apply hd
    intro he
    rw [← he] at hl
    rcases hm with h | ⟨_, h⟩ | ⟨_, _, h⟩ <;> rw [hl] at h <;> cases h
  · intro pre b post h
    have h : G.blocks = pre ++ b :: post := h
    cases post with
    | nil =>
      rw [hb] at h
      have h1 := List.append_inj' h (by simp)
      have h2 : lb = b := by simpa using h1.2
      rw [← h2]; exact hv
    | cons b' post =>
      have hs := I.blk.sorted
      rw [h, List.pairwise_append] at hs
      have hmem : lb ∈ b' :: post := by
        have h1 : (pre ++ b :: b' :: post).getLast? = some lb := by rw [← h, hb]; simp
        rw [List.getLast?_append, List.getLast?_cons_cons] at h1
        have h2 : (b' :: post).getLast? = some lb := by
          cases h3 : (b' :: post).getLast? with
          | none => simp at h3
          | some v => rw [h3] at h1; simpa using h1
        exact List.mem_of_getLast? h2
      have := (List.pairwise_cons.mp hs.2.1).1 lb hmem
      rw [hd _ (by omega)]
      exact I.blk.links pre b (b' :: post) h

/-- A block of free bins is put behind the last one. -/
theorem Blk.newBlock {c : Cfg} {G : Ghost} {d : Disk} {nb : Nat} {room' : Nat → Ext} {own' : Nat → Own} (B : Blk c G d) (hi : 0 < c.isize)
    (ht : G.tail = nb) (hbey : ∀ x, nb ≤ x → G.own x = .none) (hnf : ∀ x, G.own x ≠ .free) (hz : d (nb + c.binsPerBlock * c.isize) = 0)
    (ho : ∀ x, own' x = if nb ≤ x ∧ x < nb + c.isize * c.binsPerBlock then .free else if x = nb + c.isize * c.binsPerBlock then .link else G.own x) :
    Blk c { G with own := own', room := room', blocks := G.blocks ++ [nb], tail := 0 } d := by
  have hm : c.isize * c.binsPerBlock = c.binsPerBlock * c.isize := Nat.mul_comm _ _
  rw [hm] at ho
  have hlt : ∀ x, G.own x ≠ .none → x < nb := by
    intro x h
    apply Decidable.byContradiction
    intro h'; exact h (hbey x (by omega))
  have hown : ∀ x, G.own x ≠ .none → own' x = G.own x := by
    intro x h
    have := hlt x h
    rw [ho, if_neg (by omega), if_neg (by omega)]
  have hbin : ∀ x h b, own' x = .bin h b → G.own x = .bin h b := by
    intro x h b hx
    rw [ho] at hx
    split at hx
    · cases hx
    · split at hx
      · cases hx
      · exact hx
  refine ⟨?_, ?_, ?_, ?_, ?_, B.full, ?_, ?_⟩
  · have := B.head
    show (G.blocks ++ [nb]).head? = _
    cases hb : G.blocks with
    | nil => rw [hb] at this; cases this
    | cons a l => rw [hb] at this; simpa using this
  · intro pre b post h
    have h : G.blocks ++ [nb] = pre ++ b :: post := h
    show d _ = post.headD 0
    rcases List.eq_nil_or_concat post with rfl | ⟨post', x, rfl⟩
    · have h1 := List.append_inj' h (by simp)
      have h2 : nb = b := by simpa using h1.2
      rw [← h2]; exact hz
    · have h' : G.blocks ++ [nb] = (pre ++ b :: post') ++ [x] := by rw [h]; simp
      have h1 := List.append_inj' h' (by simp)
      have h2 : nb = x := by simpa using h1.2
      rw [B.links pre b post' h1.1, ht, h2]
      cases post' <;> simp
  · intro b h
    simp only [List.mem_append, List.mem_singleton] at h
    rcases h with h | rfl
    · have := B.own b h
      show own' _ = _
      rw [hown _ (by rw [this]; intro h; cases h)]; exact this
    · show own' _ = _
      rw [ho, if_neg (by omega), if_pos rfl]
  · intro b h i hi'
    simp only [List.mem_append, List.mem_singleton] at h
    show own' _ = _ ∨ ∃ k, own' _ = _
    rcases h with h | rfl
    · rcases B.slots b h i hi' with h1 | ⟨k, h1⟩
      · exact absurd h1 (hnf _)
      · exact Or.inr ⟨k, by rw [hown _ (by rw [h1]; intro h; cases h)]; exact h1⟩
    · left
      have h3 : (i + 1) * c.isize ≤ c.binsPerBlock * c.isize := Nat.mul_le_mul_right _ (by omega)
      rw [Nat.add_mul] at h3
      rw [ho, if_pos (by omega)]
  · intro x h b hx
    obtain ⟨h1, h2, k, h3, h4⟩ := B.bins x h b (hbin x h b hx)
    exact ⟨h1, h2, k, by simp [h3], h4⟩
  · show (G.blocks ++ [nb]).Pairwise _
    rw [List.pairwise_append]
    refine ⟨B.sorted, by simp, ?_⟩
    intro a ha b hb
    simp at hb
    subst hb
    exact hlt _ (by rw [B.own a ha]; intro h; cases h)
  · intro x y h b h1 h2
    have h2 := hlt y (by rw [hbin y h b h2]; intro h; cases h)
    have h1 : own' x = .free := h1
    rw [ho] at h1
    split at h1
    · omega
    · split at h1
      · cases h1
      · exact absurd h1 (hnf x)

/-- Words without owner get one. -/
theorem InvW.recolor {c : Cfg} (hc : c.OK) {G : Ghost} {d : Disk} {hx ax : Nat} (I : InvW c G d hx ax)
    {own' : Nat → Own} {room' : Nat → Ext}
    (ho : ∀ x, G.own x ≠ .none → own' x = G.own x) (hf : ∀ x, own' x = .free → d x = 0)
    (hr : ∀ x, G.own x ≠ .none → room' x = G.room x) {blocks' : List Nat} {tail' : Nat}
    (hB : Blk c { G with own := own', room := room', blocks := blocks', tail := tail' } d) :
    InvW c { G with own := own', room := room', blocks := blocks', tail := tail' } d hx ax := by
  refine ⟨?_, ?_, hf, ?_, hB⟩
  · intro x h
    show own' x = _
    rw [ho x (by rw [I.sys x h]; intro h; cases h)]; exact I.sys x h
  · intro x h
    show own' _ = _
    rw [ho _ (by rw [I.tab x h]; intro h; cases h)]; exact I.tab x h
  · intro h hh
    refine (I.chains h hh).frame hc (I.tab h hh) (fun x hx' => ?_) (fun x hx' => ?_) (fun x _ => rfl)
    · apply ho
      rcases hx' with ⟨_, h⟩ | ⟨_, h⟩ <;> rw [h] <;> intro h <;> cases h
    · apply hr
      rw [hx']; intro h; cases h

/-- Chain `hx` is replaced by another one. -/
theorem InvW.setChain {c : Cfg} (hc : c.OK) {G : Ghost} {d d' : Disk} {hx ax ax' last' : Nat} (I : InvW c G d hx ax)
    {own' : Nat → Own} {C' : Chain}
    (ho : ∀ x, own' x = G.own x ∨ (G.own x = .free ∧ ∃ b, own' x = .bin hx b))
    (hd : ∀ x, d' x = d x ∨ G.own x = .tab hx ∨ ∃ b, own' x = .bin hx b)
    (hC : ChainOK c own' G.room d' hx last' ax' C')
    (hB : Blk c { G with own := own', chain := (fun h => if h = hx then C' else G.chain h), last := (fun h => if h = hx then last' else G.last h) } d') :
    InvW c { G with own := own', chain := (fun h => if h = hx then C' else G.chain h), last := (fun h => if h = hx then last' else G.last h) } d' hx ax' := by
  have ho1 : ∀ x, G.own x ≠ .free → own' x = G.own x := by
    intro x h; rcases ho x with h' | ⟨h', _⟩
    · exact h'
    · exact absurd h' h
  refine ⟨?_, ?_, ?_, ?_, hB⟩
  · intro x h
    show own' x = _
    rw [ho1 x (by rw [I.sys x h]; intro h; cases h)]; exact I.sys x h
  · intro x h
    show own' _ = _
    rw [ho1 _ (by rw [I.tab x h]; intro h; cases h)]; exact I.tab x h
  · intro x hx'
    have hx' : own' x = .free := hx'
    have hfx : G.own x = .free := by
      rcases ho x with h' | ⟨h', b, h2⟩
      · rw [← h']; exact hx'
      · exact h'
    rcases hd x with h | h | ⟨b, h⟩
    · rw [h]; exact I.free x hfx
    · rw [hfx] at h; cases h
    · rw [hx'] at h; cases h
  · intro h hh
    by_cases hhx : h = hx
    · subst hhx
      simp only [if_true]
      exact hC
    · simp only [if_neg hhx]
      have k := I.chains h hh
      rw [if_neg hhx] at k
      refine k.frame hc (I.tab h hh) (fun x hx' => ?_) (fun x hx' => rfl) (fun x hm => ?_)
      · apply ho1
        rcases hx' with ⟨_, h⟩ | ⟨_, h⟩ <;> rw [h] <;> intro h <;> cases h
      · have hne : G.own x ≠ .free := by
          rcases hm with h | ⟨_, h⟩ | ⟨_, _, h⟩ <;> rw [h] <;> intro h <;> cases h
        rcases hd x with h' | h' | ⟨b, h'⟩
        · exact h'
        · rcases hm with h | ⟨_, h⟩ | ⟨_, _, h⟩ <;> rw [h'] at h <;> cases h
          exact absurd rfl hhx
        · rw [ho1 x hne] at h'
          rcases hm with h | ⟨_, h⟩ | ⟨_, _, h⟩ <;> rw [h'] at h <;> cases h
          exact absurd rfl hhx

/-- The free bins: from `next` on there are `n` of them, up to the end of the last block. -/
structure Spares (c : Cfg) (G : Ghost) (next n : Nat) : Prop where
  tail : G.tail = 0
  used : ∀ x, G.own x = .free → next ≤ x ∧ x < next + n * c.isize
  lastB : ∃ bs lb k, G.blocks = bs ++ [lb] ∧ next = lb + k * c.isize ∧ k + n = c.binsPerBlock

/-- The part of the invariant that speaks of the header. -/
structure InvH (c : Cfg) (G : Ghost) (h : Hdr) : Prop where
  beyond : ∀ x, h.fileSize ≤ x → G.own x = .none
  free : ∀ i, i < h.binsRemain * c.isize → G.own (h.nextEmpty + i) = .free
  link : G.own (h.nextEmpty + h.binsRemain * c.isize) = .link
  len : ∀ x, x < c.maxHash → (G.chain x).length ≤ h.totalBins
  spare : Spares c G h.nextEmpty h.binsRemain

/-- The invariant between operations. -/
structure Inv (c : Cfg) (G : Ghost) (s : Eng) : Prop where
  w : InvW c G s.disk 0 0
  h : InvH c G s.hdr
  last : ∀ h, h < c.maxHash → G.last h = 0

theorem InvW.idle {c : Cfg} {G : Ghost} {d : Disk} {hx hx' : Nat} (I : InvW c G d hx 0) : InvW c G d hx' 0 := by
  refine ⟨I.sys, I.tab, I.free, fun h hh => ?_, I.blk⟩
  have := I.chains h hh
  simpa using this

end Hec
