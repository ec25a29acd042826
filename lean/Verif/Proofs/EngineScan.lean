import Verif.Proofs.EngineBase
/-! Pathname bins as lists of entries, and what the searches find in them. -/
namespace Hec

/-- Same pathname up to letter case. -/
def Same (p q : Bytes) : Prop := p.map toupper = q.map toupper
instance (p q : Bytes) : Decidable (Same p q) := by unfold Same; infer_instance

theorem Same.length {p q : Bytes} (h : Same p q) : p.length = q.length := by
  have := congrArg List.length h; simpa using this
theorem Same.refl (p : Bytes) : Same p p := rfl
theorem Same.symm {p q : Bytes} (h : Same p q) : Same q p := Eq.symm h
theorem Same.trans {p q r : Bytes} (h : Same p q) (h' : Same q r) : Same p r := Eq.trans h h'

/-- What the engine needs from the sizes and hash functions of a file. -/
structure Cfg.OK (c : Cfg) : Prop where
  isize : 58 ≤ c.isize
  bins : 1 ≤ c.binsPerBlock
  hdr : 12 ≤ c.hdrSize
  tHash_lt : ∀ p : Bytes, p.length ≤ 392 → c.tHash p < c.maxHash
  tHash_same : ∀ p q : Bytes, Same p q → c.tHash p = c.tHash q
  pHash_same : ∀ p q : Bytes, Same p q → c.pHash p = c.pHash q
  pHash_ne : ∀ p : Bytes, c.pHash p ≠ 0

/-- One entry of a pathname bin. -/
structure BinEnt where
  st : Nat
  path : Bytes
  infoAdd : Nat
  typeCat : Nat
  lastWrite : Nat
  dates : Nat

def BinEnt.size (e : BinEnt) : Nat := 7 + nLongsB e.path.length

def esize : List BinEnt → Nat
  | [] => 0
  | e :: es => e.size + esize es

theorem esize_append (a b : List BinEnt) : esize (a ++ b) = esize a + esize b := by
  induction a with
  | nil => simp [esize]
  | cons e a ih => simp only [List.cons_append, esize, ih]; omega

theorem length_le_esize (a : List BinEnt) : a.length ≤ esize a := by
  induction a with
  | nil => simp
  | cons e a ih => simp only [List.length_cons, esize, BinEnt.size]; omega

def EntryAt (c : Cfg) (d : Disk) (x : Nat) (e : BinEnt) : Prop :=
  d x = c.pHash e.path ∧ d (x + 1) = e.st ∧ d (x + 2) = pack32 e.path.length (nLongsB e.path.length) ∧
  d (x + 3) = e.infoAdd ∧ d (x + 4) = e.typeCat ∧ d (x + 5) = e.lastWrite ∧ d (x + 6) = e.dates ∧
  unpackBytes (fun j => d (x + 7 + j)) e.path.length = e.path

def EntriesAt (c : Cfg) (d : Disk) : Nat → List BinEnt → Prop
  | _, [] => True
  | x, e :: es => EntryAt c d x e ∧ EntriesAt c d (x + e.size) es

def live (e : BinEnt) : Prop := e.st = 0 ∨ e.st = 1
instance (e : BinEnt) : Decidable (live e) := by unfold live; infer_instance

/-- An entry whose record was renamed: nothing belongs to it. -/
def gone (e : BinEnt) : Prop := e.st = REC_STATUS_RENAMED
instance (e : BinEnt) : Decidable (gone e) := by unfold gone; infer_instance

/-- A deleted or renamed entry: its place in the bin may be taken. -/
def dead (e : BinEnt) : Prop := e.st = REC_STATUS_DELETED ∨ gone e
instance (e : BinEnt) : Decidable (dead e) := by unfold dead; infer_instance

theorem live_not_dead {e : BinEnt} (h : live e) : ¬ dead e := by
  rintro (h' | h')
  · rcases h with h | h <;> rw [h] at h' <;> exact absurd h' (by decide)
  · rcases h with h | h <;> rw [gone, h] at h' <;> exact absurd h' (by decide)

theorem live_not_gone {e : BinEnt} (h : live e) : ¬ gone e := fun h' => live_not_dead h (Or.inr h')

theorem deleted_not_gone {e : BinEnt} (h : e.st = REC_STATUS_DELETED) : ¬ gone e := by
  intro h'; rw [gone, h] at h'; exact absurd h' (by decide)

structure EntryOK (c : Cfg) (h : Nat) (e : BinEnt) : Prop where
  hash : c.tHash e.path = h
  pos : 0 < e.path.length
  len : e.path.length ≤ 392
  st : live e ∨ dead e

structure BinAt (c : Cfg) (d : Disk) (b : Nat) (es : List BinEnt) : Prop where
  entries : EntriesAt c d b es
  fits : esize es ≤ c.isize - 2
  zero : ∀ i, esize es ≤ i → i < c.isize - 1 → d (b + i) = 0

theorem EntriesAt_congr {c : Cfg} {d d' : Disk} {es : List BinEnt} : ∀ {x : Nat},
    (∀ i, i < esize es → d' (x + i) = d (x + i)) → EntriesAt c d x es → EntriesAt c d' x es := by
  induction es with
  | nil => intro x h hh; trivial
  | cons e es ih =>
    intro x h hh
    obtain ⟨⟨h0, h1, h2, h3, h4, h5, h6, h7⟩, hr⟩ := hh
    simp only [esize, BinEnt.size] at h
    refine ⟨⟨?_, ?_, ?_, ?_, ?_, ?_, ?_, ?_⟩, ?_⟩
    · rw [← h0]; exact h 0 (by omega)
    · rw [← h1]; exact h 1 (by omega)
    · rw [← h2]; exact h 2 (by omega)
    · rw [← h3]; exact h 3 (by omega)
    · rw [← h4]; exact h 4 (by omega)
    · rw [← h5]; exact h 5 (by omega)
    · rw [← h6]; exact h 6 (by omega)
    · refine Eq.trans (unpackBytes_congr fun j hj => ?_) h7
      have := h (7 + j) (by omega)
      rw [show x + 7 + j = x + (7 + j) by omega]; exact this
    · apply ih _ hr
      intro i hi
      have := h (e.size + i) (by simp only [BinEnt.size]; omega)
      rw [show x + e.size + i = x + (e.size + i) by omega]; exact this

theorem EntriesAt_append {c : Cfg} {d : Disk} {es fs : List BinEnt} : ∀ {x : Nat},
    EntriesAt c d x (es ++ fs) ↔ EntriesAt c d x es ∧ EntriesAt c d (x + esize es) fs := by
  induction es with
  | nil => intro x; simp [EntriesAt, esize]
  | cons e es ih =>
    intro x
    simp only [List.cons_append, EntriesAt, esize, ih, and_assoc, Nat.add_assoc]

theorem BinAt_congr {c : Cfg} {d d' : Disk} {b : Nat} {es : List BinEnt} (hi : 2 ≤ c.isize)
    (h : ∀ i, i < c.isize - 1 → d' (b + i) = d (b + i)) (hb : BinAt c d b es) : BinAt c d' b es := by
  refine ⟨EntriesAt_congr (fun i hi' => h i ?_) hb.entries, hb.fits, fun i h1 h2 => ?_⟩
  · have := hb.fits; omega
  · rw [h i h2]; exact hb.zero i h1 h2

/-! ### Searching one bin -/

/-- The entry is for the pathname and has the wanted status. -/
def EMatch (path : Bytes) (wanted : Nat) (e : BinEnt) : Prop :=
  Same path e.path ∧ statusMatches e.st wanted = true
instance (p w e) : Decidable (EMatch p w e) := by unfold EMatch; infer_instance

/-- A deleted entry with room for the pathname. -/
def Spare (path : Bytes) (e : BinEnt) : Prop :=
  e.st = REC_STATUS_DELETED ∧ nLongsB path.length ≤ nLongsB e.path.length
instance (p e) : Decidable (Spare p e) := by unfold Spare; infer_instance

/-- `kbinWithSpace` after looking at entries. -/
def wsE (path : Bytes) (b : Nat) (ws : Nat) : List BinEnt → Nat
  | [] => ws
  | e :: es => wsE path b (if Spare path e ∧ ws = 0 then b else ws) es

theorem scan_step {c : Cfg} (hc : c.OK) {d : Disk} {h : Nat} {path : Bytes} {wanted b fuel ic ws : Nat}
    {e : BinEnt} (he : EntryAt c d (b + ic) e) (ho : EntryOK c h e) :
    scanBin c path wanted b (fun i => d (b + i)) (fuel + 1) ic ws =
      if EMatch path wanted e then (some ic, ws)
      else if ic + e.size ≥ c.isize - 2 then (none, if Spare path e ∧ ws = 0 then b else ws)
      else scanBin c path wanted b (fun i => d (b + i)) fuel (ic + e.size) (if Spare path e ∧ ws = 0 then b else ws) := by
  obtain ⟨h0, h1, h2, h3, h4, h5, h6, h7⟩ := he
  have hlen := ho.len
  have hlo : lo32 (d (b + (ic + 2))) = e.path.length := by
    rw [show b + (ic + 2) = b + ic + 2 by omega, h2]; exact lo32_pack (by omega)
  have hhi : hi32 (d (b + (ic + 2))) = nLongsB e.path.length := by
    rw [show b + (ic + 2) = b + ic + 2 by omega, h2]; exact hi32_pack (by omega)
  have hne : ¬ d (b + ic) = 0 := by rw [h0]; exact hc.pHash_ne _
  have hst : d (b + (ic + 1)) = e.st := by rw [show b + (ic + 1) = b + ic + 1 by omega, h1]
  have hm : (d (b + ic) = c.pHash path ∧ lo32 (d (b + (ic + 2))) = path.length ∧
      zstringCompare path (unpackBytes (fun j => d (b + (ic + 7 + j))) path.length) path.length = true ∧
      statusMatches (d (b + (ic + 1))) wanted = true) ↔ EMatch path wanted e := by
    rw [hlo, hst, h0]
    have hub : ∀ n, n = e.path.length → unpackBytes (fun j => d (b + (ic + 7 + j))) n = e.path := by
      intro n hn; rw [hn]; conv => rhs; rw [← h7]
      congr 1; funext j; congr 1; omega
    unfold EMatch
    constructor
    · rintro ⟨_, hl, hcmp, hs⟩
      rw [hub _ hl.symm, compare_iff _ _ hl] at hcmp
      exact ⟨hcmp, hs⟩
    · rintro ⟨hsame, hs⟩
      refine ⟨(hc.pHash_same _ _ hsame).symm, hsame.length.symm, ?_, hs⟩
      rw [hub _ hsame.length, compare_iff _ _ hsame.length.symm]; exact hsame
  conv => lhs; unfold scanBin
  simp only [if_neg hne]
  by_cases hmm : EMatch path wanted e
  · rw [if_pos (hm.mpr hmm), if_pos hmm]
  · rw [if_neg (fun x => hmm (hm.mp x)), if_neg hmm]
    have hw : (if d (b + (ic + 1)) = REC_STATUS_DELETED ∧ ws = 0 ∧ nLongsB path.length ≤ hi32 (d (b + (ic + 2))) then b else ws)
        = (if Spare path e ∧ ws = 0 then b else ws) := by
      rw [hst, hhi]
      have : (e.st = REC_STATUS_DELETED ∧ ws = 0 ∧ nLongsB path.length ≤ nLongsB e.path.length) ↔ (Spare path e ∧ ws = 0) := by
        unfold Spare; constructor
        · rintro ⟨a, b, c⟩; exact ⟨⟨a, c⟩, b⟩
        · rintro ⟨⟨a, c⟩, b⟩; exact ⟨a, b, c⟩
      simp only [this]
    rw [hw, hhi]
    rfl

theorem scan_none {c : Cfg} (hc : c.OK) {d : Disk} {h : Nat} {path : Bytes} {wanted b : Nat}
    (es : List BinEnt) : ∀ {fuel ic ws : Nat}, EntriesAt c d (b + ic) es → (∀ e ∈ es, EntryOK c h e) →
    ic + esize es ≤ c.isize - 2 →
    (∀ i, ic + esize es ≤ i → i < c.isize - 1 → d (b + i) = 0) → es.length < fuel →
    (∀ e ∈ es, ¬ EMatch path wanted e) →
    scanBin c path wanted b (fun i => d (b + i)) fuel ic ws = (none, wsE path b ws es) := by
  have hi := hc.isize
  induction es with
  | nil =>
    intro fuel ic ws _ _ hfit hz hfuel _
    obtain ⟨f, rfl⟩ : ∃ f, fuel = f + 1 := ⟨fuel - 1, by simp at hfuel; omega⟩
    simp only [esize] at hfit hz
    unfold scanBin
    simp only [if_pos (hz ic (by omega) (by omega)), wsE]
  | cons e es ih =>
    intro fuel ic ws hat hok hfit hz hfuel hno
    obtain ⟨f, rfl⟩ : ∃ f, fuel = f + 1 := ⟨fuel - 1, by simp at hfuel; omega⟩
    rw [scan_step hc hat.1 (hok e (by simp)), if_neg (hno e (by simp))]
    simp only [esize] at hfit hz
    split
    · next hge =>
      have : esize es = 0 := by omega
      have : es = [] := by
        cases es with
        | nil => rfl
        | cons f fs => simp only [esize, BinEnt.size] at this; omega
      subst this
      rfl
    · next hlt =>
      have hat2 := hat.2
      rw [Nat.add_assoc] at hat2
      rw [ih hat2 (fun x hx => hok x (by simp [hx])) (by omega)
        (fun i h1 h2 => hz i (by omega) h2) (by simp at hfuel; omega) (fun x hx => hno x (by simp [hx]))]
      rfl

theorem scan_some {c : Cfg} (hc : c.OK) {d : Disk} {h : Nat} {path : Bytes} {wanted b : Nat} {e : BinEnt} {post : List BinEnt}
    (pre : List BinEnt) : ∀ {fuel ic ws : Nat}, EntriesAt c d (b + ic) (pre ++ e :: post) →
    (∀ x ∈ pre ++ e :: post, EntryOK c h x) →
    ic + esize (pre ++ e :: post) ≤ c.isize - 2 → pre.length < fuel →
    (∀ x ∈ pre, ¬ EMatch path wanted x) → EMatch path wanted e →
    scanBin c path wanted b (fun i => d (b + i)) fuel ic ws = (some (ic + esize pre), wsE path b ws pre) := by
  have hi := hc.isize
  induction pre with
  | nil =>
    intro fuel ic ws hat hok hfit hfuel _ hm
    obtain ⟨f, rfl⟩ : ∃ f, fuel = f + 1 := ⟨fuel - 1, by simp at hfuel; omega⟩
    rw [scan_step hc hat.1 (hok e (by simp)), if_pos hm]
    rfl
  | cons x pre ih =>
    intro fuel ic ws hat hok hfit hfuel hno hm
    obtain ⟨f, rfl⟩ : ∃ f, fuel = f + 1 := ⟨fuel - 1, by simp at hfuel; omega⟩
    simp only [List.cons_append] at hat hok hfit
    rw [scan_step hc hat.1 (hok x (by simp)), if_neg (hno x (by simp))]
    simp only [esize, esize_append] at hfit
    have hpos : 0 < e.size := by simp only [BinEnt.size]; omega
    rw [if_neg (by omega)]
    have hat2 := hat.2
    rw [Nat.add_assoc] at hat2
    rw [ih hat2 (fun y hy => hok y (by simp only [List.mem_cons]; exact Or.inr hy))
      (by simp only [esize, esize_append]; omega) (by simp at hfuel; omega) (fun y hy => hno y (by simp [hy])) hm]
    simp only [esize, wsE, Nat.add_assoc]

/-! ### Walking a chain of bins -/

abbrev Chain := List (Nat × List BinEnt)

/-- The disk holds the chain of bins, reached from pointer `a`; the pointer after the last bin is
`last`. -/
def ChainAt (c : Cfg) (d : Disk) : Nat → Chain → Nat → Prop
  | a, [], last => a = last
  | a, (b, es) :: r, last => a = b ∧ b ≠ 0 ∧ BinAt c d b es ∧ ChainAt c d (d (b + (c.isize - 1))) r last

def centries (C : Chain) : List BinEnt := C.flatMap (·.2)

@[simp] theorem centries_nil : centries [] = [] := rfl
@[simp] theorem centries_cons (b : Nat) (es : List BinEnt) (C : Chain) : centries ((b, es) :: C) = es ++ centries C := rfl
@[simp] theorem centries_append (A B : Chain) : centries (A ++ B) = centries A ++ centries B := by
  simp [centries]

def wsC (path : Bytes) : Nat → Chain → Nat
  | ws, [] => ws
  | ws, (b, es) :: r => wsC path (wsE path b ws es) r

theorem length_lt_isize {c : Cfg} (hc : c.OK) {d : Disk} {b : Nat} {es : List BinEnt} (h : BinAt c d b es) :
    es.length < c.isize := by
  have := length_le_esize es
  have := h.fits
  have := hc.isize
  omega

/-- Address of the last bin of a chain. -/
def lastAddr (C : Chain) : Nat := (C.getLast?.map (·.1)).getD 0

theorem walk_none {c : Cfg} (hc : c.OK) {d : Disk} {h : Nat} {path : Bytes} {wanted tb : Nat} (C : Chain) :
    ∀ {fuel a ws : Nat}, C ≠ [] → ChainAt c d a C 0 → (∀ e ∈ centries C, EntryOK c h e) → C.length ≤ fuel →
    (∀ e ∈ centries C, ¬ EMatch path wanted e) →
    walkBins c d path wanted tb fuel a ws = some ⟨false, tb, lastAddr C, wsC path ws C, 0, 0⟩ := by
  induction C with
  | nil => intro fuel a ws h; exact absurd rfl h
  | cons be C ih =>
    obtain ⟨b, es⟩ := be
    intro fuel a ws _ hat hok hfuel hno
    obtain ⟨f, rfl⟩ : ∃ f, fuel = f + 1 := ⟨fuel - 1, by simp at hfuel; omega⟩
    obtain ⟨rfl, hb0, hbin, hrest⟩ := hat
    simp only [centries_cons, List.mem_append] at hok hno
    have hscan := scan_none hc (wanted := wanted) (path := path) (b := a) (ic := 0) (ws := ws) (fuel := c.isize) es
      (by simpa using hbin.entries) (fun e he => hok e (Or.inl he)) (by have := hbin.fits; omega)
      (fun i h1 h2 => hbin.zero i (by omega) h2) (length_lt_isize hc hbin) (fun e he => hno e (Or.inl he))
    conv => lhs; unfold walkBins
    simp only [hscan]
    cases C with
    | nil =>
      have h0 : d (a + (c.isize - 1)) = 0 := hrest
      rw [if_pos h0]; rfl
    | cons be2 C2 =>
      obtain ⟨b2, es2⟩ := be2
      have h0 : ¬ d (a + (c.isize - 1)) = 0 := by rw [hrest.1]; exact hrest.2.1
      rw [if_neg h0]
      rw [ih (by simp) hrest (fun e he => hok e (Or.inr he)) (by simpa using hfuel) (fun e he => hno e (Or.inr he))]
      rfl

theorem walk_some {c : Cfg} (hc : c.OK) {d : Disk} {h : Nat} {path : Bytes} {wanted tb last : Nat} {b : Nat}
    {pre post : List BinEnt} {e : BinEnt} {C2 : Chain} (C1 : Chain) :
    ∀ {fuel a ws : Nat}, ChainAt c d a (C1 ++ (b, pre ++ e :: post) :: C2) last →
    (∀ x ∈ centries (C1 ++ (b, pre ++ e :: post) :: C2), EntryOK c h x) → C1.length < fuel →
    (∀ x ∈ centries C1, ¬ EMatch path wanted x) → (∀ x ∈ pre, ¬ EMatch path wanted x) → EMatch path wanted e →
    ∃ ws', walkBins c d path wanted tb fuel a ws = some ⟨true, tb, b, ws', b + esize pre, e.infoAdd⟩ := by
  induction C1 with
  | nil =>
    intro fuel a ws hat hok hfuel _ hpre hm
    obtain ⟨f, rfl⟩ : ∃ f, fuel = f + 1 := ⟨fuel - 1, by simp at hfuel; omega⟩
    obtain ⟨rfl, hb0, hbin, hrest⟩ := hat
    have hscan := scan_some hc (wanted := wanted) (path := path) (b := a) (ic := 0) (ws := ws) (fuel := c.isize) pre
      (by simpa using hbin.entries) (fun x hx => hok x (by simp only [List.nil_append, centries_cons, List.mem_append]; exact Or.inl (by simpa using hx)))
      (by have := hbin.fits; omega) (by have := length_lt_isize hc hbin; simp at this; omega) hpre hm
    conv => arg 1; intro ws'; lhs; unfold walkBins
    simp only [hscan]
    have hat := (EntriesAt_append.mp hbin.entries).2.1
    have h3 := hat.2.2.2.1
    rw [Nat.zero_add]
    rw [show a + (esize pre + 3) = a + esize pre + 3 by omega, h3]
    exact ⟨_, rfl⟩
  | cons be C1 ih =>
    obtain ⟨b1, es⟩ := be
    intro fuel a ws hat hok hfuel hno hpre hm
    obtain ⟨f, rfl⟩ : ∃ f, fuel = f + 1 := ⟨fuel - 1, by simp at hfuel; omega⟩
    simp only [List.cons_append] at hat hok
    obtain ⟨rfl, hb0, hbin, hrest⟩ := hat
    simp only [centries_cons, List.mem_append] at hno hok
    have hscan := scan_none hc (wanted := wanted) (path := path) (b := a) (ic := 0) (ws := ws) (fuel := c.isize) es
      (by simpa using hbin.entries) (fun e he => hok e (Or.inl he)) (by have := hbin.fits; omega)
      (fun i h1 h2 => hbin.zero i (by omega) h2) (length_lt_isize hc hbin) (fun e he => hno e (Or.inl he))
    conv => arg 1; intro ws'; lhs; unfold walkBins
    simp only [hscan]
    have h0 : ¬ d (a + (c.isize - 1)) = 0 := by
      cases C1 with
      | nil => exact fun h => hrest.2.1 (hrest.1 ▸ h)
      | cons be2 C3 =>
        obtain ⟨b2, es2⟩ := be2
        exact fun h => hrest.2.1 (hrest.1 ▸ h)
    rw [if_neg h0]
    exact ih hrest (fun x hx => hok x (Or.inr hx)) (by simp at hfuel; omega) (fun x hx => hno x (Or.inr hx)) hpre hm

/-! ### Recovered space -/

theorem wsE_ne {path : Bytes} {b ws : Nat} (h : ws ≠ 0) (es : List BinEnt) : wsE path b ws es = ws := by
  induction es with
  | nil => rfl
  | cons e es ih => simp only [wsE, h, and_false, if_false, ih]

theorem wsE_zero {path : Bytes} {b : Nat} (hb : b ≠ 0) (es : List BinEnt) :
    wsE path b 0 es = if ∃ e ∈ es, Spare path e then b else 0 := by
  induction es with
  | nil => simp [wsE]
  | cons e es ih =>
    simp only [wsE, and_true]
    by_cases h : Spare path e
    · rw [if_pos h, wsE_ne hb, if_pos ⟨e, by simp, h⟩]
    · rw [if_neg h, ih]
      by_cases h2 : ∃ x ∈ es, Spare path x
      · rw [if_pos h2, if_pos]
        obtain ⟨x, hx, hs⟩ := h2
        exact ⟨x, by simp [hx], hs⟩
      · rw [if_neg h2, if_neg]
        rintro ⟨x, hx, hs⟩
        rcases List.mem_cons.mp hx with rfl | hx
        · exact h hs
        · exact h2 ⟨x, hx, hs⟩

theorem wsC_ne {path : Bytes} {ws : Nat} (h : ws ≠ 0) (C : Chain) : wsC path ws C = ws := by
  induction C with
  | nil => rfl
  | cons be C ih => obtain ⟨b, es⟩ := be; simp only [wsC, wsE_ne h, ih]

/-- Either no bin has spare room, or the first that has it is remembered. -/
theorem wsC_spec (path : Bytes) (C : Chain) (h0 : ∀ be ∈ C, be.1 ≠ 0) :
    (wsC path 0 C = 0 ∧ ∀ e ∈ centries C, ¬ Spare path e) ∨
    ∃ C1 b es C2, C = C1 ++ (b, es) :: C2 ∧ wsC path 0 C = b ∧ (∀ e ∈ centries C1, ¬ Spare path e) ∧
      ∃ e ∈ es, Spare path e := by
  induction C with
  | nil => left; exact ⟨rfl, by simp⟩
  | cons be C ih =>
    obtain ⟨b, es⟩ := be
    have hb : b ≠ 0 := h0 (b, es) (by simp)
    simp only [wsC, wsE_zero hb]
    by_cases h : ∃ e ∈ es, Spare path e
    · right
      rw [if_pos h, wsC_ne hb]
      exact ⟨[], b, es, C, rfl, rfl, by simp, h⟩
    · rw [if_neg h]
      rcases ih (fun x hx => h0 x (by simp [hx])) with ⟨h1, h2⟩ | ⟨C1, b1, es1, C2, hC, hw, hn, hs⟩
      · left
        refine ⟨h1, fun e he => ?_⟩
        simp only [centries_cons, List.mem_append] at he
        rcases he with he | he
        · exact fun hs => h ⟨e, he, hs⟩
        · exact h2 e he
      · right
        refine ⟨(b, es) :: C1, b1, es1, C2, by simp [hC], hw, fun e he => ?_, hs⟩
        simp only [centries_cons, List.mem_append] at he
        rcases he with he | he
        · exact fun hs => h ⟨e, he, hs⟩
        · exact hn e he

end Hec
