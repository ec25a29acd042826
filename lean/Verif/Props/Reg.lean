import Verif.Proofs.RegStore
/-! C38: storing in one block of a regular interval series. -/
namespace Hec
open _root_.Spec (SameValue replaces regStored)

/-- The value read at position `p` of the block. -/
def readValue {W : Type} [Inhabited W] (cfg : RegCfg W) (rec : Option (RegRec W)) (p : Nat) : List W :=
  ((regReadBlock cfg rec 0 1 p).1[0]?).getD []

/-- The quality flag (of `q` words) read at position `p` of the block. -/
def readQuality {W : Type} [Inhabited W] (cfg : RegCfg W) (rec : Option (RegRec W)) (q p : Nat) : List W :=
  ((regReadBlock cfg rec q 1 p).2[0]?).getD []

/-- The records that a sequence of stores (of values, with or without quality of `q` words) leaves for
a block of `nib` values. -/
inductive RegReach {W : Type} [DecidableEq W] [Inhabited W] (cfg : RegCfg W) (nib q : Nat) :
    Option (RegRec W) → Prop
  | empty : RegReach cfg nib q none
  | store {rec : Option (RegRec W)} {qsz pos : Nat} {vals quals : List (List W)} {readBlock : Bool}
      {flag : Int} : RegReach cfg nib q rec → StoreArgs cfg nib q qsz pos vals quals readBlock flag →
      RegReach cfg nib q ((regStoreBlock cfg rec qsz nib pos vals quals readBlock flag).apply rec)

theorem reach_ok {W : Type} [DecidableEq W] [Inhabited W] {cfg : RegCfg W} (hc : CfgOK cfg) {nib q : Nat}
    {rec : Option (RegRec W)} (h : RegReach cfg nib q rec) : RegOK cfg nib q rec := by
  induction h with
  | empty => trivial
  | store hr ha ih =>
    rename_i rec0 qsz pos vals quals rb flag
    obtain ⟨f, g, hv⟩ := view_exists hc ih
    by_cases hno : Forgotten cfg rec0 qsz vals quals rb flag
    · rw [forgotten_keep hv ha hno]; exact ih
    · exact (regStoreBlock_spec hc ih hv ha hno).1

theorem view_readValue {W : Type} [DecidableEq W] [Inhabited W] {cfg : RegCfg W} {nib q : Nat}
    {rec : Option (RegRec W)} {f g : Int → List W} (hv : View cfg nib q rec f g) (p : Nat) :
    readValue cfg rec p = f p := by
  unfold readValue
  rw [hv.vals 0 1 p (by omega)]
  simp

theorem view_readQuality {W : Type} [DecidableEq W] [Inhabited W] {cfg : RegCfg W} {nib q : Nat}
    {rec : Option (RegRec W)} {f g : Int → List W} (hv : View cfg nib q rec f g) (hq : 0 < q) (p : Nat) :
    readQuality cfg rec q p = g p := by
  unfold readQuality
  rw [hv.quals 1 p hq (by omega)]
  simp

/-- C38. However the block came to be, after storing `vals` from position `pos` with storage flag
`flag` every position of the block reads as the specification says (a missing value may read as
another missing value).  Missing: the store of a whole block of missing values (`Forgotten`). -/
theorem C38_store_block_partial {W : Type} [DecidableEq W] [Inhabited W] {cfg : RegCfg W} (hc : CfgOK cfg)
    {nib q qsz pos : Nat} {vals quals : List (List W)} {readBlock : Bool} {flag : Int}
    {rec : Option (RegRec W)} (hr : RegReach cfg nib q rec)
    (ha : StoreArgs cfg nib q qsz pos vals quals readBlock flag)
    (hno : ¬ Forgotten cfg rec qsz vals quals readBlock flag) (p : Nat) (hp : p < nib) :
    let rec' := (regStoreBlock cfg rec qsz nib pos vals quals readBlock flag).apply rec
    SameValue cfg.isMissing (readValue cfg rec' p)
      (regStored cfg.isMissing flag pos vals (readValue cfg rec) p) := by
  intro rec'
  obtain ⟨f, g, hv⟩ := view_exists hc (reach_ok hc hr)
  obtain ⟨_, f', g', hv', h1, _⟩ := regStoreBlock_spec hc (reach_ok hc hr) hv ha hno
  have e : readValue cfg rec = (fun p : Nat => f p) := by funext p; exact view_readValue hv p
  rw [view_readValue hv' p, e]
  exact h1 p hp

/-- C38, quality: when quality is stored with the values, the flag at every position is replaced
exactly where the value is, and kept elsewhere. -/
theorem C38_quality_partial {W : Type} [DecidableEq W] [Inhabited W] {cfg : RegCfg W} (hc : CfgOK cfg)
    {nib q pos : Nat} {vals quals : List (List W)} {readBlock : Bool} {flag : Int}
    {rec : Option (RegRec W)} (hr : RegReach cfg nib q rec) (hq : 0 < q)
    (ha : StoreArgs cfg nib q q pos vals quals readBlock flag)
    (hno : ¬ Forgotten cfg rec q vals quals readBlock flag) (p : Nat) (hp : p < nib) :
    let rec' := (regStoreBlock cfg rec q nib pos vals quals readBlock flag).apply rec
    readQuality cfg rec' q p =
      if pos ≤ p ∧ p < pos + vals.length ∧
          replaces cfg.isMissing flag (readValue cfg rec p) ((vals[p - pos]?).getD []) = true
        then (quals[p - pos]?).getD [] else readQuality cfg rec q p := by
  intro rec'
  obtain ⟨f, g, hv⟩ := view_exists hc (reach_ok hc hr)
  obtain ⟨_, f', g', hv', _, h2⟩ := regStoreBlock_spec hc (reach_ok hc hr) hv ha hno
  rw [view_readQuality hv' hq p, view_readQuality hv hq p, view_readValue hv p]
  exact h2 hq p hp

/-- C38. Reading any window of the block gives the same values as reading them one by one, and
positions before, after or without a record are missing. -/
theorem C38_windows {W : Type} [DecidableEq W] [Inhabited W] {cfg : RegCfg W} (hc : CfgOK cfg)
    {nib q : Nat} {rec : Option (RegRec W)} (hr : RegReach cfg nib q rec) (number start : Nat) :
    (regReadBlock cfg rec 0 number start).1 = (List.range number).map (fun i => readValue cfg rec (start + i)) ∧
    (0 < q → (regReadBlock cfg rec q number start).2 =
      (List.range number).map (fun i => readQuality cfg rec q (start + i))) := by
  obtain ⟨f, g, hv⟩ := view_exists hc (reach_ok hc hr)
  constructor
  · rw [hv.vals 0 number start (by omega)]
    simp only [Int.toNat_natCast]
    apply List.map_congr_left
    intro i _
    rw [view_readValue hv]; simp
  · intro hq
    rw [hv.quals number start hq (by omega)]
    simp only [Int.toNat_natCast]
    apply List.map_congr_left
    intro i _
    rw [view_readQuality hv hq]; simp

/-- Settings for the examples: one word values, -901 is missing. -/
def sampleCfg : RegCfg Int := ⟨samplePolicy, 1, [-901], fun v => v = [-901], false⟩

theorem sampleCfg_ok : CfgOK sampleCfg := ⟨by decide, by decide, by decide⟩

/-- A block of 24 holding 5, 6, 7 from position 3. -/
def sampleBlock : Option (RegRec Int) :=
  (regStoreBlock sampleCfg none 0 24 3 [[5], [6], [7]] [] true 0).apply none

theorem sampleBlock_reach (q : Nat) : RegReach sampleCfg 24 q sampleBlock :=
  RegReach.store RegReach.empty ⟨by decide, by decide, Or.inl rfl, by decide, by decide, by decide, by decide, by decide⟩

/-- Storing [missing, 9, 8] from position 4 with the three kinds of flags. -/
example :
    StoreArgs sampleCfg 24 0 0 4 [[-901], [9], [8]] [] true 1 ∧
    ¬ Forgotten sampleCfg sampleBlock 0 [[-901], [9], [8]] [] true 1 ∧
    (let st (flag : Int) := (regStoreBlock sampleCfg sampleBlock 0 24 4 [[-901], [9], [8]] [] true flag).apply sampleBlock
     (regReadBlock sampleCfg (st 0) 0 6 2).1 = [[-901], [5], [-901], [9], [8], [-901]] ∧
     (regReadBlock sampleCfg (st 1) 0 6 2).1 = [[-901], [5], [6], [7], [8], [-901]] ∧
     (regReadBlock sampleCfg (st 4) 0 6 2).1 = [[-901], [5], [6], [9], [8], [-901]]) := by
  refine ⟨⟨by decide, by decide, Or.inl rfl, by decide, by decide, by decide, by decide, by decide⟩, ?_, ?_⟩
  · intro h; exact absurd h.1 (by decide)
  · decide +kernel

/-- Not C38: a whole block of missing values stored inside a longer window (readBlock is false then,
ztsStoreReg7.c:273) leaves the old values in the file. -/
theorem C38_all_missing_violation :
    let vals : List (List Int) := List.replicate 24 [-901]
    let rec' := (regStoreBlock sampleCfg sampleBlock 0 24 0 vals [] false 0).apply sampleBlock
    StoreArgs sampleCfg 24 0 0 0 vals [] false 0 ∧ RegReach sampleCfg 24 0 sampleBlock ∧
    Forgotten sampleCfg sampleBlock 0 vals [] false 0 ∧
    readValue sampleCfg rec' 4 = [6] ∧
    ¬ SameValue sampleCfg.isMissing (readValue sampleCfg rec' 4)
      (regStored sampleCfg.isMissing 0 0 vals (readValue sampleCfg sampleBlock) 4) := by
  refine ⟨⟨by decide, by decide, Or.inl rfl, by decide, by decide, by decide, by decide, by decide⟩,
    sampleBlock_reach 0, ⟨rfl, by decide, by decide, by decide, by decide, by decide⟩, by decide +kernel, ?_⟩
  intro h
  rcases h with h | h
  · revert h; decide +kernel
  · revert h; decide +kernel

/-- Not C38 for quality: storing values without quality at one position drops the quality stored at
every other position of the block. -/
theorem C38_quality_dropped_violation :
    let rec1 := (regStoreBlock sampleCfg none 1 24 3 [[5], [6], [7]] [[3], [3], [3]] true 0).apply none
    let rec2 := (regStoreBlock sampleCfg rec1 0 24 20 [[1]] [] true 0).apply rec1
    RegReach sampleCfg 24 1 rec1 ∧ readQuality sampleCfg rec1 1 4 = [3] ∧
    StoreArgs sampleCfg 24 1 0 20 [[1]] [] true 0 ∧
    readValue sampleCfg rec2 4 = [6] ∧ readQuality sampleCfg rec2 1 4 = [0] := by
  refine ⟨RegReach.store RegReach.empty ⟨by decide, by decide, Or.inr rfl, by decide, by decide, by decide, by decide, by decide⟩,
    by decide +kernel, ⟨by decide, by decide, Or.inl rfl, by decide, by decide, by decide, by decide, by decide⟩,
    by decide +kernel, by decide +kernel⟩

end Hec
