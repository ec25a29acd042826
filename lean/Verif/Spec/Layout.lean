import Verif.Spec.Histories
/-! What a well formed file is, and the effect of a history on one pathname. -/
namespace Spec
open Hec Hec.Spec

/-- The sizes a file may be created with. -/
structure GoodSizes (hdrSize maxHash binSize : Nat) : Prop where
  hdr : 12 ≤ hdrSize
  bin : 58 ≤ binSize
  two : 2 ≤ maxHash
  max : maxHash ≤ 2 ^ 23

/-- `bs` are the addresses of a chain of bins of `size` words: pointer `a` leads to the first one, the
last word of each leads to the next, that of the last one is 0. -/
def Linked (d : Disk) (size : Nat) : Nat → List Nat → Prop
  | a, [] => a = 0
  | a, b :: bs => a = b ∧ b ≠ 0 ∧ Linked d size (d (b + (size - 1))) bs

/-- Two areas (start, length) have no word in common. -/
def Apart (x y : Nat × Nat) : Prop := ∀ w, ¬ (x.1 ≤ w ∧ w < x.1 + x.2 ∧ y.1 ≤ w ∧ w < y.1 + y.2)

/-- The areas (start, length) of a record: its info block, its arrays. -/
abbrev Areas := (Nat × Nat) × (Nat × Nat)

/-- The info block of a record lies in the first area, its six arrays in the second. -/
def Inside (a : Nat) (info : Nat → Nat) (path : Bytes) (x : Areas) : Prop :=
  x.1.1 = a ∧ 30 + (path.length + 7) / 8 ≤ x.1.2 ∧
  ∀ k ∈ [kinfoInternalHeadAddress, kinfoHeader2Address, kinfoUserHeadAddress, kinfoValues1Address,
      kinfoValues2Address, kinfoValues3Address],
    x.2.1 ≤ info k ∧ info k + (info (k + 1) + 1) / 2 ≤ x.2.1 + x.2.2

/-- The file is well formed: each entry of the hash table leads to a chain of bins (`chains`); the
header, the hash table, the bins and the areas of the records (`recs`) do not overlap and lie inside
the file; every record that a lookup finds lies in its areas. -/
def WellFormed (c : Cfg) (s : Eng) : Prop :=
  ∃ (chains : Nat → List Nat) (recs : List Areas),
    (∀ h, h < c.maxHash → Linked s.disk c.isize (s.disk (c.hashStart + h)) (chains h)) ∧
    (∀ x ∈ (0, c.hdrSize) :: (c.hashStart, c.maxHash) ::
      (((List.range c.maxHash).flatMap chains).map (fun b => (b, c.isize)) ++ recs.flatMap fun r => [r.1, r.2]),
      ∀ w, x.1 ≤ w → w < x.1 + x.2 → w < s.hdr.fileSize) ∧
    ((0, c.hdrSize) :: (c.hashStart, c.maxHash) ::
      (((List.range c.maxHash).flatMap chains).map (fun b => (b, c.isize)) ++ recs.flatMap fun r => [r.1, r.2])).Pairwise Apart ∧
    ∀ q k info, q.length ≤ 392 → zreadInfo c s q REC_STATUS_VALID = some (k, some info) →
      ∃ r ∈ recs, Inside k.infoAdd info q r

open Classical in
/-- What the record under `q` is after one more call, if nothing is undeleted or renamed. -/
noncomputable def next (q : Bytes) (old : Option Rec) : Op → Option Rec
  | .write r =>
    if sameUpToCase r.path q then
      match old with
      | none => some (stored r 1)
      | some R => if compatible R.dataType r.dataType then some (stored r (R.version + 1)) else some R
    else old
  | .delete p => if sameUpToCase p q then none else old
  | .undelete _ => old
  | .rename _ _ _ => old

/-- What the record under `q` is after a history. -/
noncomputable def lastWritten (q : Bytes) (ops : List Op) : Option Rec := ops.foldl (next q) none

open Classical in
/-- One step of the count below. -/
noncomputable def countStep (q : Bytes) (n : Nat) : Op × Res → Nat
  | (.write r, .ok) => if sameUpToCase r.path q then n + 1 else n
  | (.delete p, .ok) => if sameUpToCase p q then 0 else n
  | _ => n

/-- Number of successful writes of `q` since it was created or last deleted. -/
noncomputable def countWrites (q : Bytes) (l : List (Op × Res)) : Nat := l.foldl (countStep q) 0

end Spec
