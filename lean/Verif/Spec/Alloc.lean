import Verif.Model.Alloc
/-!
What is asked of the allocator.  A user asks for space, may give back the first words of a piece it
holds, and may set the reclaim level; a ledger of the pieces the user holds is kept beside the file.
-/
namespace Spec
open Hec

/-- Word `w` is in the piece of `r.2` words that starts at `r.1`. -/
def inPiece (r : Nat × Nat) (w : Nat) : Prop := r.1 ≤ w ∧ w < r.1 + r.2

/-- No word is in both pieces. -/
def apart (r s : Nat × Nat) : Prop := ∀ w, ¬(inPiece r w ∧ inPiece s w)

/-- One request to the allocator. -/
inductive AOp where
  /-- ask for `n` words, reclaimed ones acceptable or not -/
  | get (n : Nat) (reuse : Bool)
  /-- give back the first `n` words of the `i`-th piece held -/
  | release (i n : Nat)
  /-- set the reclaim level (zsetFile.c:170-179: 1 none, 2 excess, 3 all) -/
  | level (l : Nat)
  /-- empty the tables and set the level (zreclaimSet, called by an undelete) -/
  | reset (l : Nat)

/-- The file and the pieces the user holds. -/
structure Ledger where
  file : AFile
  held : List (Nat × Nat)

/-- One request. A release is of words held (`i` out of range: nothing is done). -/
def aStep (fuel : Nat) (s : Ledger) : AOp → Ledger
  | .get n reuse =>
    let r := zgetFileSpace fuel s.file n reuse
    ⟨r.1, (r.2, n) :: s.held⟩
  | .release i n =>
    match s.held[i]? with
    | none => s
    | some (a, len) =>
      if n ≤ len then ⟨zreleaseFileSpace fuel s.file a n, s.held.set i (a + n, len - n)⟩ else s
  | .level l => if 1 ≤ l ∧ l ≤ 3 then ⟨{ s.file with level := l }, s.held⟩ else s
  | .reset l => ⟨zreclaimSet s.file l, s.held⟩

/-- The tables of the file: the first one, and those linked from a table. -/
inductive IsTable (f : AFile) : Nat → Prop
  | first : IsTable f f.table
  | next (a : Nat) : IsTable f a → (f.mem a).link ≠ 0 → IsTable f (f.mem a).link

/-- A history of requests on a new file. -/
def aRun (fuel : Nat) : Ledger → List AOp → Ledger
  | s, [] => s
  | s, o :: os => aRun fuel (aStep fuel s o) os

/-- No release is made just after a search of the tables failed (until a later search has succeeded
or reclamation was reset): the case in which zreleaseFileSpace uses word 0 as its table. -/
def noReleaseAfterMiss (fuel : Nat) : Ledger → List AOp → Prop
  | _, [] => True
  | s, o :: os =>
    (match o with | .release _ _ => s.file.segAvail ≠ 0 | _ => True) ∧
    noReleaseAfterMiss fuel (aStep fuel s o) os

end Spec
