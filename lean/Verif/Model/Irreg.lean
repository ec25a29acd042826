import Verif.Model.Times
/-!
Model of merging irregular data (Internal/ztsIrregMergeBlocks.c).

An entry is a time (in block units) with its payload `α`: the value (or profile), quality and
integer note, which the code copies side by side by the same index.  Character notes are kept in
separate strings, one zero terminated line per value, consumed by `copyLines(…, 1)`; here a list of
lines, `none` when the length is zero.
-/
namespace Hec

structure Entry (α : Type) where
  time : Int
  val : α
deriving DecidableEq, Repr

/-- Lines not yet consumed; `none`: the set has no character notes (length 0). -/
abbrev Lines := Option (List String)

/-- `copyLines(dest, …, source, …, 1)`: the next line (a blank one when the set has no notes:
ztsIrregMergeBlocks.c:302-304, 349-351) and the rest.  copyLines.c:45-108 with one line; a set with
notes is assumed to have one line per value. -/
def nextLine : Lines → String × Lines
  | none => ("", none)
  | some [] => ("", some [])
  | some (l :: ls) => (l, some ls)

/-- Output of the merge: the entries and the note lines. -/
abbrev Merged (α : Type) := List (Entry α × String)

/-- ztsIrregMergeBlocks.c:246-417 (storageFlag 0); `n` is the loop bound `combinedTotal`. -/
def mergeLoop {α : Type} : Nat → List (Entry α) → Lines → List (Entry α) → Lines → Merged α
  | 0, _, _, _, _ => []
  | n + 1, toStore, ls, read, lr =>
    match toStore, read with
    | [], [] => []
    | s :: ss, [] => (s, (nextLine ls).1) :: mergeLoop n ss (nextLine ls).2 [] lr
    | [], r :: rs => (r, (nextLine lr).1) :: mergeLoop n [] ls rs (nextLine lr).2
    | s :: ss, r :: rs =>
      if s.time < r.time then (s, (nextLine ls).1) :: mergeLoop n ss (nextLine ls).2 (r :: rs) lr
      else if s.time > r.time then (r, (nextLine lr).1) :: mergeLoop n (s :: ss) ls rs (nextLine lr).2
      else (s, (nextLine ls).1) :: mergeLoop n ss (nextLine ls).2 rs (nextLine lr).2

/-- ztsIrregMergeBlocks.c with storageFlag 0. -/
def mergeBlocks {α : Type} (toStore : List (Entry α)) (ls : Lines) (read : List (Entry α)) (lr : Lines) :
    Merged α :=
  mergeLoop (toStore.length + read.length) toStore ls read lr

/-- ztsIrregMergeBlocks.c:421-484: copy the stored values before the window.  `before t` is the
result of `compareTimes(…) < 0` of lines 432-433 (the comparison is evaluated before the bound on
`icountRead` is checked; the value is not used then).  Result: the values copied, the values and
lines left. -/
def leadingLoop {α : Type} (before : Int → Bool) (firstNew : Int) (fromStart : Bool) :
    Nat → List (Entry α) → Lines → Merged α × List (Entry α) × Lines
  | 0, read, lr => ([], read, lr)
  | _ + 1, [], lr => ([], [], lr)
  | n + 1, r :: rs, lr =>
    if before r.time ∧ r.time < firstNew ∧ fromStart = false then
      let x := leadingLoop before firstNew fromStart n rs (nextLine lr).2
      ((r, (nextLine lr).1) :: x.1, x.2)
    else ([], r :: rs, lr)

/-- ztsIrregMergeBlocks.c:489-545: copy the new values; `n` bounds the loop. -/
def newLoop {α : Type} : Nat → List (Entry α) → Lines → Merged α
  | 0, _, _ => []
  | _ + 1, [], _ => []
  | n + 1, s :: ss, ls => (s, (nextLine ls).1) :: newLoop n ss (nextLine ls).2

/-- ztsIrregMergeBlocks.c:551-614: copy the stored values after the last new one.  `room` is
`combinedTotal - icountTotal`, checked at line 552; `n` is the loop bound `numberLeft`. -/
def trailingLoop {α : Type} (lastNew : Int) : Nat → Int → List (Entry α) → Lines → Merged α
  | 0, _, _, _ => []
  | n + 1, room, read, lr =>
    if room ≤ 0 then []
    else
      match read with
      | [] => []
      | r :: rs =>
        if lastNew ≥ r.time then trailingLoop lastNew n room rs (nextLine lr).2
        else (r, (nextLine lr).1) :: trailingLoop lastNew n (room - 1) rs (nextLine lr).2

/-- ztsIrregMergeBlocks.c:418-616 (storageFlag not 0), called with at least one new value.
Line 488 subtracts the leading count from `combinedTotal`, line 550 sets the read position of the
notes back to the start. -/
def replaceBlocks {α : Type} (before : Int → Bool) (fromStart toEnd : Bool) (toStore : List (Entry α))
    (ls : Lines) (read : List (Entry α)) (lr : Lines) : Merged α :=
  match toStore with
  | [] => []
  | s0 :: _ =>
    let lead := leadingLoop before s0.time fromStart (toStore.length + read.length) read lr
    let combinedTotal : Int := toStore.length + read.length - lead.1.length
    let new := newLoop combinedTotal.toNat toStore ls
    let icountTotal : Int := lead.1.length + new.length
    let tail :=
      if toEnd then []
      else trailingLoop (toStore.getLast?.getD s0).time (toStore.length + read.length - icountTotal).toNat
        (combinedTotal - icountTotal) lead.2.1 lr
    lead.1 ++ new ++ tail

/-- ztsIrregMergeBlocks.c:432-434: the stored time `t` (in units of `g` seconds after the start of
block `jblock`) is before the start of the time window. -/
def beforeWindow (jblock g startJulian startSeconds t : Int) : Bool :=
  decide (compareTimes jblock t 0 g startJulian startSeconds 0 1 < 0)

end Hec
