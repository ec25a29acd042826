import Verif.Model.OldNames
/-! Pathnames with a version 6 minute interval as E part, and histories of the calls as they are. -/
namespace Spec
open Hec

/-- The E part is one or two characters, the second not an M, and `MIN` in any case: `1MIN`, `15Min`, but also `ADMIN`. -/
def OldMinute (e : Bytes) : Prop :=
  ∃ a m i n, e = a ++ [m, i, n] ∧ toupper m = 77 ∧ toupper i = 73 ∧ toupper n = 78 ∧
    (a.length = 1 ∨ ∃ x y, a = [x, y] ∧ toupper y ≠ 77)

/-- The pathname is `front/e/rest` with four slashes in `front` and `e`, the text between its fifth and sixth slash, an old
minute interval. -/
def IsOldName (p front e rest : Bytes) : Prop :=
  p = front ++ 47 :: (e ++ 47 :: rest) ∧ front.count 47 = 4 ∧ 47 ∉ e ∧ OldMinute e

/-- The same pathname with the interval spelled as in version 7. -/
def minuteName (front e rest : Bytes) : Bytes :=
  front ++ 47 :: (e.take (e.length - 3) ++ [77, 105, 110, 117, 116, 101] ++ 47 :: rest)

/-- One call of the library, with the lookup of old names.  `after` is what lies behind the pathname in memory. -/
def runName (c : Cfg) (s : Eng) (after : Bytes) : Op → Option (Eng × Res)
  | .write r => zwriteName c s after r
  | .delete p => zdeleteName c s p
  | .undelete p => zdeleteInternal c s p true
  | .rename o n v => zrename c s (join o) (join n) v

/-- A sequence of calls. -/
def runsName (c : Cfg) : Eng → List (Bytes × Op) → Option (Eng × List Res)
  | s, [] => some (s, [])
  | s, op :: ops => (runName c s op.1 op.2).bind fun p => (runsName c p.1 ops).map fun q => (q.1, p.2 :: q.2)

/-- None of the calls is about a pathname with an old minute interval. -/
def NoOldNames (ops : List Op) : Prop := ∀ op ∈ ops, ∀ p ∈ op.paths, ∀ front e rest, ¬ IsOldName p front e rest

end Spec
