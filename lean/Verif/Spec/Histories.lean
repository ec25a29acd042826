import Verif.Spec.Store
/-! Histories of calls on one file, and the conditions under which the calls are made. -/
namespace Spec
open Hec Hec.Spec

/-- One call of the library. -/
def run (c : Cfg) (s : Eng) : Op → Option (Eng × Res)
  | .write r => zwrite c s r
  | .delete p => zdeleteInternal c s p false
  | .undelete p => zdeleteInternal c s p true
  | .rename o n v => zrename c s (join o) (join n) v

/-- A sequence of calls: the file after it, and what the calls returned.  `none`: some call failed. -/
def runs (c : Cfg) : Eng → List Op → Option (Eng × List Res)
  | s, [] => some (s, [])
  | s, op :: ops => (run c s op).bind fun p => (runs c p.1 ops).map fun q => (q.1, p.2 :: q.2)

/-- Six parts of a pathname. -/
def SixParts (ps : List Bytes) : Prop := ps.length = 6 ∧ ∀ p ∈ ps, IsPart p

/-- Conditions on a call, given the file `s` and the calls `past` made on it before.
* Pathnames have 1 to 392 characters.
* Writing over a record does not increase the number of header sections of odd length, if it is then 2 or 3.
* No pathname longer (in units of eight characters) than the one of a new record was deleted before.
* Only a missing record is undeleted.
* Renaming: the two pathnames have six parts and differ by more than letter case.  The pathname the record gets
  (`renamed`) does not exist, except as one of these two; it is not longer, in units of eight characters, than the new
  one, and not shorter than any pathname deleted before or by this call.
The theorems named `..._violation` show what happens when the last four do not hold. -/
def Allowed (c : Cfg) (past : List Op) (s : Eng) : Op → Prop
  | .write r => 0 < r.path.length ∧ r.path.length ≤ 392 ∧
      (∀ R, zread c s r.path = some (some R) → oddHeaders r.ih r.h2 r.uh ≤ 1 ∨ oddHeaders r.ih r.h2 r.uh ≤ oddHeaders R.ih R.h2 R.uh) ∧
      (zread c s r.path = some none → ∀ p ∈ past.flatMap Op.deletes, (p.length + 7) / 8 ≤ (r.path.length + 7) / 8)
  | .delete p => p.length ≤ 392
  | .undelete p => p.length ≤ 392 ∧ zread c s p = some none
  | .rename o n _ => SixParts o ∧ SixParts n ∧ (join o).length ≤ 392 ∧ (join n).length ≤ 392 ∧ ¬ sameUpToCase (join o) (join n) ∧
      ∀ R, zread c s (join o) = some (some R) →
        (renamed R.dataType o n).length ≤ 392 ∧
        ((renamed R.dataType o n).length + 7) / 8 ≤ ((join n).length + 7) / 8 ∧
        (sameUpToCase (renamed R.dataType o n) (join o) ∨ sameUpToCase (renamed R.dataType o n) (join n) ∨
          zread c s (renamed R.dataType o n) = some none) ∧
        (∀ p ∈ past.flatMap Op.deletes, (p.length + 7) / 8 ≤ ((renamed R.dataType o n).length + 7) / 8) ∧
        (zread c s (join n) = some none ∨ ((join n).length + 7) / 8 ≤ ((renamed R.dataType o n).length + 7) / 8)

/-- All calls of a sequence are made under these conditions. -/
def AllAllowed (c : Cfg) : List Op → Eng → List Op → Prop
  | _, _, [] => True
  | past, s, op :: ops => Allowed c past s op ∧ ∀ s' res, run c s op = some (s', res) → AllAllowed c (past ++ [op]) s' ops

/-- The same conditions, in a form that can be checked without running anything: writes and deletes
only, at most one header of odd length in each, and no new pathname shorter than one that was deleted before. -/
def Plain (past : List Op) : List Op → Prop
  | [] => True
  | op :: ops => (match op with
      | .write r => 0 < r.path.length ∧ r.path.length ≤ 392 ∧ oddHeaders r.ih r.h2 r.uh ≤ 1 ∧
          ∀ p ∈ past.flatMap Op.deletes, (p.length + 7) / 8 ≤ (r.path.length + 7) / 8
      | .delete p => p.length ≤ 392
      | .undelete _ => False
      | .rename _ _ _ => False) ∧ Plain (past ++ [op]) ops

/-- A file in use: a new file, after a sequence of calls. -/
def Reachable (c : Cfg) (s0 : Eng) (past : List Op) (s : Eng) : Prop :=
  AllAllowed c [] s0 past ∧ ∃ ress, runs c s0 past = some (s, ress)

/-- The calls `more`, made after the calls `past`, under the same conditions, lead from the file `s` to the file `s'`. -/
def Leads (c : Cfg) (past : List Op) (s : Eng) (more : List Op) (s' : Eng) : Prop :=
  AllAllowed c past s more ∧ ∃ ress, runs c s more = some (s', ress)

/-- The hash functions of the library, for a hash table of `maxHash` entries. -/
def tHash (maxHash : Nat) (p : Bytes) : Nat := (tableHash p maxHash (9 * (p.length + 8) + 1)).getD 0
def pHash (p : Bytes) : Nat := (pathnameHash p).toNat

/-- A new file with a hash table of `maxHash` entries and bins of `binSize` words. -/
def create (hdrSize maxHash binSize : Nat) (mul110 : Nat → Nat) : Cfg × Eng :=
  newFile hdrSize maxHash binSize (tHash maxHash) pHash mul110

end Spec
