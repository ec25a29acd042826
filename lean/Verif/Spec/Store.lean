import Verif.Model.Rename
import Verif.Spec.Names
import Verif.Spec.Pathnames
/-!
What a DSS file is to its user: at most one record for each pathname (letter case does not count),
and for each pathname the records that were deleted and can still be brought back, newest first.
-/
namespace Spec
open Hec Hec.Spec

/-- The record that a write leaves. -/
def stored (r : Req) (version : UInt32) : Rec where
  dataType := r.dataType
  version := version
  ih := r.ih
  h2 := r.h2
  uh := r.uh
  v1 := r.v1
  v2 := r.v2
  v3 := r.v3
  numberValues := r.numberValues
  logicalNumber := if r.logicalNumber > 0 then r.logicalNumber else r.numberValues
  lastWrite := r.now
  firstDate := r.firstDate
  lastDate := r.lastDate

/-- The number of header sections with an odd number of ints. -/
def oddHeaders (ih h2 uh : List UInt32) : Nat := ih.length % 2 + h2.length % 2 + uh.length % 2

/-- The types of data a record may be overwritten with: its own type; regular time series may change
between single and double precision (100, 105), and so may irregular ones (110, 115). -/
def compatible (old new : UInt32) : Prop :=
  old = new ∨ (old ∈ [100, 105] ∧ new ∈ [100, 105]) ∨ (old ∈ [110, 115] ∧ new ∈ [110, 115])

/-- The calls of the history. -/
inductive Op where
  | write (r : Req)
  | delete (path : Bytes)
  | undelete (path : Bytes)
  /-- The pathnames are given by their parts. -/
  | rename (old new : List Bytes) (env : RenEnv)

/-- The pathname with the D and E parts of `old` and the other parts of `new`. -/
def keepDates (old new : List Bytes) : Bytes := join (new.take 3 ++ (old.drop 3).take 2 ++ new.drop 5)

/-- What a record with data type `t` is called after it is renamed: time series keep the D and E part. -/
def renamed (t : UInt32) (old new : List Bytes) : Bytes :=
  if 100 ≤ t ∧ t < 200 then keepDates old new else join new

/-- The pathnames a call is about. -/
def Op.paths : Op → List Bytes
  | .write r => [r.path]
  | .delete p => [p]
  | .undelete p => [p]
  | .rename o n _ => [join o, join n, keepDates o n]

/-- The pathname whose record the call deletes, if it is there. -/
def Op.deletes : Op → List Bytes
  | .delete p => [p]
  | .rename _ n _ => [join n]
  | _ => []

/-- The contents of a file: the records, and for each pathname the deleted ones, newest first. -/
structure Store where
  live : Bytes → Option Rec
  trash : Bytes → List Rec

/-- A new file. -/
def Store.empty : Store := ⟨fun _ => none, fun _ => []⟩

/-- `f'` is `f`, with the value `v` for the pathname `p`. -/
def Set {α : Type} (f f' : Bytes → α) (p : Bytes) (v : α) : Prop :=
  ∀ q, (sameUpToCase p q → f' q = v) ∧ (¬ sameUpToCase p q → f' q = f q)

/-- `f'` is `f`, with at most one element taken out, somewhere. -/
def DropOne (f f' : Bytes → List Rec) : Prop :=
  ∃ t i, ∀ q, (sameUpToCase t q → f' q = (f q).eraseIdx i) ∧ (¬ sameUpToCase t q → f' q = f q)

/-- What each call does. -/
inductive Step : Store → Op → Res → Store → Prop
  /-- A new record has version 1.  It may take the place of one deleted record. -/
  | writeNew {st st' : Store} {r : Req} : st.live r.path = none → Set st.live st'.live r.path (some (stored r 1)) →
      DropOne st.trash st'.trash → Step st (.write r) .ok st'
  /-- Writing over a record counts the version up. -/
  | overwrite {st st' : Store} {r : Req} {R : Rec} : st.live r.path = some R → compatible R.dataType r.dataType →
      Set st.live st'.live r.path (some (stored r (R.version + 1))) → st'.trash = st.trash → Step st (.write r) .ok st'
  /-- Another type of data is refused. -/
  | refused {st : Store} {r : Req} {R : Rec} : st.live r.path = some R → ¬ compatible R.dataType r.dataType →
      Step st (.write r) .differentType st
  | delete {st st' : Store} {p : Bytes} {R : Rec} : st.live p = some R → Set st.live st'.live p none →
      Set st.trash st'.trash p (R :: st.trash p) → Step st (.delete p) .ok st'
  | deleteMissing {st : Store} {p : Bytes} : st.live p = none → Step st (.delete p) .notFound st
  | undelete {st st' : Store} {p : Bytes} {R : Rec} {rest : List Rec} : st.trash p = R :: rest →
      Set st.live st'.live p (some R) → Set st.trash st'.trash p rest → Step st (.undelete p) .ok st'
  | undeleteMissing {st : Store} {p : Bytes} : st.trash p = [] → Step st (.undelete p) .notFound st
  /-- A record under the new pathname is deleted.  Then the record disappears under the old pathname (`mid`) and
  appears, with version and time of last write as before, under its new one. -/
  | rename {st st1 st' : Store} {o n : List Bytes} {v : RenEnv} {res : Res} {R : Rec} {mid : Bytes → Option Rec} :
      Step st (.delete (join n)) res st1 → st1.live (join o) = some R → Set st1.live mid (join o) none →
      Set mid st'.live (renamed R.dataType o n) (some R) → DropOne st1.trash st'.trash → Step st (.rename o n v) .ok st'
  /-- If there is no record to rename, the one under the new pathname is deleted all the same. -/
  | renameMissing {st st1 : Store} {o n : List Bytes} {v : RenEnv} {res : Res} :
      Step st (.delete (join n)) res st1 → st1.live (join o) = none → Step st (.rename o n v) .notFound st1

/-- A sequence of calls. -/
inductive Steps : Store → List Op → List Res → Store → Prop
  | nil (st : Store) : Steps st [] [] st
  | cons {st st1 st2 : Store} {op : Op} {ops : List Op} {res : Res} {ress : List Res} :
      Step st op res st1 → Steps st1 ops ress st2 → Steps st (op :: ops) (res :: ress) st2

end Spec
