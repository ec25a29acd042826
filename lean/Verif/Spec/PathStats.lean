import Verif.Spec.Histories
import Verif.Spec.SortCat
import Verif.Model.PathStats
/-! Specification for C100: the lengths of the longest parts (Internal/zupdatePathStats.c). -/
namespace Spec
open Hec Hec.Spec

/-- The header of the file after one call, made on the file `s`. -/
def statsAfter (c : Cfg) (s : Eng) (st : PathStats) : Op → Option PathStats
  | .write r => statsWrite c s r st
  | .delete _ => some st
  | .undelete _ => some st
  | .rename o n v => statsRename c s (join o) (join n) v st

/-- The header of the file after a sequence of calls, the first of them made on the file `s`. -/
def statsRuns (c : Cfg) : Eng → PathStats → List Op → Option PathStats
  | _, st, [] => some st
  | s, st, op :: ops => (statsAfter c s st op).bind fun st' => (run c s op).bind fun p => statsRuns c p.1 st' ops

/-- The header has room for the pathname: it is not longer than the longest one, and its parts are not longer than the
longest parts. -/
def HasRoom (st : PathStats) (p : Bytes) : Prop :=
  p.length ≤ st.maxPath ∧ ∀ ps, SixParts ps → p = join ps → ∀ k, k < 6 → (ps.getD k []).length ≤ st.part k

/-- A number of the header is the length of the `k`-th part of one of these pathnames, or no number was stored. -/
def FromOne (names : List Bytes) (k : Nat) (m : Int) : Prop :=
  m = 0 ∨ ∃ p ∈ names, ∃ ps, SixParts ps ∧ p = join ps ∧ m = (ps.getD k []).length

/-- The A, B and C parts of these pathnames are made of plain characters. -/
def PlainNames (rows : List CatRow) : Prop :=
  ∀ row ∈ rows, ∀ ps, SixParts ps → row.path = join ps → ∀ k (h : k < ps.length), k < 3 → PlainPart ps[k]

/-- Histories of calls and of sorted catalogs, each sorted by columns with the widths that are in the header. -/
inductive StatHistory (c : Cfg) (s0 : Eng) : List Op → Eng → SortHdr → PathStats → Prop
  | new : StatHistory c s0 [] s0 ⟨0, []⟩ noPathStats
  | call {past : List Op} {s s' : Eng} {h : SortHdr} {st st' : PathStats} {op : Op} {res : Res} : StatHistory c s0 past s h st →
      Allowed c past s op → run c s op = some (s', res) → statsAfter c s st op = some st' →
      StatHistory c s0 (past ++ [op]) s' (sortAfter op res s s' h) st'
  | catalog {past : List Op} {s : Eng} {h : SortHdr} {st : PathStats} {e : SortEnv} {q : SortReq} {r : SortGot} : StatHistory c s0 past s h st →
      q.statusWanted = REC_STATUS_VALID → (q.useList = true → ∀ p, q.wild p = true) → e.width = columnWidths st → ShortLines e.width →
      (∀ rows, zcatalog c s q.inner = some rows → rows.length ≤ 10 ^ 10 ∧ (∀ row ∈ rows, SortName row.path) ∧ PlainNames rows) →
      zcatInternalSort c s h e q = some r → StatHistory c s0 past s r.hdr st

end Spec
