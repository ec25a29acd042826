import Verif.Model.SortCat
import Verif.Spec.Histories
import Verif.Spec.Api
/-! What the theorems about the sorted catalog speak about. -/
namespace Spec
open Hec

/-- A pathname of six parts, without zero bytes and ends of lines. -/
def SortName (p : Bytes) : Prop := ∃ ps : List Bytes, SixParts ps ∧ p = join ps ∧ ∀ b ∈ p, b ≠ 0 ∧ b ≠ 10

/-- The widths of the six columns leave room for the number at the end of the line: 380 characters, with 12 at least
for the E part. -/
def ShortLines (w : Nat → Nat) : Prop := w 0 + w 1 + w 2 + w 3 + max (w 4) 12 + w 5 ≤ 380

/-- Calls that change the file, and sorted catalogs of its records in between: the calls (`past`), the file, and what its
header has for sorted catalogs.  `ok` is asked of every catalog that is sorted. -/
inductive SortHistory (ok : SortEnv → List CatRow → Prop) (c : Cfg) (s0 : Eng) : List Op → Eng → SortHdr → Prop
  | new : SortHistory ok c s0 [] s0 ⟨0, []⟩
  | call {past : List Op} {s s' : Eng} {h : SortHdr} {op : Op} {res : Res} : SortHistory ok c s0 past s h → Allowed c past s op →
      run c s op = some (s', res) → SortHistory ok c s0 (past ++ [op]) s' (sortAfter op res s s' h)
  | catalog {past : List Op} {s : Eng} {h : SortHdr} {e : SortEnv} {q : SortReq} {r : SortGot} : SortHistory ok c s0 past s h →
      q.statusWanted = REC_STATUS_VALID → (q.useList = true → ∀ p, q.wild p = true) → ShortLines e.width →
      (∀ rows, zcatalog c s q.inner = some rows → rows.length ≤ 10 ^ 10 ∧ (∀ row ∈ rows, SortName row.path) ∧ ok e rows) →
      zcatInternalSort c s h e q = some r → SortHistory ok c s0 past s r.hdr

/-- A part made of the characters from the blank on, not ending with a blank. -/
def PlainPart (p : Bytes) : Prop := (∀ b ∈ p, 32 ≤ b.toNat ∧ b.toNat ≤ 127) ∧ NoBlankEnd p

/-- The columns for the A, B and C parts are as wide as these parts, which are made of plain characters. -/
def ColumnsFit (e : SortEnv) (rows : List CatRow) : Prop :=
  ∀ row ∈ rows, ∀ ps, SixParts ps → row.path = join ps → ∀ k (h : k < ps.length), k < 3 → PlainPart ps[k] ∧ ps[k].length ≤ e.width k

/-- The A, B and C parts of the first pathname are those of the second, or come before them (in the order of the
characters; `<` is the lexicographic order). -/
def NotBehind (p p' : Bytes) : Prop :=
  ∀ ps ps', SixParts ps → SixParts ps' → p = join ps → p' = join ps' → ps.take 3 = ps'.take 3 ∨ ps.take 3 < ps'.take 3

/-- The F part, as far as it is looked at: not more than one character longer than the longest D part. -/
def cutF (e : SortEnv) (ps : List Bytes) : Bytes := (ps.getD 5 []).take (e.width 5 + 1)

/-- A block of a regular series: its parts, its interval in seconds and its day. -/
structure SeriesBlock (e : SortEnv) (row : CatRow) (ps : List Bytes) (secs day : Nat) : Prop where
  six : SixParts ps
  path : row.path = join ps
  kind : 100 ≤ row.dataType ∧ row.dataType < 200
  interval : ∃ st name, ePartToSeconds 7 (ps.getD 4 []) = some (st, (secs : Int), name)
  date : dateToJulian (ps.getD 3 []) = (day : Int)
  small : secs < 10 ^ 10 ∧ day + 10 ^ 7 < 10 ^ 10
  short : (ps.getD 3 []).length ≤ 128 ∧ (ps.getD 4 []).length ≤ 128
  plain : PlainPart (cutF e ps)

end Spec
