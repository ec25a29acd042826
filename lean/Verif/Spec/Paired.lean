import Verif.Spec.Records
import Verif.Spec.Headers
import Verif.Model.Paired
/-! Paired data: what is stored and what is read back. -/
namespace Spec
open Hec Hec.Spec

/-- The numbers as floats (`wide` false) or doubles. -/
def asType (k : Conv) (wide : Bool) : PdData → PdData
  | .floats o v => if wide then .doubles (o.map k.toD) (v.map k.toD) else .floats o v
  | .doubles o v => if wide then .doubles o v else .floats (o.map k.toF) (v.map k.toF)

def areDoubles : PdData → Bool
  | .floats _ _ => false
  | .doubles _ _ => true

/-- Storage flags: 1 and 11 floats, 2 and 12 doubles, others as given. -/
def wideFor (flag : Int) (d : PdData) : Bool := if flag = 1 ∨ flag = 11 then false else if flag = 2 ∨ flag = 12 then true else areDoubles d

/-- Ordinates `o` and the same number of values, all zero. -/
def zeroValues : PdData → PdData
  | .floats o v => .floats o (v.map fun _ => 0)
  | .doubles o v => .doubles o (v.map fun _ => 0)

/-- What is in the file: flags above 5 only make space for the values. -/
def kept (k : Conv) (flag : Int) (d : PdData) : PdData :=
  if flag > 5 then zeroValues (asType k (wideFor flag d) d) else asType k (wideFor flag d) d

/-- `rows` ordinates from number `a` on, of `curves` curves from number `b` on (counted from 0), out of curves with
`n` ordinates, one curve behind the other. -/
def cut {α : Type} (n a rows b curves : Nat) (v : List α) : List α :=
  (List.range curves).flatMap fun i => (v.drop ((b + i) * n + a)).take rows

def part (n a rows b curves : Nat) : PdData → PdData
  | .floats o v => .floats ((o.drop a).take rows) (cut n a rows b curves v)
  | .doubles o v => .doubles ((o.drop a).take rows) (cut n a rows b curves v)

/-- Asked for `start` to `fin` of `n`, both counted from 1, zero meaning from the first and to the last: these are `k`
from number `a` (counted from 0) on. -/
def Asked (start fin : Int) (n a k : Nat) : Prop :=
  (a : Int) = max (start - 1) 0 ∧ 1 ≤ k ∧ (a : Int) + k = if fin = 0 ∨ fin > n then (n : Int) else fin

/-- Labels in memory: one behind the other, each with a zero byte behind it. -/
def flat (ls : List Bytes) : Bytes := ls.flatMap fun l => l ++ [0]

/-- `n` ordinates and `m` curves of `n` values each. -/
def HasSize (n m : Nat) : PdData → Prop
  | .floats o v => o.length = n ∧ v.length = m * n
  | .doubles o v => o.length = n ∧ v.length = m * n

/-- Paired data the library is meant to keep: `d` with `n` ordinates and `m` curves, labels `ls`. -/
structure Paired (p : PdIn) (d : PdData) (n m : Nat) (ls : List Bytes) : Prop where
  data : p.data = some d
  size : HasSize n m d
  nOrd : p.nOrd = n ∧ 1 ≤ n ∧ n < 2 ^ 31
  nCurves : p.nCurves = m ∧ 1 ≤ m ∧ m < 2 ^ 31
  xaxis : IsInt p.xaxis
  prec : p.xprec < 0 ∨ (0 ≤ p.xprec ∧ p.xprec < 2 ^ 27 ∧ 0 ≤ p.yprec ∧ p.yprec ≤ 9)
  strings : p.strings.length = 5 ∧ (∀ s ∈ p.strings, NoZero s) ∧ (p.strings.map cells).sum < 398
  labels : Points p.labels p.labelsLength (flat ls) ∧ ∀ l ∈ ls, ∀ b ∈ l, b ≠ 0

/-- The whole record is stored: nothing is said about curves and ordinates, or all are named. -/
def Whole (p : PdIn) : Prop :=
  (p.startCurve = 0 ∧ p.endCurve = 0 ∧ p.startOrd = 0 ∧ p.endOrd = 0) ∨
  (p.startCurve = 1 ∧ p.endCurve = p.nCurves ∧ p.startOrd = 1 ∧ p.endOrd = p.nOrd)

/-- The local arrays have their sizes. -/
def PdArrays (e : PdEnv) : Prop := e.hdr.length = 800 ∧ e.ca1.length = 400 ∧ e.ca2.length = 400

/-- Conditions for storing paired data of type `type` under the pathname `p`, with `odd` header sections of odd length. -/
def MayReplace (c : Cfg) (past : List Op) (s : Eng) (p : Bytes) (type : UInt32) (odd : Nat) : Prop :=
  p.length ≤ 392 ∧ (∀ R, zread c s p = some (some R) → 0 < toInt32 R.dataType.toNat) ∧
    (∀ R, zread c s p = some (some R) → R.dataType = type → odd ≤ 1 ∨ odd ≤ oddHeaders R.ih R.h2 R.uh) ∧
    ((∀ R, zread c s p = some (some R) → R.dataType ≠ type) → ∀ d ∈ past.flatMap Op.deletes, (d.length + 7) / 8 ≤ (p.length + 7) / 8)

/-- A string as it is read into a new struct. -/
def field (s : Option Bytes) : Field := match shown s with | some x => ⟨some x, true⟩ | none => ⟨none, false⟩

/-- What is read of the data `d`, stored from `p`, besides labels, user header and the part: -/
def readBack (p : PdIn) (flag : Int) (d : PdData) (labels : Bytes) (uh : List UInt32) (rows curves : Int) (got : PdData) : PdOut :=
  ⟨if wideFor flag d then 205 else 200, p.nOrd, p.nCurves, p.xaxis, if p.xprec < 0 then -1 else p.xprec, if p.xprec < 0 then -1 else p.yprec,
    p.strings.map field, labels, uh, rows, curves, got⟩

/-- The type of numbers that is asked for: 0 as stored, 1 floats, 2 doubles. -/
def wideOut (size : Int) (d : PdData) : Bool := if size = 0 then areDoubles d else decide (size = 2)

/-! ### Storing a part -/

/-- A part of a record is named, not the whole. -/
def InPart (p : PdIn) : Prop :=
  1 < p.startCurve ∨ 1 < p.startOrd ∨ (p.endOrd ≠ 0 ∧ p.endOrd ≠ p.nOrd) ∨ (p.endCurve ≠ 0 ∧ p.endCurve ≠ p.nCurves) ∨
    (p.startOrd = 0 ∧ p.endOrd = 0 ∧ (p.startCurve ≠ 0 ∨ p.endCurve ≠ 0))

/-- `v'` is `v` with `w` in place of `rows` values from number `a` on of `curves` curves from number `b` on (counted
from 0), the curves having `n` values each. -/
def Replaced {α : Type} (n a rows b curves : Nat) (w v v' : List α) : Prop :=
  v'.length = v.length ∧ ∀ cv r, r < n → v'[cv * n + r]? =
    if b ≤ cv ∧ cv < b + curves ∧ a ≤ r ∧ r < a + rows then w[(cv - b) * rows + (r - a)]? else v[cv * n + r]?

/-- The same for paired data of one type; the ordinates stay. -/
def ReplacedData (n a rows b curves : Nat) : PdData → PdData → PdData → Prop
  | .floats _ w, .floats o v, .floats o' v' => o' = o ∧ Replaced n a rows b curves w v v'
  | .doubles _ w, .doubles o v, .doubles o' v' => o' = o ∧ Replaced n a rows b curves w v v'
  | _, _, _ => False

/-- Number of values given. -/
def valuesGiven : PdData → Nat
  | .floats _ v => v.length
  | .doubles _ v => v.length

/-- A whole read of the pathname `q`, numbers as they are stored. -/
def askAll (q : Bytes) : PdAsk := ⟨q, 0, 0, 0, 0, 0⟩

/-- `p` names `rows` values from number `a` on of `curves` curves from number `b` on, of paired data that are in the file
(`out`, with `n` ordinates and `m` curves), and has values `d` for all of them; no labels are given. -/
structure PutsPart (c : Cfg) (s : Eng) (k : Conv) (ca : Bytes) (p : PdIn) (d : PdData) (ps : List Bytes) (n m a rows b curves : Nat) (out : PdOut) : Prop where
  name : SixParts ps ∧ (join ps).length ≤ 392 ∧ ∃ j, p.path = join ps ++ List.replicate j 32
  there : zpdRetrieve c s k ca (askAll (join ps)) = some (.got (some out))
  size : HasSize n m out.data ∧ out.nOrd = n ∧ out.nCurves = m
  named : InPart p ∧ Asked p.startOrd p.endOrd n a rows ∧ Asked p.startCurve p.endCurve m b curves
  data : p.data = some d ∧ curves * rows ≤ valuesGiven d
  labels : p.labelsLength ≤ 0

/-- Files that are reached by the calls of `Allowed` and by storing parts of paired data. -/
inductive Reached (c : Cfg) (s0 : Eng) : List Op → Eng → Prop where
  | calls {past : List Op} {s : Eng} : Reachable c s0 past s → Reached c s0 past s
  | part {past : List Op} {s s' : Eng} {e : PdEnv} {w : WriteEnv} {flag : Int} {ca : Bytes} {p : PdIn} {d : PdData} {ps : List Bytes}
      {n m a rows b curves : Nat} {out : PdOut} : Reached c s0 past s → PutsPart c s e.conv ca p d ps n m a rows b curves out →
      zpdStore c s e w flag p = some (s', .ok) → Reached c s0 past s'
  | more {past ops : List Op} {s s' : Eng} : Reached c s0 past s → Leads c past s ops s' → Reached c s0 (past ++ ops) s'

end Spec
