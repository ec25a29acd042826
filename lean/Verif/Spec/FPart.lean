import Verif.Spec.Calendar
import Verif.Model.Strings
/-!
F parts with tags, `C:000001|T:20220228-1200|text`: pieces between bars, of which the tags have a letter and a colon.
-/
namespace Spec
open Hec (Bytes)

/-- The text cut at the bars. -/
def splitBar : Bytes → List Bytes
  | [] => [[]]
  | c :: s =>
    if c = 124 then [] :: splitBar s
    else match splitBar s with
      | [] => [[c]]
      | p :: ps => (c :: p) :: ps

/-- The pieces that are not empty. -/
def pieces (f : Bytes) : List Bytes := (splitBar f).filter fun p => !p.isEmpty

/-- The letter, as a capital, and the value of a piece that is a tag. -/
def tagOf : Bytes → Option (UInt8 × Bytes)
  | c :: 58 :: v => some (if 97 ≤ c ∧ c ≤ 122 then c - 32 else c, v)
  | _ => none

def tagsOf (f : Bytes) : List (UInt8 × Bytes) := (pieces f).filterMap tagOf

/-- The pieces without a colon. -/
def textsOf (f : Bytes) : List Bytes := (pieces f).filter fun p => !p.contains 58

def IsDigit (c : UInt8) : Prop := 48 ≤ c ∧ c ≤ 57
def IsAlnum (c : UInt8) : Prop := IsDigit c ∨ (65 ≤ c ∧ c ≤ 90) ∨ (97 ≤ c ∧ c ≤ 122)

/-- The last two digits of a number. -/
def twoDigits (n : Nat) : Bytes := [UInt8.ofNat (48 + n / 10 % 10), UInt8.ofNat (48 + n % 10)]

/-- `YYYYMMDD-hhmm` or `YYYYMMDD-hhmmss`.  (The day may be 00, and the last minute of a day 24:00 may have seconds:
that is what the library accepts.) -/
def TagTime (seconds : Bool) (v : Bytes) : Prop :=
  ∃ y m d h mi s : Nat,
    v = twoDigits (y / 100) ++ twoDigits y ++ twoDigits m ++ twoDigits d ++ [45] ++ twoDigits h ++ twoDigits mi ++ (if seconds then twoDigits s else []) ∧
    y < 10000 ∧ 1 ≤ m ∧ m ≤ 12 ∧ (d : Int) ≤ monthLen y m ∧ (h < 24 ∧ mi < 60 ∨ h = 24 ∧ mi = 0) ∧ s < 60

/-- Run identifiers: pairs `--` or a letter or digit followed by a digit. -/
inductive RunId : Bytes → Prop
  | nil : RunId []
  | none (v : Bytes) : RunId v → RunId (45 :: 45 :: v)
  | run (a b : UInt8) (v : Bytes) : IsAlnum a → IsDigit b → RunId v → RunId (a :: b :: v)

/-- The tags: collection, run name, time of forecast, run identifier, version time. -/
def ValidTag (c : UInt8) (v : Bytes) : Prop :=
  (c = 67 ∧ v.length = 6 ∧ ∀ a ∈ v, IsAlnum a) ∨ c = 78 ∨ (c = 84 ∧ TagTime false v) ∨ (c = 82 ∧ RunId v) ∨ (c = 86 ∧ TagTime true v)

/-- A well formed F part with tags. -/
structure Tagged (f : Bytes) : Prop where
  each : ∀ p ∈ pieces f, 58 ∉ p ∨ ∃ t, tagOf p = some t ∧ ValidTag t.1 t.2
  once : ((tagsOf f).map Prod.fst).Nodup
  tags : tagsOf f ≠ []
  text : (textsOf f).length ≤ 1
  noEnd : textsOf f ≠ [] → f.getLast? ≠ some 124

/-- The tags in the order C, N, T, R, V, each followed by a bar, then the text. -/
def canonical (f : Bytes) : Bytes :=
  ([67, 78, 84, 82, 86].flatMap fun c => ((tagsOf f).filter fun t => t.1 = c).flatMap fun t => t.1 :: 58 :: (t.2 ++ [124])) ++ (textsOf f).flatten

end Spec
