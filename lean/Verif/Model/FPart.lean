import Verif.Model.Dates
/-!
F parts with tags: Utilities/normalizeFPart.c.  Texts are those in the ASCII range, as in the "C" locale; memory
is available.
-/
namespace Hec

/-- isalnum in the "C" locale. -/
def isAlnum (c : UInt8) : Bool := isDigit c || decide (65 ≤ c ∧ c ≤ 90) || decide (97 ≤ c ∧ c ≤ 122)

/-- normalizeFPart.c:47, the number of a digit character. -/
def digitAt (v : Bytes) (i : Nat) : Int := ((v.getD i 0).toNat : Int) - 48

/-- normalizeFPart.c:34-88. -/
def validateTagTime (v : Bytes) (seconds : Bool) : Bool :=
  let n := if seconds then 15 else 13
  if v.length ≠ n then false
  else if !((List.range n).all fun i => if i = 8 then v.getD i 0 == 45 else isDigit (v.getD i 0)) then false
  else
    let yr := digitAt v 3 + 10 * digitAt v 2 + 100 * digitAt v 1 + 1000 * digitAt v 0
    let mon := digitAt v 5 + 10 * digitAt v 4
    let day := digitAt v 7 + 10 * digitAt v 6
    let hr := digitAt v 10 + 10 * digitAt v 9
    let min := digitAt v 12 + 10 * digitAt v 11
    let sec := digitAt v 14 + 10 * digitAt v 13
    let dayOk : Bool :=
      if mon = 1 ∨ mon = 3 ∨ mon = 5 ∨ mon = 7 ∨ mon = 8 ∨ mon = 10 ∨ mon = 12 then decide (day ≤ 31)
      else if mon = 4 ∨ mon = 6 ∨ mon = 9 ∨ mon = 11 then decide (day ≤ 30)
      else if mon = 2 then
        (if yr.tmod 4 = 0 ∧ (yr.tmod 100 ≠ 0 ∨ yr.tmod 400 = 0) then decide (day ≤ 29) else decide (day ≤ 28))
      else false
    if !dayOk then false
    else if hr > 24 ∨ (hr = 24 ∧ min > 0) then false
    else if min > 59 then false
    else if seconds ∧ sec > 59 then false
    else true

/-- normalizeFPart.c:127-135, the loop over pairs. -/
def runPairs : Bytes → Bool
  | [] => true
  | [_] => false
  | a :: b :: v =>
    if a = 45 then (if b ≠ 45 then false else runPairs v)
    else if !isAlnum a then false
    else if !isDigit b then false
    else runPairs v

/-- normalizeFPart.c:104-141. -/
def validateFPartTag (tag : UInt8) (v : Bytes) : Bool :=
  if tag = 67 then
    if v.length ≠ 6 then false else v.all isAlnum
  else if tag = 84 then validateTagTime v false
  else if tag = 78 then true
  else if tag = 86 then validateTagTime v true
  else if tag = 82 then
    if v.length % 2 ≠ 0 then false else runPairs v
  else false

/-- normalizeFPart.h:11-39. -/
def F_SUCCESS : Int := 0
def F_NO_TAG_SEPARATOR : Int := 1
def F_INVALID_TAG_FORMAT : Int := 2
def F_MULTIPLE_UNTAGGED_PARTS : Int := 3
def F_EMPTY_F_PART : Int := 4
def F_MEMORY_ERROR : Int := 10
def F_INVALID_TAG_CHARACTER : Int := 11
def F_REPEATED_TAG_CHARACTER : Int := 12
def F_INVALID_C_TAG_VALUE : Int := 13
def F_INVALID_T_TAG_VALUE : Int := 14
def F_INVALID_V_TAG_VALUE : Int := 15
def F_INVALID_R_TAG_VALUE : Int := 16
def F_UNEXPECTED_ERROR : Int := 100

/-- normalizeFPart.c:167. -/
def TAG_CHARACTERS : Bytes := [67, 78, 84, 82, 86]

/-- normalizeFPart.c:227-233. -/
def tagError (c : UInt8) : Int :=
  if c = 67 then F_INVALID_C_TAG_VALUE else if c = 84 then F_INVALID_T_TAG_VALUE
  else if c = 86 then F_INVALID_V_TAG_VALUE else if c = 82 then F_INVALID_R_TAG_VALUE else F_UNEXPECTED_ERROR

/-- strtok_r with the delimiter '|': the token and the text behind its delimiter. -/
def strtok (s : Bytes) : Option (Bytes × Bytes) :=
  let t := s.dropWhile (· = 124)
  if t.isEmpty then none else some (t.takeWhile (· ≠ 124), (t.dropWhile (· ≠ 124)).drop 1)

/-- What the parsing loop keeps: the status, tagValues and untaggedPortion. -/
structure FParse where
  status : Int
  tags : List (UInt8 × Bytes)
  text : Option Bytes
deriving DecidableEq

/-- normalizeFPart.c:195-247, one token; `true`: the loop goes on. -/
def fToken (p : FParse) (tok : Bytes) : FParse × Bool :=
  match tok.findIdx? (· = 58) with
  | some i =>
    if i ≠ 1 then ({ p with status := F_INVALID_TAG_FORMAT }, false)
    else
      let c := toupper (tok.getD 0 0)
      if !(TAG_CHARACTERS.contains c) then ({ p with status := F_INVALID_TAG_CHARACTER }, false)
      else if p.tags.any (fun t => t.1 == c) then ({ p with status := F_REPEATED_TAG_CHARACTER }, false)
      else
        let v := tok.drop 2
        let p := { p with tags := p.tags ++ [(c, v)] }
        if !validateFPartTag c v then ({ p with status := tagError c }, false) else (p, true)
  | none =>
    match p.text with
    | some _ => ({ p with status := F_MULTIPLE_UNTAGGED_PARTS }, false)
    | none => ({ p with text := some tok }, true)

/-- normalizeFPart.c:193-249; every round takes at least one character. -/
def fLoop : Nat → Bytes → FParse → FParse
  | 0, _, p => p
  | n + 1, s, p =>
    match strtok s with
    | none => p
    | some (tok, rest) =>
      match fToken p tok with
      | (p, true) => fLoop n rest p
      | (p, false) => p

/-- normalizeFPart.c:261-295: the tags in the order of TAG_CHARACTERS, then the text. -/
def fBuild (p : FParse) : Bytes :=
  (TAG_CHARACTERS.flatMap fun c => p.tags.flatMap fun t => if t.1 = c then t.1 :: 58 :: (t.2 ++ [124]) else []) ++ p.text.getD []

/-- normalizeFPart.c:164-314.  The output is not set without success; with a text and no tags strlen would be
called on a null pointer, which does not happen (a text with a colon has a tag). -/
def normalizeFPart (f : Bytes) : Int × Option Bytes :=
  if f.isEmpty then (F_EMPTY_F_PART, none)
  else if !(f.contains 58) then (F_NO_TAG_SEPARATOR, none)
  else
    let p := fLoop (f.length + 1) f ⟨F_SUCCESS, [], none⟩
    let p := if f.getLast? = some 124 ∧ p.text.isSome then { p with status := F_MULTIPLE_UNTAGGED_PARTS } else p
    if p.status ≠ F_SUCCESS then (p.status, none)
    else if 0 < p.tags.length ∨ p.text.isSome then (F_SUCCESS, some (fBuild p)) else (F_SUCCESS, none)

/-- normalizeFPart.c:143-145. -/
def canUseOriginalFPart (status : Int) : Bool := decide (status < F_MEMORY_ERROR)

/-- normalizeFPart.c:316-357; `bufs`: the six arrays of MAX_PART_SIZE bytes as they are on the stack. -/
def normalizeFPartInPathname (path : Bytes) (bufs : Nat → Bytes) (junk : Int) : Option (Int × Option Bytes) :=
  ((List.range 6).mapM fun i : Nat => (zpathnameGetPart path ((i : Int) + 1) (bufs i) junk).map fun r => cstr r.1).bind fun parts =>
    match normalizeFPart (parts.getD 5 []) with
    | (0, some g) => some (F_SUCCESS, some (47 :: ((parts.take 5).flatMap (· ++ [47]) ++ g ++ [47])))
    -- strlen of a null pointer
    | (0, none) => none
    | (st, _) => if canUseOriginalFPart st then some (F_SUCCESS, some path) else some (st, none)

end Hec
