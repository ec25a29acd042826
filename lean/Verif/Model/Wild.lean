import Verif.Model.Strings
/-!
Pathnames with wild characters: Internal/zcatParsePath.c, Internal/zcatComparePath.c,
Public/zfindString.c, and their use in Internal/zcatalogInternal.c:236-301.
-/
namespace Hec

def STAR : UInt8 := 42

/-- zcatParsePath.c:97-142, for the string `part`: (partAction, istart, len). -/
def partPlan (part : Bytes) : Nat × Nat × Nat :=
  let len := part.length
  if len = 1 then (if part[0]? = some STAR then 0 else 1, 0, 1)
  else if len = 0 then (1, 0, 0)
  else
    let endsWith := part[0]? = some STAR
    let startsWith := part[len - 1]? = some STAR
    if startsWith then (if endsWith then (4, 1, len - 2) else (2, 0, len - 1))
    else if endsWith then (3, 1, len - 1)
    else (1, 0, len)

/-- What zcatParsePath keeps of one part: `partAction[i]`, `lengths[i]` and the string in `apart` ..
`fpart` (nothing of both is set when the action is 0). -/
structure PatPart where
  action : Nat
  len : Nat
  text : Bytes
deriving DecidableEq, Repr

/-- zcatParsePath.c:94-165 for the parts `i+1 ..`, `n` of them.  `part` is the local array, `dst` the
content of the array `apart` .. `fpart` before the call (of 129 bytes each in zcatalogInternal.c:103-108). -/
def parseParts (path : Bytes) (junk : Int) (dst : Bytes) : Nat → Nat → Bytes → Option (List PatPart)
  | _, 0, _ => some []
  | i, n + 1, part =>
    (zpathnameGetPart path (i + 1) part junk).bind fun r =>
      let p := partPlan (cstr r.1)
      let rest := parseParts path junk dst (i + 1) n r.1
      if p.1 = 0 then rest.map (⟨0, 0, []⟩ :: ·)
      else (stringCopy dst ((cstr r.1).drop p.2.1) p.2.2).bind fun d => rest.map (⟨p.1, p.2.2, cstr d.1⟩ :: ·)

/-- zcatParsePath.c:66-167.  `some none`: returns 0, nothing is to be compared; `none`: an access
outside an array. -/
def zcatParsePath (pathWithWild : Bytes) (junk : Int) (dst part : Bytes) : Option (Option (List PatPart)) :=
  if pathWithWild.length = 0 then some none
  -- lines 89-92: zpathnamePartPositions returns one more than the number of parts
  else if (zpathnamePartLengths pathWithWild 6).1 + 1 ≠ 7 then some none
  else (parseParts pathWithWild junk dst 0 6 part).map some

/-- zpathnameCompare.c:35-50 (zstringCompare) on arrays: `n` characters of `a` from index `ia` on, and of
`b` from index `ib` on. -/
def compareAt (before : Int → Option UInt8) (a : Bytes) (b : Bytes) : Int → Nat → Nat → Option Bool
  | _, _, 0 => some true
  | ia, ib, n + 1 => (rdB before a ia).bind fun x => (rd b ib).bind fun y =>
      if toupper x ≠ toupper y then some false else compareAt before a b (ia + 1) (ib + 1) n

/-- zfindString.c:49-56: `position`, counted from `pos` on, for the characters `j ..`. -/
def findInner (full find : Bytes) (i : Nat) : Nat → Nat → Nat → Option Nat
  | _, 0, pos => some pos
  | j, n + 1, pos => (rd full ((i + j : Nat) : Int)).bind fun x => (rd find (j : Nat)).bind fun y =>
      if toupper x ≠ toupper y then some pos else findInner full find i (j + 1) n (pos + 1)

/-- zfindString.c:47-62, from index `i` on, `n` turns. -/
def findOuter (full find : Bytes) (findLen : Nat) : Nat → Nat → Option Int
  | _, 0 => some (-1)
  | i, n + 1 => (findInner full find i 0 findLen 0).bind fun position =>
      if position = findLen then some i else findOuter full find findLen (i + 1) n

/-- zfindString.c:35-63. -/
def zfindString (full : Bytes) (fullLen : Nat) (find : Bytes) (findLen : Nat) : Option Int :=
  if findLen > fullLen then some (-1) else findOuter full find findLen 0 fullLen

/-- zcatComparePath.c:139-154: the turns `n` of the loop that writes 'X' up to the first '|'. -/
def xFill : Nat → Bytes → Bytes
  | n + 1, c :: a => if c = 124 then c :: a else 88 :: xFill n a
  | _, a => a

/-- zcatComparePath.c:139-146 (and 147-154): `for (j = 2; j < n; j++)` over the array `a`. -/
def fillSeq (n : Nat) (a : Bytes) : Bytes := a.take 2 ++ xFill (n - 2) (a.drop 2)

/-- zcatComparePath.c:108-159: is this the F part of a catalog of a collection, and are the arrays
`pathPart` and `stringToFind` (of which `len` characters count) both F parts of collections? -/
def bothCollections (coll : Bool) (i : Nat) (len : Nat) (pathPart stringToFind : Bytes) : Bool :=
  coll && i == 5 && decide (9 ≤ len) && decide (9 ≤ (cstr pathPart).length) &&
    (toupper (stringToFind.getD 0 0) == toupper (pathPart.getD 0 0)) && (toupper (stringToFind.getD 0 0) == 67) &&
    (stringToFind.getD 1 0 == 58) && (pathPart.getD 1 0 == 58) &&
    ((stringToFind.take len).drop 2).contains 124 && (((pathPart.take (cstr pathPart).length)).drop 2).contains 124

/-- zcatComparePath.c:108-159: the arrays `pathPart` and `stringToFind` afterwards. -/
def collStep (coll : Bool) (i : Nat) (len : Nat) (pathPart stringToFind : Bytes) : Bytes × Bytes :=
  if bothCollections coll i len pathPart stringToFind then (fillSeq (cstr pathPart).length pathPart, fillSeq len stringToFind)
  else (pathPart, stringToFind)

/-- zcatComparePath.c:83-190: the parts `i+1 ..`; `pathPart` and `stringToFind` are the local arrays,
`before` what lies in memory before `pathPart`. -/
def compareParts (coll : Bool) (before : Int → Option UInt8) (path : Bytes) (junk : Int) : Nat → List PatPart → Bytes → Bytes → Option Bool
  | _, [], _, _ => some true
  | i, p :: ps, pathPart, stringToFind =>
    if p.action = 0 then compareParts coll before path junk (i + 1) ps pathPart stringToFind
    else
      -- line 85
      (zpathnameGetPart path (i + 1) pathPart junk).bind fun r =>
        let len := r.2
        -- lines 86-90
        if p.action = 1 ∧ len ≠ p.len then some false
        else
          -- lines 91-107
          (stringCopy stringToFind p.text p.len).bind fun f =>
            -- lines 108-159
            let x := collStep coll i p.len r.1 f.1
            let result :=
              -- lines 161-188
              if p.action = 1 ∨ p.action = 2 then compareAt before x.1 x.2 0 0 p.len
              else if p.action = 3 then compareAt before x.1 x.2 (len - p.len) 0 p.len
              else if p.action = 4 then (zfindString x.1 len.toNat x.2 p.len).map fun k => decide (¬ k < 0)
              else some true
            result.bind fun ok => if ok then compareParts coll before path junk (i + 1) ps x.1 x.2 else some false

/-- zcatComparePath.c:55-193; `coll` is `boolCollection`. -/
def zcatComparePath (coll : Bool) (before : Int → Option UInt8) (cpath : Bytes) (junk : Int) (pats : List PatPart) (pathPart stringToFind : Bytes) :
    Option Bool :=
  if cpath.length = 0 then some true
  else if (zpathnamePartLengths cpath 6).1 + 1 ≠ 7 then some false
  else compareParts coll before cpath junk 0 pats pathPart stringToFind

/-- zcatalogInternal.c:236-301 (no collection): is the pathname `path` found for the pattern?  All arrays
have MAX_PART_SIZE = 129 bytes; `u` is the content of all of them before (they are local variables). -/
def wildFound (before : Int → Option UInt8) (u : UInt8) (junk : Int) (pathWithWild path : Bytes) : Option Bool :=
  (zcatParsePath pathWithWild junk (List.replicate 129 u) (List.replicate 129 u)).bind fun r =>
    match r with
    | none => some true
    | some pats => zcatComparePath false before path junk pats (List.replicate 129 u) (List.replicate 129 u)

/-- Public/zpathnameCompareCollection.c:47-71: the characters from index `i` on, `n` of them; `a` and `b` are
the characters of `pathname1` and `pathname2` from there on with their final NUL, `none` an access behind it. -/
def compareCollLoop : Nat → Bytes → Bytes → Nat → Bool → Bool → Option Bool
  | 0, _, _, _, _, isa => some isa
  | n + 1, a, b, slashes, inPart, isa =>
    match a, b with
    | x :: a', y :: b' =>
      if !inPart && toupper x != toupper y then some false
      else
        -- lines 56-59
        let isa' := if inPart && x == 124 then true else isa
        let inPart' := if inPart && x == 124 then false else inPart
        -- lines 61-68
        if x = 47 then
          if slashes + 1 = 6 then (rd (x :: a') 2).bind fun z => compareCollLoop n a' b' (slashes + 1) (if z = 58 then true else inPart') isa'
          else compareCollLoop n a' b' (slashes + 1) inPart' isa'
        else compareCollLoop n a' b' slashes inPart' isa'
    | _, _ => none

/-- Public/zpathnameCompareCollection.c:34-72, on the strings `p1` and `p2`. -/
def zpathnameCompareCollection (p1 p2 : Bytes) (n : Nat) : Option Bool := compareCollLoop n (p1 ++ [0]) (p2 ++ [0]) 0 false false

/-- zcatalogInternal.c:236-301 with `boolCollection = 1`. -/
def collFound (before : Int → Option UInt8) (u : UInt8) (junk : Int) (seed path : Bytes) : Option Bool :=
  (zcatParsePath seed junk (List.replicate 129 u) (List.replicate 129 u)).bind fun r =>
    match r with
    | none => zpathnameCompareCollection path seed path.length
    | some pats => zcatComparePath true before path junk pats (List.replicate 129 u) (List.replicate 129 u)

end Hec
