import Verif.Model.Strings
/-!
The character strings in the internal headers of time series and paired data: Utilities/stringHeaderUtility.c,
Internal/zcharTo8Byte.c, Internal/ztsInternalHeaderPack.c, ztsInternalHeaderUnpack.c, zpdUnitsToHead.c,
Utilities/mallocAndCopyTrim.c, and the conversion of old headers in zcopyRecordInternal.c:186-227.

A little endian machine; an array of ints is the list of its bytes (int `i` is the bytes `4 i` to `4 i + 3`), so
charInt and charLong copy bytes (charInt.c:95-107, charLong.c:75-106).  Arrays written or read by the code are
lists of fixed length: an access outside gives `none`.  A pointer to a string is `none` if it is null.
-/
namespace Hec

/-- numberIntsInBytes.c:26-38, for a length that is not negative. -/
def nIntsB (bytes : Nat) : Nat := (bytes + 3) / 4

/-- `stringCopy(&b[pos], size, src, len)`; a negative size is a large one when converted to size_t. -/
def stringCopyAt (b : Bytes) (pos : Nat) (size : Int) (src : Bytes) (len : Nat) : Option Bytes :=
  if 0 ≤ size then
    if pos + size.toNat ≤ b.length then
      (stringCopy ((b.drop pos).take size.toNat) src len).map fun d => b.take pos ++ d.1 ++ b.drop (pos + size.toNat)
    else none
  else (copyIn b pos (src.take len)).bind fun d => wr d (pos + min len src.length : Nat) 0

/-- zcharTo8Byte.c:48-82. -/
def zcharTo8Byte (b item : Bytes) (ipos size : Nat) : Option (Bytes × Nat) :=
  let len := trimLength item
  let jlen := (len + 1 + 7) / 8 * 8
  if jlen = len + 1 then (stringCopyAt b ipos ((size : Int) - ipos) item len).map fun d => (d, ipos + len)
  else
    -- lines 70-76
    (stringCopy (List.replicate jlen 0) item len).bind fun c =>
      let cs := c.1.take len ++ List.replicate (jlen - 1 - len) BLANK ++ c.1.drop (jlen - 1)
      (stringCopyAt b ipos ((size : Int) - ipos) (cstr cs) (jlen - 1)).map fun d => (d, ipos + (jlen - 1))

/-- stringHeaderUtility.c:15-32. -/
def appendStringToHeader (src : Option Bytes) (b : Bytes) (ipos size : Nat) : Option (Bytes × Nat) :=
  (zcharTo8Byte b (src.getD (List.replicate 7 BLANK)) ipos size).bind fun r =>
    if (r.2 : Int) < (size : Int) - 1 then (wr r.1 r.2 0).map fun d => (d, r.2 + 1) else some (r.1, r.2 + 1)

/-- mallocAndCopyTrim.c:35-84 for a string. -/
def mallocAndCopyTrim (s : Bytes) : Bytes :=
  if (trimPositions s).1 > 0 then
    (s.drop (trimPositions s).2.1.toNat).take ((trimPositions s).2.2 - (trimPositions s).2.1 + 1).toNat
  else []

/-- The strings of a time series: `profile` says whether there are profile depths. -/
structure TsStrings where
  profile : Bool
  units : Option Bytes
  unitsDepths : Option Bytes
  unitsValues : Option Bytes
  type : Option Bytes
  zone : Option Bytes
deriving DecidableEq

/-- Write `src` at byte `pos` of `b`. -/
def putBytes (b : Bytes) (pos : Nat) (src : Bytes) : Option Bytes := copyIn b pos src

/-- ztsInternalHeaderPack.c:64-105.  `carray` is the local array (300 bytes) before, `hdr` the internal header.
Result: the header and the number of ints. -/
def ztsInternalHeaderPack (t : TsStrings) (carray hdr : Bytes) : Option (Bytes × Nat) :=
  let size := 298
  -- lines 76-83
  (if t.profile then (appendStringToHeader t.unitsDepths carray 0 size).bind fun r => appendStringToHeader t.unitsValues r.1 r.2 size
    else appendStringToHeader t.units carray 0 size).bind fun r =>
  if r.2 ≥ size then some (hdr, nIntsB size)
  else
    (appendStringToHeader t.type r.1 r.2 size).bind fun r =>
    if r.2 ≥ size then some (hdr, nIntsB size)
    else
      (appendStringToHeader t.zone r.1 r.2 size).bind fun r =>
      if r.2 ≥ size then some (hdr, nIntsB size)
      else
        -- lines 96-104
        (putBytes hdr 68 (List.replicate 4 BLANK)).bind fun h =>
        (putBytes h 72 (r.1.take r.2)).map fun h => (h, nIntsB r.2 + 18)

/-- stringHeaderUtility.c:58-74: the int at `pos` is zero or four blanks. -/
def unitsHavePadding (hdr : Bytes) (pos : Nat) : Bool :=
  let w := (hdr.drop (4 * pos)).take 4
  w = List.replicate 4 0 ∨ w = List.replicate 4 BLANK

/-- `strlen(&b[pos])`, read in the array only. -/
def strlenAt (b : Bytes) (pos : Nat) : Option Nat :=
  let r := b.drop pos
  if 0 ∈ r then some (cstr r).length else none

/-- strnlen_hec.c:22-35: `strnlen(&b[pos], max)`. -/
def strnlenAt (b : Bytes) (pos max : Nat) : Option Nat :=
  let r := b.drop pos
  if 0 ∈ r.take max then some (cstr r).length
  else if max ≤ r.length then some max else none

/-- A string of a struct: the pointer, and whether the library has allocated it (`allocated[...]`). -/
structure Field where
  val : Option Bytes
  allocated : Bool
deriving DecidableEq

/-- ztsInternalHeaderUnpack.c:144-160; `carray` has 200 bytes. -/
def mallocAndAssignString (f : Field) (carray : Bytes) (ipos : Nat) : Option (Field × Nat) :=
  (strnlenAt carray ipos 199).bind fun len =>
    if f.allocated = false ∧ len > 0 then
      (strlenAt carray ipos).map fun _ =>
        let s := cstr (carray.drop ipos)
        if trimLength s ≠ 0 then (⟨some (mallocAndCopyTrim s), true⟩, ipos + len + 1) else (f, ipos + len + 1)
    else some (f, ipos + len + 1)

/-- What ztsInternalHeaderUnpack sets. -/
structure TsHead where
  granularity : Int
  precision : Int
  offset : Int
  units : Field
  unitsDepths : Field
  unitsValues : Field
  type : Field
  zone : Field
deriving DecidableEq

/-- The int at position `i` of a header (little endian). -/
def intAt (hdr : Bytes) (i : Nat) : Int :=
  let w := (hdr.drop (4 * i)).take 4
  let n : Nat := w.foldr (fun c a => c.toNat + 256 * a) 0
  if n < 2 ^ 31 then n else (n : Int) - 2 ^ 32

/-- ztsInternalHeaderUnpack.c:89-109, zpdUnitsToHead.c:100-118: the characters are copied into the array `carray`.
`none`: charLong, called with no bytes to copy, reads on to a zero byte behind the header (charLong.c:84-90). -/
def headChars (hdr : Bytes) (pos number : Nat) (carray : Bytes) : Option Bytes :=
  if unitsHavePadding hdr pos = false then putBytes carray 0 (((hdr.drop (4 * pos)).take ((number - pos) * 4)).take carray.length)
  else if number = pos + 1 then none
  else putBytes carray 0 (((hdr.drop (4 * (pos + 1))).take ((number - pos - 1) * 4)).take carray.length)

/-- ztsInternalHeaderUnpack.c:72-138.  `number` is `internalHeaderNumber`, `carray` the local array (200 bytes) before.
The status is not modelled (memory is never exhausted); a header with less than 3 ints is not either. -/
def ztsInternalHeaderUnpack (t : TsHead) (hdr : Bytes) (number : Nat) (carray : Bytes) : Option TsHead :=
  let t := { t with granularity := if intAt hdr 0 > 0 then intAt hdr 0 else t.granularity, precision := intAt hdr 1, offset := intAt hdr 2 }
  if number ≤ 18 then some t
  else
    (headChars hdr 17 number carray).bind fun ca =>
    (if intAt hdr 3 = 0 then (mallocAndAssignString t.units ca 0).map fun r => ({ t with units := r.1 }, r.2)
      else (mallocAndAssignString t.unitsDepths ca 0).bind fun r => (mallocAndAssignString t.unitsValues ca r.2).map fun q =>
        ({ t with unitsDepths := r.1, unitsValues := q.1 }, q.2)).bind fun (p : TsHead × Nat) =>
    (mallocAndAssignString p.1.type ca p.2).bind fun r =>
    (mallocAndAssignString p.1.zone ca r.2).map fun q => { p.1 with type := r.1, zone := q.1 }

/-! ### Paired data -/

/-- The five strings of paired data: unitsIndependent, typeIndependent, unitsDependent, typeDependent, timeZoneName. -/
abbrev PdStrings := List (Option Bytes)

/-- zpdUnitsToHead.c:62-76: one string after the other; `none` in the second place: the array is full. -/
def appendAll (b : Bytes) (ipos size : Nat) : PdStrings → Option (Bytes × Option Nat)
  | [] => some (b, some ipos)
  | s :: ss => (appendStringToHeader s b ipos size).bind fun r => if r.2 ≥ size then some (r.1, none) else appendAll r.1 r.2 size ss

/-- zpdUnitsToHead.c:50-90.  `carray` has 400 bytes; `dim` is `internalHeaderArraySize`. -/
def zpdUnitsToHead (p : PdStrings) (carray hdr : Bytes) (dim : Nat) : Option (Bytes × Nat) :=
  let size := 398
  (appendAll carray 0 size p).bind fun r =>
    match r.2 with
    | none => some (hdr, nIntsB size)
    | some ipos =>
      let ipos := if ipos > (dim - 5) * 4 then (dim - 5) * 4 else ipos
      (putBytes hdr 20 (List.replicate 4 BLANK)).bind fun h =>
      (putBytes h 24 (r.1.take ipos)).map fun h => (h, nIntsB ipos + 6)

/-- zpdUnitsToHead.c:121-174: reading one string after the other; stops at an empty one. -/
def assignAll (ca : Bytes) (ipos : Nat) : List Field → Option (List Field)
  | [] => some []
  | f :: fs => (strlenAt ca ipos).bind fun len =>
      if len = 0 then some (f :: fs)
      else
        let s := cstr (ca.drop ipos)
        let f' : Field := if trimLength s ≠ 0 then ⟨some (mallocAndCopyTrim s), true⟩ else f
        (assignAll ca (ipos + len + 1) fs).map fun r => f' :: r

/-- zpdUnitsToHead.c:93-176; the status is not modelled. -/
def zpdHeadToUnits (fs : List Field) (hdr : Bytes) (number : Nat) (carray : Bytes) : Option (List Field) :=
  if number ≤ 5 then some fs
  else (headChars hdr 5 number carray).bind fun ca => assignAll ca 0 fs

/-! ### Old headers -/

/-- stringHeaderUtility.c:35-50: the string at `ipos` and the position after it.  The array has `size` bytes. -/
def readStringFromHeader (carray : Bytes) (ipos : Nat) : Option (Option Bytes × Nat) :=
  if ipos + 1 > carray.length then some (none, ipos)
  else (strlenAt carray ipos).map fun len =>
    if len = 0 then (none, ipos)
    else
      let s := cstr (carray.drop ipos)
      (if trimLength s ≠ 0 then some (mallocAndCopyTrim s) else none, ipos + len + 1)

/-- zcopyRecordInternal.c:186-227: the header of a time series (types 100 to 119) with `number` ints.  Result: the
header that is written.  `carray` is the local array (200 bytes) before. -/
def convertHeader (dataType : Int) (hdr : Bytes) (number : Nat) (carray : Bytes) : Option (Bytes × Nat) :=
  if 100 ≤ dataType ∧ dataType ≤ 119 ∧ number > 18 ∧ unitsHavePadding hdr 17 = false then
    (putBytes carray 0 (((hdr.drop 68).take ((number - 17) * 4)).take carray.length)).bind fun ca =>
    (readStringFromHeader ca 0).bind fun u =>
    (readStringFromHeader ca u.2).bind fun t =>
    (readStringFromHeader ca t.2).bind fun z =>
    (appendStringToHeader u.1 ca 0 carray.length).bind fun r =>
    (appendStringToHeader t.1 r.1 r.2 carray.length).bind fun r =>
    (appendStringToHeader z.1 r.1 r.2 carray.length).bind fun r =>
    let n := nIntsB r.2 + 18
    (putBytes (hdr.take 68 ++ List.replicate ((n - 17) * 4) 0) 68 (List.replicate 4 BLANK)).bind fun h =>
    -- `none`: more characters than the array has
    if r.2 ≤ r.1.length then (putBytes h 72 (r.1.take r.2)).map fun h => (h, n) else none
  else some (hdr, number)

end Hec
