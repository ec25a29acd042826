import Verif.Model.Strings
/-!
Model of the base 64 functions (Utilities/verticalDatum.c:11-34, 346-484).

Sizes are `Int` without the overflow of `int` (the theorems are about texts short enough for it not
to happen).  The masks make the values of the macros independent of the sign of `char`, so they are
written with `UInt8`; the test of a signed `char` against 255 and the index with a signed `char` are
kept.
-/
namespace Hec

/-- verticalDatum.c:14: `"ABC…xyz0123456789+/"` with its final zero. -/
def base64chars : Bytes :=
  [65, 66, 67, 68, 69, 70, 71, 72, 73, 74, 75, 76, 77, 78, 79, 80, 81, 82, 83, 84, 85, 86, 87, 88, 89, 90,
   97, 98, 99, 100, 101, 102, 103, 104, 105, 106, 107, 108, 109, 110, 111, 112, 113, 114, 115, 116, 117, 118, 119, 120, 121, 122,
   48, 49, 50, 51, 52, 53, 54, 55, 56, 57, 43, 47, 0]

/-- verticalDatum.c:19-34, the first eight rows (the others are all 255). -/
def base64bytes : Bytes :=
  [255, 255, 255, 255, 255, 255, 255, 255, 255, 255, 255, 255, 255, 255, 255, 255,
   255, 255, 255, 255, 255, 255, 255, 255, 255, 255, 255, 255, 255, 255, 255, 255,
   255, 255, 255, 255, 255, 255, 255, 255, 255, 255, 255, 62, 255, 255, 255, 63,
   52, 53, 54, 55, 56, 57, 58, 59, 60, 61, 255, 255, 255, 255, 255, 255,
   255, 0, 1, 2, 3, 4, 5, 6, 7, 8, 9, 10, 11, 12, 13, 14,
   15, 16, 17, 18, 19, 20, 21, 22, 23, 24, 25, 255, 255, 255, 255, 255,
   255, 26, 27, 28, 29, 30, 31, 32, 33, 34, 35, 36, 37, 38, 39, 40,
   41, 42, 43, 44, 45, 46, 47, 48, 49, 50, 51, 255, 255, 255, 255, 255]

/-- verticalDatum.c:349-353. -/
def b64EncodedLen (n : Int) : Int :=
  if n = 0 then 0
  else if n < 0 then -1
  else ((n - 1).tdiv 3 + 1) * 4

/-- verticalDatum.c:357-361. -/
def b64DecodedLen (n : Int) : Int :=
  if n < 0 then -1
  else if n.tmod 4 ≠ 0 then -2
  else n.tdiv 4 * 3

/-- `base64chars[k]`, checked. -/
def charOf (k : UInt8) : Option UInt8 := base64chars[k.toNat]?

/-- verticalDatum.c:381-408: the characters written for the remaining bytes. -/
def encodeLoop : Bytes → Option Bytes
  | [] => some []
  | [a] => do
    let o0 ← charOf ((a &&& 0xfc) >>> 2)
    let o1 ← charOf ((a &&& 0x03) <<< 4)
    some [o0, o1, 61, 61]
  | [a, b] => do
    let o0 ← charOf ((a &&& 0xfc) >>> 2)
    let o1 ← charOf ((a &&& 0x03) <<< 4 ||| (b &&& 0xf0) >>> 4)
    let o2 ← charOf ((b &&& 0x0f) <<< 2)
    some [o0, o1, o2, 61]
  | a :: b :: c :: rest => do
    let o0 ← charOf ((a &&& 0xfc) >>> 2)
    let o1 ← charOf ((a &&& 0x03) <<< 4 ||| (b &&& 0xf0) >>> 4)
    let o2 ← charOf ((b &&& 0x0f) <<< 2 ||| (c &&& 0xc0) >>> 6)
    let o3 ← charOf (c &&& 0x3f)
    let more ← encodeLoop rest
    some (o0 :: o1 :: o2 :: o3 :: more)

/-- verticalDatum.c:374-411 for the `x.length` bytes `x`: the buffer `*encoded` of
`b64EncodedLen + 1` bytes; `none` when the characters and the final zero do not fit. -/
def b64Encode (x : Bytes) : Option Bytes := do
  let o ← encodeLoop x
  if o.length + 1 ≤ (b64EncodedLen x.length + 1).toNat then
    some (o ++ 0 :: List.replicate ((b64EncodedLen x.length + 1).toNat - (o.length + 1)) 0)
  else none

/-- `base64bytes[c]` with a signed `char`: a negative index is outside the table. -/
def valueOf64 (c : UInt8) : Option UInt8 := if c < 128 then base64bytes[c.toNat]? else none

/-- The value of a signed `char`. -/
def charInt (c : UInt8) : Int := if c < 128 then c.toNat else (c.toNat : Int) - 256

/-- What b64Decode gives: the return code, `*decoded` and `*decodedLen`. -/
structure Decoded where
  rc : Int
  buf : Bytes
  len : Nat

/-- verticalDatum.c:449-477: the remaining characters, the bytes written and the number of
characters read; `size` is the size of `*decoded`, which starts with all zeros. -/
def decodeLoop (size : Nat) : Bytes → Bytes → Nat → Option Decoded
  | [], out, n => if out.length ≤ size then some ⟨0, out ++ List.replicate (size - out.length) 0, n⟩ else none
  | c0 :: c1 :: c2 :: c3 :: rest, out, n => do
    let i0 ← valueOf64 c0
    let i1 ← valueOf64 c1
    let i2 ← valueOf64 c2
    let i3 ← valueOf64 c3
    if charInt i0 = 255 ∨ charInt i1 = 255 then some ⟨-3, [], 0⟩
    else
      let o0 := (i0 &&& 0x3f) <<< 2 ||| (i1 &&& 0x30) >>> 4
      let o1 := (i1 &&& 0x0f) <<< 4
      if c2 = 61 then
        if out.length + 2 ≤ size then some ⟨0, out ++ [o0, o1] ++ List.replicate (size - (out.length + 2)) 0, n + 2⟩ else none
      else
        let o1 := o1 ||| (i2 &&& 0x3c) >>> 2
        let o2 := (i2 &&& 0x03) <<< 6
        if c3 = 61 then
          if out.length + 3 ≤ size then some ⟨0, out ++ [o0, o1, o2] ++ List.replicate (size - (out.length + 3)) 0, n + 3⟩ else none
        else decodeLoop size rest (out ++ [o0, o1, o2 ||| (i3 &&& 0x3f)]) (n + 4)
  | _, _, _ => none

/-- verticalDatum.c:430-478; `t` is the text before its zero. -/
def b64Decode (t : Bytes) : Option Decoded :=
  let len := b64DecodedLen t.length
  let len := if len < 4 then -1
    else if t[(len - 2).toNat]? = some 61 then len - 2
    else if t[(len - 1).toNat]? = some 61 then len - 1
    else len
  if len < 0 then some ⟨len, [], 0⟩
  else decodeLoop t.length t [] 0

end Hec
