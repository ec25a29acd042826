import Verif.Model.CArith
/-!
Model of the string and pathname functions (Utilities/trimPositions.c, stringCopy.c,
Public/zpathname*.c) and of the pathname hash (Internal/zhash.c).

Bytes are `UInt8`; `char` is signed as on the supported platforms, so a byte of 128 or more is a
negative `char`.  A C string is a list of non zero bytes followed by a zero.  Arrays written by the
code are lists of fixed length with checked accesses: an access outside the array gives `none`.
-/
namespace Hec

abbrev Bytes := List UInt8

/-- `strlen`-style view of an array: the bytes before the first zero. -/
def cstr (b : Bytes) : Bytes := b.takeWhile (· ≠ 0)

/-- `a[i]`, checked. -/
def rd (b : Bytes) (i : Int) : Option UInt8 := if 0 ≤ i then b[i.toNat]? else none

/-- `a[i]` where a read before the start of the array gives what the parameter `before` says:
`fun _ => none` checks the access, `fun j => some (m j)` is the behaviour of a machine with
arbitrary memory contents `m` before the array. -/
def rdB (before : Int → Option UInt8) (b : Bytes) (i : Int) : Option UInt8 :=
  if 0 ≤ i then b[i.toNat]? else before i

/-- `a[i] = c`, checked. -/
def wr (b : Bytes) (i : Int) (c : UInt8) : Option Bytes :=
  if 0 ≤ i ∧ i < b.length then some (b.set i.toNat c) else none

def SLASH : UInt8 := 47
def BLANK : UInt8 := 32
def MAX_PART_SIZE : Int := 129

/-- `toupper` in the C locale. -/
def toupper (c : UInt8) : UInt8 := if 97 ≤ c ∧ c ≤ 122 then c - 32 else c

/-! ### trimPositions -/

/-- trimPositions.c:69-75: index of the first non blank, from index `i`. -/
def firstNonBlank : Bytes → Int → Int
  | [], _ => -1
  | c :: cs, i => if c ≠ BLANK then i else firstNonBlank cs (i + 1)

/-- trimPositions.c:83-88: scanning down from index `i` (the list is the reversed string). -/
def lastNonBlank : Bytes → Int → Int → Int
  | [], _, e => e
  | c :: cs, i, e => if c ≠ BLANK then i else lastNonBlank cs (i - 1) e

/-- trimPositions.c:57-90: (length, start, end). -/
def trimPositions (s : Bytes) : Int × Int × Int :=
  if s.length = 0 then (0, 0, 0)
  else
    let start := firstNonBlank s 0
    if start = -1 then (0, 0, 0)
    else
      let e := lastNonBlank s.reverse (s.length - 1) 0
      (e - start + 1, start, e)

/-- trimLength.c:48-60, by scanning the reversed string. -/
def trimLengthLoop : Bytes → Nat
  | [] => 0
  | c :: cs => if c ≠ BLANK then cs.length + 1 else trimLengthLoop cs

def trimLength (s : Bytes) : Nat := trimLengthLoop s.reverse

/-! ### stringCopy -/

/-- Copy loop `for (i=0; i<n; i++) dst[at+i] = src[i]` (stringCopy.c:88-90, zpathnameSetPart.c:71-73
and others). -/
def copyIn (b : Bytes) (pos : Int) : Bytes → Option Bytes
  | [] => some b
  | c :: cs => (wr b pos c).bind fun b' => copyIn b' (pos + 1) cs

/-- stringCopy.c:47-94 with `lenSource` other than the `_TRUNCATE` marker; `source` is the string
starting at the source pointer.  Returns the destination and the number of characters. -/
def stringCopy (dst : Bytes) (source : Bytes) (lenSource : Nat) : Option (Bytes × Nat) :=
  if lenSource = 0 then
    if dst.length > 0 then (wr dst 0 0).map fun d => (d, 0) else some (dst, 0)
  else if dst.length = 0 then some (dst, 0)
  else
    let len := dst.length - 1
    let len := if lenSource < len then lenSource else len
    let len := if source.length < len then source.length else len
    (copyIn dst 0 (source.take len)).bind fun d => (wr d len 0).map fun d => (d, len)

/-! ### Forming and cleaning pathnames -/

/-- zpathnameAddPart.c:48-55: copy while there is room; `false` when the buffer is full. -/
def addChars (b : Bytes) (count : Nat) : Bytes → Option (Bytes × Nat × Bool)
  | [] => some (b, count, true)
  | c :: cs =>
    if count < b.length then (wr b count c).bind fun b' => addChars b' (count + 1) cs
    else some (b, count, false)

/-- zpathnameAddPart.c:38-63. -/
def zpathnameAddPart (part : Bytes) (b : Bytes) (count : Nat) : Option (Bytes × Nat) :=
  let t := trimPositions part
  let chars := if t.1 > 0 then (part.drop t.2.1.toNat).take (t.2.2 - t.2.1 + 1).toNat else []
  (addChars b count chars).bind fun r =>
    if r.2.2 then
      if r.2.1 < r.1.length then (wr r.1 r.2.1 SLASH).map fun b' => (b', r.2.1 + 1)
      else some (r.1, r.2.1)
    else some (r.1, r.2.1)

/-- zpathnameForm.c:64-69: the six calls, in order. -/
def addParts (b : Bytes) (count : Nat) : List Bytes → Option (Bytes × Nat)
  | [] => some (b, count)
  | p :: ps => (zpathnameAddPart p b count).bind fun r => addParts r.1 r.2 ps

/-- zpathnameForm.c:52-79; `b` is the whole buffer given by the caller (`sizeofPathname` bytes).
The six part arguments are a list. -/
def zpathnameForm (parts : List Bytes) (b : Bytes) : Option (Bytes × Nat) :=
  if 0 < b.length then
    (wr b 0 SLASH).bind fun b => (addParts b 1 parts).bind fun r =>
      if r.2 < r.1.length then (wr r.1 r.2 0).map fun b' => (b', r.2 + 1)
      else (wr r.1 (r.1.length - 1) 0).map fun b' => (b', r.2)
  else some (b, 0)

/-- zpathnameClean.c:49-84: characters below 32 (as signed char) and 127 are dropped, stop after
the seventh slash or when the buffer is full. -/
def cleanLoop (b : Bytes) (count slashes : Nat) : Bytes → Option (Bytes × Nat)
  | [] => some (b, count)
  | c :: cs =>
    if c < 32 ∨ c ≥ 128 then cleanLoop b count slashes cs
    else if c > 126 then cleanLoop b count slashes cs
    else
      let slashes := if c = SLASH then slashes + 1 else slashes
      if count ≥ b.length then some (b, count)
      else (wr b count c).bind fun b' =>
        if slashes = 7 then some (b', count + 1) else cleanLoop b' (count + 1) slashes cs

/-- zpathnameClean.c:38-88. -/
def zpathnameClean (b : Bytes) (old : Bytes) : Option (Bytes × Nat) :=
  (cleanLoop b 0 0 old).bind fun r => (wr r.1 r.2 0).map fun b' => (b', r.2)

/-! ### Parsing pathnames -/

/-- zpathnamePartLengths.c:59-67: `l` is the pathname from index `i`; result lengths in order. -/
def partLengthsLoop : Bytes → Int → Int → List Int → Nat → List Int
  | [], _, _, acc, _ => acc
  | c :: cs, i, istart, acc, size =>
    if c = SLASH then
      partLengthsLoop cs (i + 1) i (if acc.length < size then acc ++ [i - istart - 1] else acc) size
    else partLengthsLoop cs (i + 1) istart acc size

/-- zpathnamePartLengths.c:41-74 for `dimOfLengths` of 2 or more: number found, and the lengths
padded with zeroes. -/
def zpathnamePartLengths (path : Bytes) (dim : Nat) : Nat × List Int :=
  let size := if dim > 6 then 6 else dim
  let l := partLengthsLoop (path.drop 1) 1 0 [] size
  (l.length, l ++ List.replicate (size - l.length) 0)

/-- zpathnamePartPositions.c:77-79: `positions[i] = positions[i-1] + positions[i] + 1` for `n`
entries starting with previous value `p`. -/
def sumPositions : Nat → Int → List Int → List Int
  | n + 1, p, l :: ls => (p + l + 1) :: sumPositions n (p + l + 1) ls
  | _, _, ls => ls

/-- zpathnamePartPositions.c:53-81 with `dimOfPositions = 7`, as called by GetPart and SetPart.
`junk` is the content of `positions[0]` before the call (the array is a local variable). -/
def zpathnamePartPositions (path : Bytes) (junk : Int) : List Int :=
  let r := zpathnamePartLengths path 6
  if r.1 < 1 then junk :: r.2
  else
    let size := if r.1 + 1 > 6 then r.1 + 1 else 6
    1 :: sumPositions (size - 1) 1 r.2

/-- zpathnameGetPart.c:40-70.  Result: the part array and the returned length; `none` is an access
outside an array. -/
def zpathnameGetPart (path : Bytes) (position : Int) (part : Bytes) (junk : Int) :
    Option (Bytes × Int) :=
  if position < 1 ∨ position > 6 then (wr part 0 0).map fun p => (p, -1)
  else
    let pos := zpathnamePartPositions path junk
    let e := pos[position.toNat]?.getD 0
    let start := pos[(position - 1).toNat]?.getD 0
    let partLen := e - start - 1
    if partLen < 1 then (wr part 0 0).map fun p => (p, 0)
    else
      let partLen := if partLen ≥ MAX_PART_SIZE then MAX_PART_SIZE - 1 else partLen
      if 0 ≤ start ∧ start ≤ path.length then
        (stringCopy part (path.drop start.toNat) partLen.toNat).map fun r => (r.1, partLen)
      else none

/-- zpathnameSetPart.c:85-87: `for (i=i0; i<i0+n; i++) p[i] = p[i+diff]`. -/
def moveForward (b : Bytes) (i : Int) (diff : Int) : Nat → Option Bytes
  | 0 => some b
  | n + 1 => (rd b (i + diff)).bind fun c => (wr b i c).bind fun b' => moveForward b' (i + 1) diff n

/-- zpathnameSetPart.c:106-108: `for (i=i0+n-1; i>=i0; i--) p[i] = p[i-diff]`. -/
def moveBackward (before : Int → Option UInt8) (b : Bytes) (i : Int) (diff : Int) : Nat → Option Bytes
  | 0 => some b
  | n + 1 => (rdB before b (i + n - diff)).bind fun c =>
      (wr b (i + n) c).bind fun b' => moveBackward before b' i diff n

/-- zpathnameSetPart.c:43-116: `b` is the caller's buffer of `sizeofPathname` bytes.  Result:
buffer and whether the status is STATUS_OKAY.  `before` says what a read before the start of the
buffer gives (see `rdB`): line 107 can make such reads. -/
def zpathnameSetPart (before : Int → Option UInt8) (b : Bytes) (part : Bytes) (position : Int) (junk : Int) :
    Option (Bytes × Bool) :=
  if position < 1 ∨ position > 6 then some (b, false)
  else
    let pos := zpathnamePartPositions (cstr b) junk
    let e := pos[position.toNat]?.getD 0
    let start := pos[(position - 1).toNat]?.getD 0
    let last := pos[6]?.getD 0
    let oldLength := e - start - 1
    let newLength : Int := part.length
    if newLength = oldLength then (copyIn b start part).map fun b => (b, true)
    else if newLength < oldLength then
      let diff := oldLength - newLength
      let endPath := last - diff
      (copyIn b start part).bind fun b =>
        let icount := start + newLength
        (moveForward b icount diff (endPath - icount).toNat).bind fun b =>
          (wr b endPath 0).map fun b => (b, true)
    else
      let diff := newLength - oldLength
      let endPath := last + diff
      if endPath > b.length then some (b, false)
      else
        (wr b endPath 0).bind fun b =>
          (moveBackward before b e diff (endPath - e).toNat).bind fun b =>
            (copyIn b start part).map fun b => (b, true)

/-! ### Comparison -/

/-- zpathnameCompare.c:35-50 (zstringCompare) and 52-86 (zpathnameCompare, whose second argument
is first unpacked by charLong, the identity on little endian machines). -/
def zstringCompare : Bytes → Bytes → Nat → Bool
  | _, _, 0 => true
  | a :: as, b :: bs, n + 1 => if toupper a ≠ toupper b then false else zstringCompare as bs n
  | _, _, _ + 1 => false

/-! ### Hash -/

/-- zhash.c:92-99: characters below 32 (as signed char) become `?`, others upper case. -/
def hashChar (c : UInt8) : UInt8 := if c < 32 ∨ c ≥ 128 then 63 else toupper c

/-- zhash.c:114-116: the Java string hash in 64 bit wrapping arithmetic (signed overflow is taken
to wrap). -/
def pathHashLoop (h : BitVec 64) : Bytes → BitVec 64
  | [] => h
  | c :: cs => pathHashLoop (31#64 * h + BitVec.ofNat 64 c.toNat) cs

/-- zhash.c:127-130. -/
def pathnameHash (path : Bytes) : BitVec 64 :=
  let h := pathHashLoop 0#64 (path.map hashChar)
  if h = 0#64 then 1#64 else h

/-- State of the loop zhash.c:159-193. -/
structure HashSt where
  it : Nat
  i2 : Nat
  ineed : Nat
  ihave : Nat
  ibyte : Nat
deriving DecidableEq, Repr

/-- zhash.c:166-181: move bits; `none` when the shifted value does not fit a 32 bit int. -/
def hashMove (ibit : Nat) (s : HashSt) : Option HashSt :=
  if s.ihave > 0 then
    let imove := if s.ihave < s.ineed then s.ihave else s.ineed
    let i2 := s.i2 <<< imove
    let ineed := s.ineed - imove
    let ihave := s.ihave - imove
    if i2 ≥ 2 ^ 31 then none
    else if ineed = 0 then some ⟨s.it ^^^ (i2 / 256), i2 % 256, ibit, ihave, s.ibyte⟩
    else some ⟨s.it, i2, ineed, ihave, s.ibyte⟩
  else some s

/-- zhash.c:184-192: `none` is the end of the loop (`break`), `some none` a read outside the zero
filled array. -/
def hashRefill (path : Bytes) (nt : Nat) (s : HashSt) : Option (Option HashSt) :=
  if s.ihave = 0 then
    if s.ibyte + 1 > nt then none
    else some ((path[s.ibyte]?).map fun c => ⟨s.it, s.i2 + c.toNat, s.ineed, 8, s.ibyte + 1⟩)
  else some (some s)

/-- zhash.c:164-193.  `fuel` bounds the number of turns; `none` when it runs out, on an overflow or
when a byte outside the array is read. -/
def hashLoop (path : Bytes) (ibit nt : Nat) : Nat → HashSt → Option Nat
  | 0, _ => none
  | fuel + 1, s =>
    match hashMove ibit s with
    | none => none
    | some s =>
      match hashRefill path nt s with
      | none => some s.it
      | some none => none
      | some (some s) => hashLoop path ibit nt fuel s

/-- zhash.c:148-151: `frexp` gives `fraction * 2^ibit` with `fraction` in [0.5,1), and an exact
power of two is reduced by one: the number of bits needed for indices below `maxHash`. -/
def hashBits (maxHash : Nat) : Nat :=
  let ibit := maxHash.log2 + 1
  if maxHash = 2 ^ maxHash.log2 then ibit - 1 else ibit

/-- zhash.c:156-157, with C division for a possibly empty path. -/
def hashChars (len ibit : Nat) : Nat :=
  let nt := cdiv ((len : Int) * 8 - 1) ibit + 1
  (cdiv (nt * ibit - 1) 8 + 1).toNat

/-- zhash.c:145-208: the table hash (`detune` is the testing switch in the file header). -/
def tableHash (path : Bytes) (maxHash : Nat) (fuel : Nat) : Option Nat :=
  let ibit := hashBits maxHash
  let p := path.map hashChar ++ List.replicate 8 0
  (hashLoop p ibit (hashChars path.length ibit) fuel ⟨0, 0, ibit, 0, 0⟩).map (· % maxHash)

/-- znewFileSize.c:96-137: (kmaxHash, kbinSize) of a new file; `newCollectionFile` is the global
switch of lines 134-137. -/
def znewFileSize (maxExpectedPaths hashSize binSize : Int) (newCollectionFile : Bool) : Int × Int :=
  if (hashSize > 0 ∧ binSize > 0) ∧ (hashSize < 100001 ∧ binSize ≤ 400) then (hashSize, binSize)
  else
    let s :=
      if maxExpectedPaths ≤ 0 then (8192, 200)
      else if maxExpectedPaths ≤ 10000 then (8192, 200)
      else if maxExpectedPaths ≤ 50000 then (8192, 150)
      else if maxExpectedPaths ≤ 100000 then (8192, 200)
      else if maxExpectedPaths ≤ 500000 then (16348, 200)
      else if maxExpectedPaths ≤ 1000000 then (32768, 300)
      else (64000, 300)
    if newCollectionFile then (s.1, 400) else s

end Hec
