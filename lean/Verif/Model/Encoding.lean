import Verif.Model.CArith
/-!
Model of the small encodings: packing of ints (Utilities/i4toi8.c, i8toi4.c), byte swapping
(System/zswap.c, zswitchInts.c), repeat compression (Internal/ztsRegRepeat*.c), error codes
(Internal/zerrorEncode.c ...) and record status filtering (Internal/zcompareRecordStatus.c).
-/
namespace Hec

/-! ### Packing -/

/-- An 8 byte word in memory seen as two `int`s at increasing addresses: the value of the word on
a little endian machine has the first int as low half, on a big endian machine as high half. -/
def wordOfInts (bigEndian : Bool) (i0 i1 : BitVec 32) : BitVec 64 :=
  if bigEndian then i0 ++ i1 else i1 ++ i0

/-- The int at address offset 0 of a word. -/
def int0OfWord (bigEndian : Bool) (w : BitVec 64) : BitVec 32 :=
  if bigEndian then w.extractLsb' 32 32 else w.extractLsb' 0 32

/-- The int at address offset 4 of a word. -/
def int1OfWord (bigEndian : Bool) (w : BitVec 64) : BitVec 32 :=
  if bigEndian then w.extractLsb' 0 32 else w.extractLsb' 32 32

/-- i4toi8.c:28-45. -/
def i4toi8 (bigEndian : Bool) (a b : BitVec 32) : BitVec 64 :=
  if bigEndian then wordOfInts true b a else wordOfInts false a b

/-- i8toi4.c:29-44. -/
def i8toi4 (bigEndian : Bool) (w : BitVec 64) : BitVec 32 × BitVec 32 :=
  if bigEndian then (int1OfWord true w, int0OfWord true w)
  else (int0OfWord false w, int1OfWord false w)

/-! ### Swapping -/

/-- zswap.c:76-86: the bytes of one 8 byte word in reverse order.  A word is a list of bytes; the
C code names the eight bytes one by one. -/
def swapWord : List UInt8 → List UInt8
  | [b0, b1, b2, b3, b4, b5, b6, b7] => [b7, b6, b5, b4, b3, b2, b1, b0]
  | w => w

/-- zswap.c:74: number of 8 byte words touched for a number of 4 byte ints. -/
def longsOf (numberInts : Nat) : Nat := (numberInts - 1) / 2 + 1

/-- zswap.c:62-89. -/
def zswap (words : List (List UInt8)) (numberInts : Nat) : List (List UInt8) :=
  if numberInts = 0 then words
  else (words.take (longsOf numberInts)).map swapWord ++ words.drop (longsOf numberInts)

/-- zswitchInts.c:83-88: swap the ints of `n` consecutive pairs. -/
def switchPairs : Nat → List (BitVec 32) → List (BitVec 32)
  | n + 1, a :: b :: rest => b :: a :: switchPairs n rest
  | _, l => l

/-- zswitchInts.c:68-108.  When `numberInts` is odd the last pair reaches one int beyond the
array; the list contains that int if the caller's buffer does. -/
def zswitchInts (a : List (BitVec 32)) (numberInts : Nat) : List (BitVec 32) :=
  if numberInts = 0 then a else switchPairs (longsOf numberInts) a

/-! ### Repeat compression -/

/-- ztsRegRepeatCompress.c:92-95: `header2[i/32] |= 1 << (i - 32*(i/32))`. -/
def setRepeatBit (header2 : List Nat) (i : Nat) : List Nat :=
  header2.modify (i / 32) (fun w => w ||| (1 <<< (i - i / 32 * 32)))

/-- ztsRegRepeatUncompress.c:107-110, 141-144: `header2[i/32] & (1 << position)`. -/
def repeatBit (header2 : List Nat) (i : Nat) : Bool :=
  ((header2[i / 32]?).getD 0 &&& (1 <<< (i - i / 32 * 32))) != 0

/-- ztsRegRepeatCompress.c:79-108: loop over elements 1.. ; an element is the group of
`sizeEachData` ints of one value, and the group comparison loop of lines 82-89 is `=`. -/
def compressLoop {E : Type} [DecidableEq E] :
    List E → Nat → E → List Nat → List E → List Nat × List E
  | [], _, _, h, out => (h, out)
  | x :: xs, i, prev, h, out =>
    if x = prev then compressLoop xs (i + 1) x (setRepeatBit h i) out
    else compressLoop xs (i + 1) x h (out ++ [x])

/-- ztsRegRepeatCompress.c:61-110: the bit map and the compressed data. -/
def repeatCompress {E : Type} [DecidableEq E] (data : List E) (header2 : List Nat) :
    List Nat × List E :=
  match data with
  | [] => (header2, [])
  | x :: xs => compressLoop xs 1 x header2 [x]

/-- ztsRegRepeatUncompress.c:106-127: run over positions `i`, `i+1`, ... (`n` of them) keeping the
current value; the data pointer is the list still to be read. -/
def skipLoop {E : Type} [Inhabited E] (h : List Nat) : Nat → Nat → List E → E → List E × E
  | 0, _, rest, cur => (rest, cur)
  | n + 1, i, rest, cur =>
    if repeatBit h i then skipLoop h n (i + 1) rest cur
    else skipLoop h n (i + 1) rest.tail (rest.head?.getD default)

/-- ztsRegRepeatUncompress.c:139-171 (`valueElementSize == sizeRequested`; the conversions between
element sizes are not modelled). -/
def expandLoop {E : Type} [Inhabited E] (h : List Nat) : Nat → Nat → List E → E → List E
  | 0, _, _, _ => []
  | n + 1, i, rest, cur =>
    if repeatBit h i then cur :: expandLoop h n (i + 1) rest cur
    else (rest.head?.getD default) :: expandLoop h n (i + 1) rest.tail (rest.head?.getD default)

/-- ztsRegRepeatUncompress.c:72-172. -/
def repeatUncompress {E : Type} [Inhabited E] (start stop : Nat) (header2 : List Nat)
    (dataIn : List E) : List E :=
  let s : List E × E :=
    if start = 0 then (dataIn.tail, dataIn.head?.getD default)
    else skipLoop header2 (start + 1) 0 dataIn default
  if start = stop then [s.2]
  else s.2 :: expandLoop header2 (stop - (start + 1)) (start + 1) s.1 s.2

/-! ### Error codes -/

/-- zerrorEncode.c:49-66. -/
def zerrorEncode (severity high low dssError systemError : Int) : Int :=
  let sys := if systemError > 99 ∨ systemError < -9 then 0 else systemError
  let code := sys + dssError * 100 + low * 10000 + high * 1000000 + severity * 100000000
  if code > 0 then -code else code

structure DecodedError where
  severity : Int
  high : Int
  low : Int
  dssError : Int
  status : Int
deriving DecidableEq, Repr

/-- zerrorDecode.c:49-63. -/
def zerrorDecode (errorCode : Int) : DecodedError :=
  let e := if errorCode < 0 then -errorCode else errorCode
  let severity := cdiv e 100000000
  let high := cdiv (e - severity * 100000000) 1000000
  let low := cdiv (e - (severity * 100000000 + high * 1000000)) 10000
  let dssError := cdiv (e - (severity * 100000000 + high * 1000000 + low * 10000)) 100
  let status := e - (severity * 100000000 + high * 1000000 + low * 10000 + dssError * 100)
  ⟨severity, high, low, dssError, status⟩

/-- zerrorSeverity.c:32-40. -/
def zerrorSeverity (errorCode : Int) : Int :=
  cdiv (if errorCode < 0 then -errorCode else errorCode) 100000000

/-- zisError.c:30-56; STATUS_OKAY = 0, STATUS_RECORD_NOT_FOUND = -1, INVALID_ARGUMENT = 3
(hecdss7.h:19-25, zerrorCodes.h:234-255). -/
def zisError (errorCode : Int) : Bool :=
  if errorCode ≥ 0 then false
  else if errorCode = -1 then false
  else if errorCode > -10 then true
  else decide ((zerrorDecode errorCode).severity ≥ 3)

/-! ### Record status -/

/-- hecdssInternal.h record status codes. -/
def REC_VALID : Int := 0
def REC_PRIMARY : Int := 1
def REC_ALIAS : Int := 2
def REC_MOVED : Int := 10
def REC_DELETED : Int := 11
def REC_RENAMED : Int := 12
def REC_ALIAS_DELETED : Int := 13
def REC_REMOVED : Int := 15
def REC_ANY : Int := 100

/-- zcompareRecordStatus.c:46-67. -/
def zcompareRecordStatus (statusRead statusWanted : Int) : Bool :=
  if statusRead ≤ REC_PRIMARY ∧
      (statusWanted = REC_VALID ∨ statusWanted = REC_PRIMARY ∨ statusWanted = REC_ANY) then true
  else if statusRead = REC_ALIAS ∧
      (statusWanted = REC_VALID ∨ statusWanted = REC_ALIAS ∨ statusWanted = REC_ANY) then true
  else if statusRead = REC_DELETED ∧ (statusWanted = REC_DELETED ∨ statusWanted = REC_ANY) then true
  else if statusRead = REC_RENAMED ∧ (statusWanted = REC_RENAMED ∨ statusWanted = REC_ANY) then true
  else false

end Hec
