import Verif.Model.Engine
/-!
The cyclic redundancy check CRC-32 as it is defined bit by bit: a register of 32 bits into which the bits of the message are shifted, the
lowest bit of every byte first; if the bit that leaves the register differs from that of the message, the polynomial is added.
(No first and no last complement, as zgetDataCRC has none.)
-/
namespace Spec

/-- The bits of a byte, the lowest first. -/
def bitsOf (b : UInt8) : List Bool := (List.range 8).map fun k => b.toNat.testBit k

/-- The register after one bit. -/
def shiftBit (v : Nat) (b : Bool) : Nat := if v.testBit 0 != b then (v / 2) ^^^ 0xedb88320 else v / 2

/-- The register after a message. -/
def crc32 (v : Nat) (bytes : List UInt8) : Nat := (bytes.flatMap bitsOf).foldl shiftBit v

/-- An int as it is in memory. -/
def wordBytes (w : UInt32) : List UInt8 := (List.range 4).map fun k => UInt8.ofNat (w.toNat / 256 ^ k % 256)

/-- All data of a record: the three arrays of values, the second header and the user header. -/
def dataInts (R : Hec.Rec) : List UInt32 := R.v1 ++ R.v2 ++ R.v3 ++ R.h2 ++ R.uh

/-- The third array is of no use, or as long as the first. -/
def ThirdFits (R : Hec.Rec) : Prop := R.v3 = [] ∨ R.v3.length = R.v1.length

end Spec
