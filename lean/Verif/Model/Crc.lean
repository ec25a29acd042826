import Verif.Model.OldNames
import Verif.Model.Copy
/-!
The check sum of the data of a record: heclib/heclib_c/src/Public/zgetDataCRC.c.  Modelled for `endian = 0`, the value the function
sets itself (line 64); the block function for `endian = 1` is never called.  The table is a function of the index here: it is filled
for all 256 indices on the first call and kept in `ifltab`.
-/
namespace Hec

/-- zgetDataCRC.c:153: one turn of the inner loop; the polynomial of line 140. -/
def crcBit (c : UInt32) : UInt32 := if c &&& 1 ≠ 0 then (c >>> 1) ^^^ 0xedb88320 else c >>> 1

/-- zgetDataCRC.c:149-154: `j` turns of the inner loop. -/
def crcBits : Nat → UInt32 → UInt32
  | 0, c => c
  | j + 1, c => crcBits j (crcBit c)

/-- zgetDataCRC.c:147-156: the entry of the table. -/
def crcTable (i : UInt8) : UInt32 := crcBits 8 (UInt32.ofNat i.toNat)

/-- zgetDataCRC.c:176. -/
def crcByte (val : UInt32) (b : UInt8) : UInt32 := crcTable (UInt8.ofNat val.toNat ^^^ b) ^^^ (val >>> 8)

/-- zgetDataCRC.c:171-180: crc32_block_endian0. -/
def crcBlock (val : UInt32) (buf : Bytes) : UInt32 := buf.foldl crcByte val

/-- zgetDataCRC.c:86-131: an array that was not read is a null pointer, and is left out.  Line 106: the number of bytes of values3 is
taken from values1; `none`: memory behind the array is read.  (An array of an odd number of ints has an int more that is cleared,
zreadInternal.c:459-460; that a value of this int is used is `none` here, too.) -/
def recordCRC (R : Rec) (crcIn : UInt32) : Option UInt32 :=
  let v := crcBlock (crcBlock crcIn (intsToBytes R.v1)) (intsToBytes R.v2)
  let w := if R.v3 = [] then some v
    else if R.v1.length ≤ R.v3.length then some (crcBlock v (intsToBytes (R.v3.take R.v1.length))) else none
  w.map fun w => crcBlock (crcBlock w (intsToBytes R.h2)) (intsToBytes R.uh)

/-- zgetDataCRC.c:55-136.  `none`: as in Model/Engine, or memory that is not part of an array is read. -/
def zgetDataCRC (c : Cfg) (s : Eng) (path : Bytes) (crcIn : UInt32) : Option UInt32 :=
  (zreadName c s (mallocAndCopyPath path)).bind fun r =>
    match r with
    | none => some 0
    | some R => recordCRC R crcIn

end Hec
