import Verif.Model.Copy
import Verif.Model.Catalog
/-!
The check of a file: Public/zcheckFile.c, SemiPublic/zcheckLinks.c, zcheckPathnames.c, zcheckPathnameBins.c,
zcheckHashTable.c, zcheckInfo.c, Internal/zreadInfoBlock.c, Utilities/isValidChar.c.

Simplifications, besides those of Model/Engine.lean: nobody interrupts (`zprogress.interrupt`), and counting does not stop at
`zprogress.maxErrors` (it stops only when there are errors, so the result is zero in the same cases).  The result `none` is a
negative status (the file cannot be read on).  Pathnames have no zero bytes.  checkGrid (zcheckInfo.c:328-362) is a parameter.
-/
namespace Hec

/-- A word as a `long long`. -/
def signed64 (w : Nat) : Int := if w % 2 ^ 64 < 2 ^ 63 then ((w % 2 ^ 64 : Nat) : Int) else ((w % 2 ^ 64 : Nat) : Int) - 2 ^ 64

/-- Address and number of ints of an array: zcheckInfo.c:96-101 and 111-117, and the same for the other arrays. -/
def arrayWrong (fs address number : Nat) : Bool :=
  decide (signed64 address < 0) || decide (signed64 address > fs) || decide (signed64 number < 0) ||
    decide ((signed64 number).tdiv 2 + signed64 address > fs)

/-- zcheckInfo.c:74-253: one of the comparisons of the info block fails. -/
def infoWrong (fs : Nat) (info : Nat → Nat) : Bool :=
  -- lines 74-94
  decide (info kinfoFlag ≠ DSS_INFO_FLAG) ||
  decide (signed64 (info kinfoStatus) < 0) || decide (signed64 (info kinfoStatus) > 20) ||
  decide (signed64 (info kinfoPathnameLength) < 0) || decide (signed64 (info kinfoPathnameLength) > 391) ||
  -- lines 96-224
  arrayWrong fs (info kinfoInternalHeadAddress) (info kinfoInternalHeadNumber) ||
  decide (signed64 (info kinfoInternalHeadAddress) > signed64 (info kinfoHeader2Address)) ||
  arrayWrong fs (info kinfoHeader2Address) (info kinfoHeader2Number) ||
  decide (signed64 (info kinfoHeader2Address) > signed64 (info kinfoUserHeadAddress)) ||
  arrayWrong fs (info kinfoUserHeadAddress) (info kinfoUserHeadNumber) ||
  decide (signed64 (info kinfoUserHeadAddress) > signed64 (info kinfoValues1Address)) ||
  arrayWrong fs (info kinfoValues1Address) (info kinfoValues1Number) ||
  decide (signed64 (info kinfoValues1Address) > signed64 (info kinfoValues2Address)) ||
  arrayWrong fs (info kinfoValues2Address) (info kinfoValues2Number) ||
  arrayWrong fs (info kinfoValues3Address) (info kinfoValues3Number) ||
  decide (signed64 (info kinfoValues2Address) > signed64 (info kinfoValues3Address)) ||
  -- lines 226-253
  arrayWrong fs (info kinfoValues1Address) (info kinfoAllocatedSize) ||
  decide (signed64 (info kinfoNumberData) < 0) || decide (signed64 (info kinfoLogicalNumber) < 0) ||
  decide (signed64 (info kinfoAliasesBinAddress) < 0) || decide (signed64 (info kinfoAliasesBinAddress) > fs)

/-- zcheckInfo.c:52-320: the number of errors of the info block of the record `path`.  Lines 270-285: for time series, 18
ints are read at the internal header; the file has `fileSize + 1` words. -/
def zcheckInfo (s : Eng) (grid : Bytes → Int) (path : Bytes) (info : Nat → Nat) : Option Int :=
  if infoWrong s.hdr.fileSize info then some 1
  else
    let dataType := toInt32 (info kinfoTypeVersion)
    let version := toInt32 (hi32 (info kinfoTypeVersion))
    let n : Int := (if version < 0 then 1 else 0) + (if dataType < 0 then 1 else 0)
    let g : Int := if 400 ≤ dataType ∧ dataType < 450 then grid path else 0
    if 100 ≤ dataType ∧ dataType < 200 then
      if info kinfoInternalHeadAddress + 9 > s.hdr.fileSize + 1 then none
      else some (n + (if toInt32 (hi32 (s.disk (info kinfoInternalHeadAddress + 4))) = 1 ∧ info kinfoHeader2Number = 0 then 1 else 0) + g)
    else some (n + g)

/-- zreadInfoBlock.c:122-141 with `statusWanted` REC_STATUS_VALID: the address of the info block, if the record is found. -/
def zreadInfoBlock (c : Cfg) (s : Eng) (path : Bytes) : Option (Option Nat) :=
  (zcheck c s path REC_STATUS_VALID).map fun k => if k.found then some k.infoAdd else none

/-- zcheckLinks.c:91-166: the address `x`; 1 if something there looks like a record that cannot be found. -/
def linkWrong (c : Cfg) (s : Eng) (x : Nat) : Option Int :=
  if s.disk x = DSS_INFO_FLAG then
    -- lines 94-104
    if x + 2 > s.hdr.fileSize then none
    else if 0 < signed64 (s.disk (x + 2)) ∧ signed64 (s.disk (x + 2)) < 393 ∧ (s.disk (x + 1) = 1 ∨ s.disk (x + 1) = 0) then
      let path := unpackBytes (fun j => s.disk (x + kinfoPathname + j)) (s.disk (x + 2))
      (zreadInfoBlock c s path).map fun r => if r = some x then 0 else 1
    else some 0
  else some 0

/-- The sum of error counts; `none` if one of them is a negative status. -/
def sumErrors {α : Type} (f : α → Option Int) : List α → Option Int
  | [] => some 0
  | a :: as => (f a).bind fun n => (sumErrors f as).map (n + ·)

/-- zcheckLinks.c:71-178. -/
def zcheckLinks (c : Cfg) (s : Eng) : Option Int := sumErrors (linkWrong c s) (List.range s.hdr.fileSize)

/-- zcheckPathnames.c:97-169 and zcheckHashTable.c:134-164: the pathnames of the entries of a bin that have the status of a
valid record, from offset `icount` on. -/
def validPaths (c : Cfg) (bin : Nat → Nat) : Nat → Nat → List Bytes
  | 0, _ => []
  | fuel + 1, icount =>
    if bin icount = 0 then []
    else
      let next := icount + (7 + hi32 (bin (icount + 2)))
      let rest := if next ≥ c.isize - 2 then [] else validPaths c bin fuel next
      if zcompareRecordStatus (bin (icount + 1)) REC_STATUS_VALID = true then
        unpackBytes (fun j => bin (icount + 7 + j)) (lo32 (bin (icount + 2))) :: rest
      else rest

/-- zcheckPathnames.c:91-172: the bins of a block. -/
def blockPaths (c : Cfg) (d : Disk) : Nat → Nat → List Bytes
  | 0, _ => []
  | n + 1, a => validPaths c (fun i => d (a + i)) c.isize 0 ++ blockPaths c d n (a + c.isize)

/-- zcheckPathnames.c:89-186: all blocks. -/
def filePaths (c : Cfg) (d : Disk) : Nat → Nat → Option (List Bytes)
  | 0, _ => none
  | fuel + 1, a =>
    let next := d (a + c.binsPerBlock * c.isize)
    if next = 0 then some (blockPaths c d c.binsPerBlock a)
    else (filePaths c d fuel next).map (blockPaths c d c.binsPerBlock a ++ ·)

/-- zcheckPathnames.c:122-163 (with `found` for line 158), zcheckHashTable.c:147-156: the record of an entry. -/
def entryWrong (c : Cfg) (s : Eng) (grid : Bytes → Int) (path : Bytes) : Option Int :=
  (zreadInfoBlock c s path).bind fun r =>
    match r with
    | none => some 1
    | some a => zcheckInfo s grid path (fun i => s.disk (a + i))

/-- zcheckPathnames.c:129-158: the record of an entry is found. -/
def entryFound (c : Cfg) (s : Eng) (path : Bytes) : Bool :=
  match zreadInfoBlock c s path with
  | some (some _) => true
  | _ => false

/-- zcheckPathnames.c:44-215.  The walk over the blocks has no bound in the code; the size of the file serves as one. -/
def zcheckPathnames (c : Cfg) (s : Eng) (grid : Bytes → Int) : Option Int :=
  (filePaths c s.disk (s.hdr.fileSize + 1) c.firstBin).bind fun ps =>
    (sumErrors (entryWrong c s grid) ps).map fun n =>
      if n = 0 then (((s.hdr.numberRecords : Int) - (ps.countP (entryFound c s) : Nat)).natAbs : Int) else n

/-- zcheckHashTable.c:117-171: the bins of one hash, from the one at `a` on. -/
def chainPaths (c : Cfg) (d : Disk) : Nat → Nat → Option (List Bytes)
  | 0, _ => none
  | fuel + 1, a =>
    if a = 0 then some []
    else (chainPaths c d fuel (d (a + (c.isize - 1)))).map (validPaths c (fun i => d (a + i)) c.isize 0 ++ ·)

/-- zcheckHashTable.c:89-194. -/
def zcheckHashTable (c : Cfg) (s : Eng) (grid : Bytes → Int) : Option Int :=
  sumErrors (fun h => (chainPaths c s.disk (s.hdr.totalBins + 2) (s.disk (c.hashStart + h))).bind (sumErrors (entryWrong c s grid))) (List.range c.maxHash)

/-- isValidChar.c:31-46, of a byte as a (signed) char. -/
def isValidChar (b : UInt8) : Bool := decide (32 ≤ b) && decide (b ≠ 127)

/-- zcheckPathnameBins.c:133-247: the errors of one entry at offset `n` of a bin.  Most of them are counted only if messages
are shown (`msg`). -/
def binEntryErrors (fs : Nat) (msg : Bool) (bin : Nat → Nat) (n : Nat) : Nat :=
  let one (b : Bool) : Nat := if b && msg then 1 else 0
  let chars := toInt32 (bin (n + 2))
  let size := toInt32 (hi32 (bin (n + 2)))
  (if signed64 (bin (n + 1)) < 1 ∨ signed64 (bin (n + 1)) > 15 then 1 else 0) +
  (if chars < 1 ∨ chars > 800 then one true else one (decide (size < 1) || decide (size > 100))) +
  one (decide (signed64 (bin (n + 3)) < 1) || decide (signed64 (bin (n + 3)) > fs)) +
  one (decide (toInt32 (bin (n + 4)) < 0) || decide (toInt32 (bin (n + 4)) > 1000)) +
  one (decide (toInt32 (hi32 (bin (n + 4))) < 0)) +
  one (decide (0 < chars) && decide (chars ≤ 393) && (unpackBytes (fun j => bin (n + 7 + j)) chars.toNat).any fun b => !isValidChar b)

/-- zcheckPathnameBins.c:107-255: the errors of one bin from offset `n` on.  Behind the last entry all words are zero, but the
last one (lines 112-125). -/
def binErrors (c : Cfg) (fs : Nat) (msg : Bool) (bin : Nat → Nat) : Nat → Nat → Nat
  | 0, _ => 0
  | fuel + 1, n =>
    if n ≥ c.isize then 0
    else if bin n = 0 then ((List.range (c.isize - 1 - n)).filter fun i => bin (n + i) ≠ 0).length
    else binEntryErrors fs msg bin n + binErrors c fs msg bin fuel (n + (7 + hi32 (bin (n + 2))))

/-- zcheckPathnameBins.c:101-258: the bins of a block. -/
def blockErrors (c : Cfg) (fs : Nat) (msg : Bool) (d : Disk) : Nat → Nat → Nat
  | 0, _ => 0
  | n + 1, a => binErrors c fs msg (fun i => d (a + i)) c.isize 0 + blockErrors c fs msg d n (a + c.isize)

/-- zcheckPathnameBins.c:99-273: all blocks. -/
def binsErrors (c : Cfg) (fs : Nat) (msg : Bool) (d : Disk) : Nat → Nat → Option Nat
  | 0, _ => none
  | fuel + 1, a =>
    let next := d (a + c.binsPerBlock * c.isize)
    if next = 0 then some (blockErrors c fs msg d c.binsPerBlock a)
    else (binsErrors c fs msg d fuel next).map (blockErrors c fs msg d c.binsPerBlock a + ·)

/-- zcheckPathnameBins.c:40-292. -/
def zcheckPathnameBins (c : Cfg) (s : Eng) (msg : Bool) : Option Int :=
  (binsErrors c s.hdr.fileSize msg s.disk (s.hdr.fileSize + 1) c.firstBin).map (fun n : Nat => (n : Int))

/-- zcheckFile.c:38-100: the first of the four checks that does not give zero (lines 63, 73, 83, 93). -/
def zcheckFile (c : Cfg) (s : Eng) (grid : Bytes → Int) (msg : Bool) : Option Int :=
  (zcheckLinks c s).bind fun n1 => if n1 ≠ 0 then some n1 else
    (zcheckPathnames c s grid).bind fun n2 => if n2 ≠ 0 then some n2 else
      (zcheckPathnameBins c s msg).bind fun n3 => if n3 ≠ 0 then some n3 else zcheckHashTable c s grid

end Hec
