import Verif.Model.Strings
/-!
Model of the record engine: Internal/zcheckInternal.c, zbinNew.c, zbinUpdate.c, zwriteNew.c,
zwriteExisting.c, zwriteInternal.c, zreadInfo.c, zreadInternal.c, zdeleteInternal.c, with the
default setting `RECLAIM_NONE` (zinitIfltab.c:85), where zgetFileSpace always extends the file.

The disk is a function from word addresses to 64 bit words (natural numbers).  Every disk write
(`zput`) is also appended to a log, so that the states a crash can leave are the prefixes of the log.

Simplifications, besides those noted at the definitions:
* one process; locking, buffering, message output and file statistics that nothing reads are left
  out (locks and buffers are modelled in Model/Lock.lean and Model/Buffer.lean);
* aliases are not modelled, so the branches for this status are left out (zrename is in
  Model/Rename.lean);
* int sizes are mathematical integers: no overflow of 32 bit sums of lengths;
* the test of zcheckInternal.c:141-193 (record just checked) is left out: line 147 compares the
  pathname with the bytes of a file address (`&ifltab[kpathAddressInBin]`), which cannot succeed for
  a pathname of eight or more characters, so the code always continues at line 196;
* disk errors do not occur.
-/
namespace Hec

/-- The disk: word address to 64 bit word. -/
abbrev Disk := Nat → Nat

/-- One `zput`: `n` words `f 0 .. f (n-1)` at address `a`. -/
structure Wr where
  a : Nat
  n : Nat
  f : Nat → Nat

/-- zput.c:61-156 and zwriteDisk: effect of one write. -/
def Wr.apply (w : Wr) (d : Disk) : Disk :=
  fun x => if w.a ≤ x ∧ x < w.a + w.n then w.f (x - w.a) else d x

/-- The disk after a list of writes. -/
def applyLog (d : Disk) (ws : List Wr) : Disk := ws.foldl (fun d w => w.apply d) d

/-- numberLongsInInts.c:26-38 for a length that is not negative. -/
def nLongs (ints : Nat) : Nat := (ints + 1) / 2

/-- numberLongsInBytes.c:26-38 for a length that is not negative. -/
def nLongsB (bytes : Nat) : Nat := (bytes + 7) / 8

/-- Sizes and functions fixed when a file is created.  `hashStart` is `kaddHashTableStart`, `hdrSize`
the size of the file header at address 0, `hdrEnc` its (unmodelled) layout.  `tHash`, `pHash` are
the two results of zhash.  `mul110 x` is `(int)((float)x * 1.10)`, kept arbitrary. -/
structure Cfg where
  maxHash : Nat
  isize : Nat
  binsPerBlock : Nat
  hashStart : Nat
  hdrSize : Nat
  firstBin : Nat
  tHash : Bytes → Nat
  pHash : Bytes → Nat
  mul110 : Nat → Nat

/-- The fields of the file header (in memory) that the engine uses. -/
structure Hdr where
  fileSize : Nat
  binsRemain : Nat
  nextEmpty : Nat
  totalBins : Nat
  numberRecords : Nat
  numberDeletes : Nat
  numberExpansions : Nat
  catSequence : Nat
  numberRenames : Nat
deriving DecidableEq, Repr

/-- Layout of the file header on disk (zpermWrite); only that it lies in the first `hdrSize` words
matters, so the order of the fields is not that of zinit.c. -/
def hdrWords (h : Hdr) : Nat → Nat
  | 0 => h.fileSize
  | 1 => h.binsRemain
  | 2 => h.nextEmpty
  | 3 => h.totalBins
  | 4 => h.numberRecords
  | 5 => h.numberDeletes
  | 6 => h.numberExpansions
  | 7 => h.catSequence
  | 8 => h.numberRenames
  | _ => 0

/-- An open file: disk, file header in memory, and the log of the writes done so far. -/
structure Eng where
  disk : Disk
  hdr : Hdr
  log : List Wr

/-- `zput(ifltab, a, f, n, 2)`. -/
def Eng.put (s : Eng) (a n : Nat) (f : Nat → Nat) : Eng :=
  { s with disk := Wr.apply ⟨a, n, f⟩ s.disk, log := s.log ++ [⟨a, n, f⟩] }

/-- Two ints in one word (first int in the low half: little endian). -/
def packInts (lo hi : UInt32) : Nat := lo.toNat + 2 ^ 32 * hi.toNat
def lowInt (w : Nat) : UInt32 := UInt32.ofNat (w % 2 ^ 32)
def highInt (w : Nat) : UInt32 := UInt32.ofNat (w / 2 ^ 32)

/-- `zput(ifltab, a, ints, number, 1)`: writing an odd number of ints leaves the second half of the
last word as it is. -/
def Eng.putInts (s : Eng) (a : Nat) (xs : List UInt32) : Eng :=
  if xs.length = 0 then s
  else s.put a (nLongs xs.length) fun i =>
    packInts ((xs[2 * i]?).getD 0) ((xs[2 * i + 1]?).getD (highInt (s.disk (a + i))))

/-- `zget(ifltab, a, ints, number, 1)`. -/
def getInts (d : Disk) (a n : Nat) : List UInt32 :=
  (List.range n).map fun i => if i % 2 = 0 then lowInt (d (a + i / 2)) else highInt (d (a + i / 2))

/-- zgetFileSpace.c:126-131 (reclaim level `RECLAIM_NONE`, line 68). -/
def Eng.getFileSpace (s : Eng) (n : Nat) : Eng × Nat :=
  ({ s with hdr := { s.hdr with fileSize := s.hdr.fileSize + n } }, s.hdr.fileSize)

def DSS_END_FILE_FLAG : Nat := 2 ^ 64 - 97532
def DSS_INFO_FLAG : Nat := 2 ^ 64 - 97534
def REC_STATUS_VALID : Nat := 0
def REC_STATUS_PRIMARY : Nat := 1
def REC_STATUS_MOVED : Nat := 10
def REC_STATUS_DELETED : Nat := 11
def REC_STATUS_RENAMED : Nat := 12

/-- zwriteEOF.c:53-54. -/
def Eng.writeEOF (s : Eng) : Eng := s.put s.hdr.fileSize 1 fun _ => DSS_END_FILE_FLAG

/-- zpermWrite: the file header is written to the start of the file. -/
def Eng.permWrite (c : Cfg) (s : Eng) : Eng := s.put 0 c.hdrSize (hdrWords s.hdr)

/-! ### Pathname bins -/

/-- The bytes of a word, first byte in the low position. -/
def byteOf (w k : Nat) : UInt8 := UInt8.ofNat (w / 256 ^ k % 256)

/-- Byte `i` of an array of words. -/
def wordsByte (f : Nat → Nat) (i : Nat) : UInt8 := byteOf (f (i / 8)) (i % 8)

/-- The first `n` bytes of an array of words (charLong.c:75-83, little endian). -/
def unpackBytes (f : Nat → Nat) (n : Nat) : Bytes := (List.range n).map (wordsByte f)

/-- A word of eight bytes. -/
def wordOf (b : Nat → UInt8) : Nat :=
  (b 0).toNat + 256 * (b 1).toNat + 256 ^ 2 * (b 2).toNat + 256 ^ 3 * (b 3).toNat +
    256 ^ 4 * (b 4).toNat + 256 ^ 5 * (b 5).toNat + 256 ^ 6 * (b 6).toNat + 256 ^ 7 * (b 7).toNat

/-- charLong.c:75-83 as called by zbinUpdate.c:261: bytes of `p` over the words `old`; the bytes of
the last word beyond the pathname keep what was there (`maxBytesTo` is the length, lines 98-100). -/
def packBytes (old : Nat → Nat) (p : Bytes) : Nat → Nat :=
  fun j => wordOf fun k => (p[8 * j + k]?).getD (byteOf (old j) k)

/-- i4toi8 / i8toi4 on natural numbers below 2^32. -/
def pack32 (a b : Nat) : Nat := a + 2 ^ 32 * b
def lo32 (w : Nat) : Nat := w % 2 ^ 32
def hi32 (w : Nat) : Nat := w / 2 ^ 32

/-- zcompareRecordStatus.c:46-67 for `statusWanted` VALID (0) or DELETED (11). -/
def statusMatches (st wanted : Nat) : Bool :=
  if wanted = REC_STATUS_VALID then st ≤ REC_STATUS_PRIMARY || st = 2
  else st = wanted

/-- What zcheckInternal leaves in ifltab. -/
structure Chk where
  /-- `kfound` -/
  found : Bool
  /-- `khashTableBinAdd` -/
  hashTableBinAdd : Nat
  /-- `kbinAddCurrent` -/
  binAddCurrent : Nat
  /-- `kbinWithSpace` -/
  binWithSpace : Nat
  /-- `kpathBinAddress`: address of the entry in the bin -/
  pathBinAddress : Nat
  /-- `kaddInfoLastPath` -/
  infoAdd : Nat
deriving DecidableEq, Repr

/-- zcheckInternal.c:312-420: scan one bin (words `bin 0 ..`) from offset `icount`.  Result: offset
of the matching entry, and `kbinWithSpace` (`ws` on entry).  `fuel` bounds the number of turns; each
advances by 7 or more words. -/
def scanBin (c : Cfg) (path : Bytes) (wanted binAddress : Nat) (bin : Nat → Nat) :
    Nat → Nat → Nat → Option Nat × Nat
  | 0, _, ws => (none, ws)
  | fuel + 1, icount, ws =>
    if bin icount = 0 then (none, ws)
    else
      let numberChars := lo32 (bin (icount + 2))
      let pathnameSize := hi32 (bin (icount + 2))
      let st := bin (icount + 1)
      if bin icount = c.pHash path ∧ numberChars = path.length ∧
          zstringCompare path (unpackBytes (fun j => bin (icount + 7 + j)) path.length) path.length = true ∧
          statusMatches st wanted = true then (some icount, ws)
      else
        let ws := if st = REC_STATUS_DELETED ∧ ws = 0 ∧ nLongsB path.length ≤ pathnameSize
          then binAddress else ws
        let icount := icount + (7 + pathnameSize)
        if icount ≥ c.isize - 2 then (none, ws) else scanBin c path wanted binAddress bin fuel icount ws

/-- zcheckInternal.c:258-432: walk down the bins of one table hash.  `none`: the walk did not end
within `fuel` bins. -/
def walkBins (c : Cfg) (d : Disk) (path : Bytes) (wanted hashTableBinAdd : Nat) :
    Nat → Nat → Nat → Option Chk
  | 0, _, _ => none
  | fuel + 1, binAddress, ws =>
    let bin := fun i => d (binAddress + i)
    match scanBin c path wanted binAddress bin c.isize 0 ws with
    | (some icount, ws) =>
      some ⟨true, hashTableBinAdd, binAddress, ws, binAddress + icount, bin (icount + 3)⟩
    | (none, ws) =>
      if bin (c.isize - 1) = 0 then some ⟨false, hashTableBinAdd, binAddress, ws, 0, 0⟩
      else walkBins c d path wanted hashTableBinAdd fuel (bin (c.isize - 1)) ws

/-- zcheckInternal.c:196-497.  The number of bins in the file bounds the walk. -/
def zcheck (c : Cfg) (s : Eng) (path : Bytes) (wanted : Nat) : Option Chk :=
  let b := s.disk (c.hashStart + c.tHash path)
  if b = 0 then some ⟨false, 0, 0, 0, 0, 0⟩
  else walkBins c s.disk path wanted b (s.hdr.totalBins + 1) b 0

/-- zbinNew.c:40-145: result is the new `kbinAddCurrent`; the bin in memory is all zero. -/
def zbinNew (c : Cfg) (s : Eng) (hashTableBinAdd binAddCurrent : Nat) : Eng × Nat :=
  let s := { s with hdr := { s.hdr with totalBins := s.hdr.totalBins + 1 } }
  let blockSize := c.isize * c.binsPerBlock + 1
  if s.hdr.binsRemain = 0 then
    -- lines 82-89 and 105-108
    let r := s.getFileSpace blockSize
    let s := r.1
    let newBin := r.2
    -- lines 95-96
    let s := if hashTableBinAdd ≠ 0 then s.put (binAddCurrent + c.isize - 1) 1 fun _ => newBin else s
    -- line 109
    let s := s.put s.hdr.nextEmpty 1 fun _ => newBin
    let s := { s with hdr := { s.hdr with binsRemain := c.binsPerBlock - 1 } }
    -- line 119
    let s := s.put newBin blockSize fun _ => 0
    let s := { s with hdr := { s.hdr with nextEmpty := newBin + c.isize } }
    (s.writeEOF, newBin)
  else
    let newBin := s.hdr.nextEmpty
    let s := if hashTableBinAdd ≠ 0 then s.put (binAddCurrent + c.isize - 1) 1 fun _ => newBin else s
    let s := { s with hdr := { s.hdr with binsRemain := s.hdr.binsRemain - 1,
                                          nextEmpty := s.hdr.nextEmpty + c.isize } }
    (s, newBin)

/-- zbinUpdate.c:131-159: the last bin of the chain (used when no recovered space is at hand). -/
def lastBin (c : Cfg) (d : Disk) : Nat → Nat → Option Nat
  | 0, _ => none
  | fuel + 1, b => if d (b + (c.isize - 1)) ≠ 0 then lastBin c d fuel (d (b + (c.isize - 1))) else some b

/-- zbinUpdate.c:173-292: offset of the slot to use in the bin.  `none` is the error return of line
288 (and of the out of range step of line 224-225). -/
def findSlot (c : Cfg) (path : Bytes) (useRecovered : Bool) (bin : Nat → Nat) : Nat → Nat → Option Nat
  | 0, _ => none
  | fuel + 1, icount =>
    -- lines 175-193: a deleted entry of the same size is taken
    if useRecovered = true ∧ (bin (icount + 1) = REC_STATUS_DELETED ∨ bin (icount + 1) = REC_STATUS_RENAMED) ∧
        hi32 (bin (icount + 2)) = nLongsB path.length then some icount
    else if bin icount = 0 then some icount
    else if bin icount = c.pHash path ∧ lo32 (bin (icount + 2)) = path.length ∧
        zstringCompare path (unpackBytes (fun j => bin (icount + 7 + j)) path.length) path.length = true then
      some icount
    else
      let next := icount + (7 + hi32 (bin (icount + 2)))
      if bin icount = c.pHash path then findSlot c path useRecovered bin fuel next
      else if next ≥ c.isize - 1 then none
      else findSlot c path useRecovered bin fuel next

/-- zbinUpdate.c:247-261: the bin with the entry written at offset `icount`. -/
def setEntry (c : Cfg) (bin : Nat → Nat) (icount : Nat) (path : Bytes)
    (infoAdd st typeCat lastWrite dates : Nat) : Nat → Nat := fun i =>
  if i = icount then c.pHash path
  else if i = icount + 1 then st
  else if i = icount + 2 then pack32 path.length (nLongsB path.length)
  else if i = icount + 3 then infoAdd
  else if i = icount + 4 then typeCat
  else if i = icount + 5 then lastWrite
  else if i = icount + 6 then dates
  else if icount + 7 ≤ i ∧ i < icount + 7 + nLongsB path.length then
    packBytes (fun j => bin (icount + 7 + j)) path (i - (icount + 7))
  else bin i

/-- zbinUpdate.c:79-301.  `k` is what zcheck (or zbinNew) left; the bin in memory at the first turn
is the one at `binAddCurrent`, as zcheck read it last (lines 132-135). -/
def zbinUpdate (c : Cfg) (s : Eng) (k : Chk) (path : Bytes) (infoAdd st typeCat lastWrite dates : Nat) :
    Option Eng :=
  let useRecovered := decide (k.binWithSpace > 0)
  let start := if useRecovered then some k.binWithSpace else lastBin c s.disk (s.hdr.totalBins + 1) k.binAddCurrent
  start.bind fun b =>
    let bin := fun i => s.disk (b + i)
    (findSlot c path useRecovered bin c.isize 0).map fun icount =>
      if 7 + nLongsB path.length + (icount + 1) ≥ c.isize then
        let r := zbinNew c s k.hashTableBinAdd b
        r.1.put r.2 c.isize (setEntry c (fun _ => 0) 0 path infoAdd st typeCat lastWrite dates)
      else s.put b c.isize (setEntry c bin icount path infoAdd st typeCat lastWrite dates)

/-! ### Records -/

/-- The contents of a record as given to zwrite (zStructTransfer); `alloc` is `totalAllocatedSize`
and `expanded` is `totalExpandedSize`.  Fill mode (negative lengths) is not modelled.  `now` is the
time of the call; `firstDate`, `lastDate`, `dates` are the date words a time series write leaves in
ifltab, `prog` the two words of the program name. -/
structure Req where
  path : Bytes
  dataType : UInt32
  ih : List UInt32
  h2 : List UInt32
  uh : List UInt32
  v1 : List UInt32
  v2 : List UInt32
  v3 : List UInt32
  numberValues : Nat
  logicalNumber : Nat
  alloc : Nat
  expanded : Nat
  now : Nat
  firstDate : Nat
  lastDate : Nat
  dates : Nat
  prog : Nat × Nat

/-- Word offsets in the info block, zinit.c:810-914. -/
def kinfoFlag := 0
def kinfoStatus := 1
def kinfoPathnameLength := 2
def kinfoHash := 3
def kinfoTypeVersion := 4
def kinfoExpansion := 5
def kinfoLastWriteTime := 6
def kinfoProgram := 7
def kinfoFirstDate := 9
def kinfoLastDate := 10
def kinfoCreationTime := 11
def kinfoInternalHeadAddress := 13
def kinfoInternalHeadNumber := 14
def kinfoHeader2Address := 15
def kinfoHeader2Number := 16
def kinfoUserHeadAddress := 17
def kinfoUserHeadNumber := 18
def kinfoValues1Address := 19
def kinfoValues1Number := 20
def kinfoValues2Address := 21
def kinfoValues2Number := 22
def kinfoValues3Address := 23
def kinfoValues3Number := 24
def kinfoAllocatedSize := 25
def kinfoNumberData := 26
def kinfoLogicalNumber := 27
def kinfoAliasesBinAddress := 28
def kinfoPathname := 30
/-- zinit.c:917 -/
def infoSize := 30

/-- `numberInfo`, e.g. zwriteNew.c:222 (pathnames have at most 392 bytes, so the maximum of
zwriteNew.c:223 is not reached). -/
def numberInfo (path : Bytes) : Nat := infoSize + nLongsB path.length

/-- The layout of the six arrays behind `address` and the fields that describe them:
zwriteNew.c:262-300 (same as zwriteExisting.c:391-430 and 451-488). -/
def layoutInfo (info : Nat → Nat) (address : Nat) (r : Req) (alloc : Nat) : Nat → Nat := fun i =>
  let a2 := address + nLongs r.ih.length
  let a3 := a2 + nLongs r.h2.length
  let a4 := a3 + nLongs r.uh.length
  let a5 := a4 + nLongs r.v1.length
  let a6 := a5 + nLongs r.v2.length
  if i = kinfoInternalHeadAddress then address
  else if i = kinfoInternalHeadNumber then r.ih.length
  else if i = kinfoHeader2Address then a2
  else if i = kinfoHeader2Number then r.h2.length
  else if i = kinfoUserHeadAddress then a3
  else if i = kinfoUserHeadNumber then r.uh.length
  else if i = kinfoValues1Address then a4
  else if i = kinfoValues1Number then r.v1.length
  else if i = kinfoValues2Address then a5
  else if i = kinfoValues2Number then r.v2.length
  else if i = kinfoValues3Address then a6
  else if i = kinfoValues3Number then r.v3.length
  else if i = kinfoAllocatedSize then alloc
  else if i = kinfoNumberData then r.numberValues
  else if i = kinfoLogicalNumber then if r.logicalNumber > 0 then r.logicalNumber else r.numberValues
  else info i

/-- One assignment `info[k] = v`. -/
def upd (info : Nat → Nat) (k v : Nat) : Nat → Nat := fun i => if i = k then v else info i

/-- zwriteNew.c:251-316: the info block of a new record whose arrays start at `address`. -/
def newInfo (c : Cfg) (r : Req) (address alloc : Nat) : Nat → Nat :=
  let info : Nat → Nat := fun _ => 0
  let info := upd info kinfoFlag DSS_INFO_FLAG
  let info := upd info kinfoStatus REC_STATUS_PRIMARY
  let info := upd info kinfoPathnameLength r.path.length
  let info := upd info kinfoHash (c.pHash r.path)
  let info := layoutInfo info address r alloc
  let info := upd info kinfoTypeVersion (packInts r.dataType 1)
  let info := upd info kinfoExpansion (packInts 0 0)
  let info := upd info kinfoLastWriteTime r.now
  let info := upd info kinfoCreationTime r.now
  let info := upd info kinfoFirstDate r.firstDate
  let info := upd info kinfoLastDate r.lastDate
  let info := upd info kinfoProgram r.prog.1
  let info := upd info (kinfoProgram + 1) r.prog.2
  fun i => if i < kinfoPathname then info i else packBytes (fun _ => 0) r.path (i - kinfoPathname)

/-- zwriteInternal.c:254-262 and zwriteExisting.c:180-182: `totalNumberInts`. -/
def totalInts (r : Req) : Nat := 2 * (nLongs r.v1.length + nLongs r.v2.length + nLongs r.v3.length)

/-- zwriteInternal.c:260-262: `totalAllocatedSize` after the adjustment. -/
def allocSize (r : Req) : Nat := if totalInts r > r.alloc then totalInts r else r.alloc

/-- zwriteNew.c:142-352.  Result: state, the info block, the address of the info block. -/
def zwriteNew (c : Cfg) (s : Eng) (k : Chk) (r : Req) : Option (Eng × (Nat → Nat)) :=
  -- lines 187-200
  let t := if k.hashTableBinAdd = 0 then
      let b := zbinNew c s 0 k.binAddCurrent
      let s := b.1.put (c.hashStart + c.tHash r.path) 1 fun _ => b.2
      (s, { k with hashTableBinAdd := b.2, binAddCurrent := b.2 })
    else (s, k)
  let s := t.1
  let k := t.2
  -- lines 222-240
  let total := numberInfo r.path + nLongs r.ih.length + nLongs r.h2.length + nLongs r.uh.length +
    nLongs (allocSize r)
  let g := s.getFileSpace total
  let s := g.1
  let address := g.2
  -- line 243
  (zbinUpdate c s k r.path address REC_STATUS_PRIMARY (pack32 r.dataType.toNat s.hdr.catSequence)
    r.now r.dates).map fun s =>
    let info := newInfo c r (address + numberInfo r.path) (allocSize r)
    -- lines 319-335
    let s := s.put address (numberInfo r.path) info
    ({ s with hdr := { s.hdr with numberRecords := s.hdr.numberRecords + 1 } }, info)

/-- zwriteExisting.c:298-353: size allocated for a record that has to move. -/
def expandedAlloc (c : Cfg) (r : Req) (expansionNumber : Nat) : Nat :=
  let a := allocSize r
  let e1 := r.expanded / 4
  let e2 := r.expanded / 2
  let p : Nat × Nat := (expansionNumber, a)
  let p := if p.1 = 1 then if e1 > p.2 then (1, e1) else (2, p.2) else p
  let p := if p.1 = 2 then if e2 > p.2 then (2, e2) else (3, p.2) else p
  let p := if p.1 = 3 then if r.expanded > p.2 then (3, r.expanded) else (4, p.2) else p
  let a := if p.1 ≥ 4 then
      let a := if c.mul110 r.expanded > p.2 then c.mul110 r.expanded else p.2
      if totalInts r > a then c.mul110 (totalInts r) else a
    else p.2
  if totalInts r > a then totalInts r else a

/-- DATA_TYPE_RTS, DATA_TYPE_RTD, DATA_TYPE_ITS, DATA_TYPE_ITD (zdssVals.h). -/
def DATA_TYPE_RTS : UInt32 := 100
def DATA_TYPE_RTD : UInt32 := 105
def DATA_TYPE_ITS : UInt32 := 110
def DATA_TYPE_ITD : UInt32 := 115

/-- zwriteExisting.c:208-230. -/
def typeSupported (old new : UInt32) : Bool :=
  old = new || (old = DATA_TYPE_RTS && new = DATA_TYPE_RTD) || (old = DATA_TYPE_RTD && new = DATA_TYPE_RTS) ||
    (old = DATA_TYPE_ITS && new = DATA_TYPE_ITD) || (old = DATA_TYPE_ITD && new = DATA_TYPE_ITS)

/-- Outcome of a call. -/
inductive Res where
  | ok
  | notFound
  | differentType
deriving DecidableEq, Repr

/-- zwriteExisting.c:255-259: `originalSize` of the record described by an info block. -/
def originalSize (info : Nat → Nat) : Nat :=
  info kinfoInternalHeadNumber + info kinfoHeader2Number + info kinfoUserHeadNumber + info kinfoAllocatedSize

/-- zwriteExisting.c:260-264. -/
def newSize (r : Req) : Nat := r.ih.length + r.h2.length + r.uh.length + allocSize r

/-- zwriteExisting.c:496-502: the fields set in both branches. -/
def finishInfo (info : Nat → Nat) (r : Req) : Nat → Nat :=
  let info := upd info kinfoLastWriteTime r.now
  let info := upd info kinfoProgram r.prog.1
  let info := upd info (kinfoProgram + 1) r.prog.2
  let info := upd info kinfoFirstDate r.firstDate
  upd info kinfoLastDate r.lastDate

/-- zwriteExisting.c:139-520, with space release (line 289-296) reduced to its effect under
`RECLAIM_NONE`: the dead space counter, which nothing reads.  `info` is the block zreadInfo read. -/
def zwriteExisting (c : Cfg) (s : Eng) (k : Chk) (r : Req) (info : Nat → Nat) :
    Eng × Res × (Nat → Nat) :=
  -- lines 195-197: the last write time and dates in the bin
  let s := s.put (k.pathBinAddress + 5) 2 fun i => if i = 0 then r.now else r.dates
  let oldType := lowInt (info kinfoTypeVersion)
  let version := highInt (info kinfoTypeVersion)
  if typeSupported oldType r.dataType = false then (s, .differentType, info)
  else if newSize r > originalSize info then
    -- lines 280-282
    let info := upd info kinfoStatus REC_STATUS_MOVED
    let s := s.put k.infoAdd (numberInfo r.path) info
    -- lines 299-355
    let expansionNumber := lowInt (info kinfoExpansion) + 1
    let alloc := expandedAlloc c r expansionNumber.toNat
    let info := upd info kinfoExpansion (packInts expansionNumber (highInt (info kinfoExpansion)))
    let info := upd info kinfoTypeVersion (packInts r.dataType (version + 1))
    -- lines 371-383
    let total := numberInfo r.path + nLongs r.v3.length + nLongs r.ih.length + nLongs r.h2.length +
      nLongs r.uh.length + nLongs alloc
    let g := s.getFileSpace total
    let s := g.1
    let address := g.2
    let s := { s with hdr := { s.hdr with numberExpansions := s.hdr.numberExpansions + 1 } }
    let s := s.put (k.pathBinAddress + 3) 1 fun _ => address
    -- lines 388-430
    let info := upd info kinfoFlag DSS_INFO_FLAG
    let info := upd info kinfoStatus REC_STATUS_PRIMARY
    let info := layoutInfo info (address + numberInfo r.path) r alloc
    let info := finishInfo info r
    (s.put address (numberInfo r.path) info, .ok, info)
  else
    -- lines 433-493
    let alloc := if newSize r < originalSize info then allocSize r + (originalSize info - newSize r)
      else allocSize r
    let info := layoutInfo info (info kinfoInternalHeadAddress) r alloc
    let info := upd info kinfoTypeVersion (packInts r.dataType (version + 1))
    let info := finishInfo info r
    (s.put k.infoAdd (numberInfo r.path) info, .ok, info)

/-- zwriteInternal.c:365-450: the six arrays. -/
def writeArrays (s : Eng) (info : Nat → Nat) (r : Req) : Eng :=
  let s := s.putInts (info kinfoInternalHeadAddress) r.ih
  let s := s.putInts (info kinfoHeader2Address) r.h2
  let s := s.putInts (info kinfoUserHeadAddress) r.uh
  let s := s.putInts (info kinfoValues1Address) r.v1
  let s := s.putInts (info kinfoValues2Address) r.v2
  s.putInts (info kinfoValues3Address) r.v3

/-- zreadInfo.c:106-213 (no aliases): the check result and the info block when the record is found;
line 185: a block with another hash is not the record. -/
def zreadInfo (c : Cfg) (s : Eng) (path : Bytes) (wanted : Nat) : Option (Chk × Option (Nat → Nat)) :=
  (zcheck c s path wanted).map fun k =>
    if k.found then
      let info := fun i => s.disk (k.infoAdd + i)
      if info kinfoHash = c.pHash path then (k, some info) else (k, none)
    else (k, none)

/-- zwriteInternal.c:158-514 with `checked = 0`: `none` is a failure of the engine (corrupt file or
a loop that does not end). -/
def zwrite (c : Cfg) (s : Eng) (r : Req) : Option (Eng × Res) :=
  (zreadInfo c s r.path REC_STATUS_VALID).bind fun p =>
    match p.2 with
    | none =>
      (zwriteNew c s p.1 r).map fun q =>
        let s := writeArrays q.1 q.2 r
        -- lines 455-470: end of file flag, file header
        ((s.writeEOF).permWrite c, .ok)
    | some info =>
      let q := zwriteExisting c s p.1 r info
      match q.2.1 with
      | .ok =>
        let s' := writeArrays q.1 q.2.2 r
        -- lines 455-458: only when the record was moved to the end of the file
        let s' := if newSize r > originalSize info then s'.writeEOF else s'
        some (s'.permWrite c, .ok)
      | e => some (q.1, e)

/-- What zread gives back (zreadInternal.c:291-493, all modes 1: allocate and read everything). -/
structure Rec where
  dataType : UInt32
  version : UInt32
  ih : List UInt32
  h2 : List UInt32
  uh : List UInt32
  v1 : List UInt32
  v2 : List UInt32
  v3 : List UInt32
  numberValues : Nat
  logicalNumber : Nat
  lastWrite : Nat
  firstDate : Nat
  lastDate : Nat
deriving DecidableEq

/-- zreadInternal.c:268-493: the record described by an info block.  (For a user header of odd
length line 381 reads one int more into a larger buffer; the reported length is the odd one.) -/
def readArrays (d : Disk) (info : Nat → Nat) : Rec where
  dataType := lowInt (info kinfoTypeVersion)
  version := highInt (info kinfoTypeVersion)
  ih := getInts d (info kinfoInternalHeadAddress) (info kinfoInternalHeadNumber)
  h2 := getInts d (info kinfoHeader2Address) (info kinfoHeader2Number)
  uh := getInts d (info kinfoUserHeadAddress) (info kinfoUserHeadNumber)
  v1 := getInts d (info kinfoValues1Address) (info kinfoValues1Number)
  v2 := getInts d (info kinfoValues2Address) (info kinfoValues2Number)
  v3 := getInts d (info kinfoValues3Address) (info kinfoValues3Number)
  numberValues := info kinfoNumberData
  logicalNumber := info kinfoLogicalNumber
  lastWrite := info kinfoLastWriteTime
  firstDate := info kinfoFirstDate
  lastDate := info kinfoLastDate

/-- zreadInternal.c:231-502.  `none`: engine failure; `some none`: record not found. -/
def zread (c : Cfg) (s : Eng) (path : Bytes) : Option (Option Rec) :=
  (zreadInfo c s path REC_STATUS_VALID).map fun p => p.2.map (readArrays s.disk)

/-- zdeleteInternal.c:57-287: delete, or undelete when `undelete` is set.  (`info` has no aliases.) -/
def zdeleteInternal (c : Cfg) (s : Eng) (path : Bytes) (undelete : Bool) : Option (Eng × Res) :=
  let newStatus := if undelete then REC_STATUS_VALID else REC_STATUS_DELETED
  let wanted := if undelete then REC_STATUS_DELETED else REC_STATUS_VALID
  (zreadInfo c s path wanted).map fun p =>
    match p.2 with
    | none => (s.permWrite c, .notFound)
    | some info =>
      -- lines 161-174
      let s := s.put (p.1.pathBinAddress + 1) 1 fun _ => newStatus
      let s := s.put p.1.infoAdd (numberInfo path) (upd info kinfoStatus newStatus)
      -- lines 189-225
      let h := if undelete then
          { s.hdr with numberRecords := s.hdr.numberRecords + 1, numberDeletes := s.hdr.numberDeletes - 1 }
        else { s.hdr with numberRecords := s.hdr.numberRecords - 1, numberDeletes := s.hdr.numberDeletes + 1 }
      (({ s with hdr := h } : Eng).permWrite c, .ok)

/-- zpermCreate.c:62-391: a new file.  Addresses in order of the calls of zgetFileSpace: file header,
3 lock words, 3 lock arrays of 25 words, hash table, reclaim table of 1002 words, first block of
bins.  Every word is zero except the header and the end of file flag. -/
def newFile (hdrSize maxHash isize : Nat) (tHash pHash : Bytes → Nat) (mul110 : Nat → Nat) : Cfg × Eng :=
  let hashStart := hdrSize + 3 + 25 + 25 + 25
  let reclaim := hashStart + maxHash
  let firstBin := reclaim + 1002
  let binsPerBlock := 32
  let fileSize := firstBin + (isize * binsPerBlock + 1)
  let c : Cfg := ⟨maxHash, isize, binsPerBlock, hashStart, hdrSize, firstBin, tHash, pHash, mul110⟩
  let h : Hdr := ⟨fileSize, binsPerBlock, firstBin, 0, 0, 0, 0, 0, 0⟩
  (c, (Eng.permWrite c ⟨fun x => if x = fileSize then DSS_END_FILE_FLAG else 0, h, []⟩))

end Hec
