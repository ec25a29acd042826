import Verif.Model.Engine
/-!
Renaming a record: Public/zrename.c, with Utilities/mallocAndCopyPath.c and Utilities/stringCat.c.
Simplifications as in Model/Engine.lean; `statusWanted` is 1 (REC_STATUS_PRIMARY) in the calls of
zcheckInternal, which is the same as REC_STATUS_VALID in files without aliases
(zcompareRecordStatus.c:48-57).
-/
namespace Hec

/-- mallocAndCopyPath.c:52-57: the last index `i`, from `n` down to 1, with a character that is not blank. -/
def lastInkFrom (p : Bytes) : Nat → Option Nat
  | 0 => none
  | n + 1 => if p[n + 1]? ≠ some 32 then some (n + 1) else lastInkFrom p n

/-- mallocAndCopyPath.c:43-58: the length without trailing blanks. -/
def trimmedLen (p : Bytes) : Nat :=
  if p[p.length - 1]? = some 32 then
    match lastInkFrom p (p.length - 1) with
    | some i => i + 1
    | none => p.length - 1
  else p.length

/-- mallocAndCopyPath.c:60-73: the characters up to the `n`-th slash, and how many slashes are missing. -/
def cutSlashes : Nat → Bytes → Bytes × Nat
  | n, [] => ([], n)
  | n, c :: cs =>
    if c = 47 then if n = 1 then ([c], 0) else (c :: (cutSlashes (n - 1) cs).1, (cutSlashes (n - 1) cs).2)
    else (c :: (cutSlashes n cs).1, (cutSlashes n cs).2)

/-- mallocAndCopyPath.c:35-100. -/
def mallocAndCopyPath (p : Bytes) : Bytes :=
  if p.length = 0 then []
  else
    let r := cutSlashes 7 (p.take (trimmedLen p))
    r.1 ++ List.replicate r.2 47

/-- stringCat.c:36-67 (not _MSC_VER): `dst` is the string in an array of `size` bytes, `src` the string
at the source pointer.  `len` is converted to size_t: a negative number is a large one. -/
def stringCat (size : Nat) (dst src : Bytes) (len : Int) : Bytes :=
  if len = 0 then dst
  else
    let remaining := size - dst.length - 1
    dst ++ src.take (if len < 0 ∨ len > remaining then remaining else len.toNat)

/-- zrename.c:218-232: for time series, the new pathname with the D and E parts of the old one.  `none`:
an access outside a string. -/
def renamePath (old new : Bytes) (junk : Int) : Option Bytes :=
  let pn := zpathnamePartPositions new junk
  let po := zpathnamePartPositions old junk
  let n3 : Int := ((pn : List Int)[3]?).getD 0
  let n5 : Int := ((pn : List Int)[5]?).getD 0
  let n6 : Int := ((pn : List Int)[6]?).getD 0
  let o3 : Int := ((po : List Int)[3]?).getD 0
  let o5 : Int := ((po : List Int)[5]?).getD 0
  let size := new.length + 12
  (stringCopy (List.replicate size 0) new n3.toNat).bind fun d =>
    if 0 ≤ n3 ∧ 0 ≤ o3 ∧ o3 ≤ old.length ∧ 0 ≤ n5 ∧ n5 ≤ new.length then
      let a := stringCat size (cstr d.1) (old.drop o3.toNat) (o5 - o3)
      some (stringCat size a (new.drop n5.toNat) (n6 - n5))
    else none

/-- zcheckInternal.c:329-394: `kbinLastWrite` of `ifltab`, which is set from every entry whose hash, length and
pathname match, whatever its status; the search ends at an entry with the status wanted.  Result: the value
set last (`acc` on entry) and whether the search has ended. -/
def seenBin (c : Cfg) (path : Bytes) (wanted : Nat) (bin : Nat → Nat) : Nat → Nat → Option Nat → Option Nat × Bool
  | 0, _, acc => (acc, false)
  | fuel + 1, icount, acc =>
    if bin icount = 0 then (acc, false)
    else
      let same := bin icount = c.pHash path ∧ lo32 (bin (icount + 2)) = path.length ∧
          zstringCompare path (unpackBytes (fun j => bin (icount + 7 + j)) path.length) path.length = true
      let acc := if same then some (bin (icount + 5)) else acc
      if same ∧ statusMatches (bin (icount + 1)) wanted = true then (acc, true)
      else
        let icount := icount + (7 + hi32 (bin (icount + 2)))
        if icount ≥ c.isize - 2 then (acc, false) else seenBin c path wanted bin fuel icount acc

/-- zcheckInternal.c:258-432: the same for all bins of one table hash. -/
def seenBins (c : Cfg) (d : Disk) (path : Bytes) (wanted : Nat) : Nat → Nat → Option Nat → Option Nat
  | 0, _, acc => acc
  | fuel + 1, binAddress, acc =>
    let r := seenBin c path wanted (fun i => d (binAddress + i)) c.isize 0 acc
    if r.2 = true ∨ d (binAddress + c.isize - 1) = 0 then r.1
    else seenBins c d path wanted fuel (d (binAddress + c.isize - 1)) r.1

/-- `kbinLastWrite` after zcheckInternal, if it was set. -/
def lastWriteSeen (c : Cfg) (s : Eng) (path : Bytes) (wanted : Nat) : Option Nat :=
  let b := s.disk (c.hashStart + c.tHash path)
  if b = 0 then none else seenBins c s.disk path wanted (s.hdr.totalBins + 1) b none

/-- What zrename uses besides the two pathnames: `junk` is what the local array `positions` contains before,
`stale` what the info buffer of `ifltab` contains, `fpart` the F part of the temporary pathname (lines 136-138),
made from the time of the call, `before` as in `zpathnameSetPart`. -/
structure RenEnv where
  junk : Int
  stale : Nat → Nat
  fpart : Bytes
  before : Int → Option UInt8

/-- zrename.c:340-348: the info block under the new pathname; `n` is `numberInfoNew`. -/
def renamedInfo (c : Cfg) (info : Nat → Nat) (path : Bytes) (n : Nat) : Nat → Nat :=
  let info := upd info kinfoFlag DSS_INFO_FLAG
  let info := upd info kinfoStatus REC_STATUS_PRIMARY
  let info := upd info kinfoPathnameLength path.length
  let info := upd info kinfoHash (c.pHash path)
  let info := upd info (n - 1) 0
  fun i => if kinfoPathname ≤ i ∧ i < kinfoPathname + nLongsB path.length
    then packBytes (fun j => info (kinfoPathname + j)) path (i - kinfoPathname) else info i

/-- zrename.c:236-281: the entry found by zcheckInternal (`k`) is marked as renamed, and so is the info
block if the new pathname needs a larger one. -/
def markRenamed (s : Eng) (k : Chk) (numberInfoOld : Nat) (info : Nat → Nat) (grown : Bool) : Eng :=
  let s := s.put (k.pathBinAddress + 1) 1 fun _ => REC_STATUS_RENAMED
  if grown then s.put k.infoAdd numberInfoOld (upd info kinfoStatus REC_STATUS_RENAMED) else s

/-- zrename.c:287-395: the record gets an entry under the pathname `path`.  `info` is the old info block
(and what the buffer contains behind it), `infoAdd` its address, `oldWrite` what `kbinLastWrite` is before. -/
def adoptRecord (c : Cfg) (s : Eng) (path : Bytes) (info : Nat → Nat) (infoAdd numberInfoNew oldWrite : Nat) (grown : Bool) : Option Eng :=
  -- line 288
  (zcheck c s path REC_STATUS_VALID).bind fun k =>
    let lastWrite := (lastWriteSeen c s path REC_STATUS_VALID).getD oldWrite
    -- lines 297-316
    let t := if k.hashTableBinAdd = 0 then
        let b := zbinNew c s 0 k.binAddCurrent
        let s := b.1.put (c.hashStart + c.tHash path) 1 fun _ => b.2
        (s, { k with hashTableBinAdd := b.2, binAddCurrent := b.2 })
      else (s, k)
    -- lines 325-339
    let g := if grown then t.1.getFileSpace numberInfoNew else (t.1, infoAdd)
    -- lines 340-348
    let info := renamedInfo c info path numberInfoNew
    -- lines 351-352
    (zbinUpdate c g.1 t.2 path g.2 REC_STATUS_PRIMARY (pack32 (lowInt (info kinfoTypeVersion)).toNat g.1.hdr.catSequence) lastWrite
      (pack32 (lo32 (info kinfoFirstDate)) (lo32 (info kinfoLastDate)))).map fun s =>
      -- lines 358-376
      let s := s.put g.2 numberInfoNew info
      let s := if grown then s.writeEOF else s
      -- lines 380-389
      ({ s with hdr := { s.hdr with numberRenames := s.hdr.numberRenames + 1 } } : Eng).permWrite c

/-- zrename.c:192-409: the old record is looked up, and moved. -/
def renameFrom (c : Cfg) (s : Eng) (old new : Bytes) (r : RenEnv) : Option (Eng × Res) :=
  let numberInfoNew := infoSize + nLongsB new.length
  (zcheck c s old REC_STATUS_VALID).bind fun k =>
    -- lines 203-210
    if k.found = false then some (s, .notFound)
    else
      -- lines 215-233: the type in the pathname bin
      let binType := lo32 (s.disk (k.pathBinAddress + 4))
      let path := if 100 ≤ binType ∧ binType < 200 then renamePath old new r.junk else some (mallocAndCopyPath new)
      path.bind fun path =>
        -- lines 246-269
        let numberInfoOld := infoSize + hi32 (s.disk (k.pathBinAddress + 2))
        let info := fun i => if i < numberInfoOld then s.disk (k.infoAdd + i) else r.stale i
        let grown := decide (numberInfoNew > numberInfoOld)
        let oldWrite := s.disk (k.pathBinAddress + 5)
        (adoptRecord c (markRenamed s k numberInfoOld info grown) path info k.infoAdd numberInfoNew oldWrite grown).map fun s => (s, .ok)

/-- zrename.c:159-409: when the pathnames differ by more than letter case.  A record with the new pathname
is deleted first. -/
def zrenameTo (c : Cfg) (s : Eng) (old new : Bytes) (r : RenEnv) : Option (Eng × Res) :=
  -- lines 161-182; `none`: the record was found but could not be deleted, an error
  (zcheck c s new REC_STATUS_VALID).bind fun k =>
    if k.found then
      (zdeleteInternal c s new false).bind fun q => if q.2 = .ok then renameFrom c q.1 old new r else none
    else renameFrom c s old new r

/-- zrename.c:121-157: when only the case of letters changes, a temporary pathname is used in between, the
old one with another F part.  The two inner calls are those for different pathnames. -/
def zrename (c : Cfg) (s : Eng) (old new : Bytes) (r : RenEnv) : Option (Eng × Res) :=
  if old.length = new.length ∧ zstringCompare old new old.length = true then
    (stringCopy (List.replicate 393 0) old old.length).bind fun d =>
      (zpathnameSetPart r.before d.1 r.fpart 6 r.junk).bind fun t =>
        if t.2 = true then
          (zrenameTo c s old (cstr t.1) r).bind fun q =>
            if q.2 = .ok then zrenameTo c q.1 (cstr t.1) new r else some q
        else some (s, .notFound)
  else zrenameTo c s old new r

end Hec
