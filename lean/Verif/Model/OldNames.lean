import Verif.Spec.Histories
/-!
The lookup of pathnames with a version 6 minute interval (zcheck.c:42-58, ztsPathCompatible.c:42-165).  Model/Engine looks up
a pathname as it is (zcheckInternal); here is what zcheck adds when nothing is found, and what the calls of the engine
do with it.
-/
namespace Hec

/-- ztsPathCompatible.c:56-70: the positions of the fifth and the sixth slash.  `i` is the position of the bytes,
`count` the number of slashes before it, `startE` the position of the fifth one. -/
def ePartBounds : Bytes → (i count startE : Nat) → Option (Nat × Nat)
  | [], _, _, _ => none
  | b :: bs, i, count, startE =>
    if b = 47 then
      if count + 1 = 5 then ePartBounds bs (i + 1) (count + 1) i
      else if count + 1 = 6 then some (startE, i)
      else ePartBounds bs (i + 1) (count + 1) startE
    else ePartBounds bs (i + 1) count startE

/-- The letters of `Minute`. -/
def MINUTE : Bytes := [77, 105, 110, 117, 116, 101]

/-- ztsPathCompatible.c:42-165 with version 7.  Past the end of the pathname there is its terminator. -/
def ztsPathCompatible (p : Bytes) : Option Bytes :=
  (ePartBounds p 0 0 0).bind fun x =>
    let startE := x.1
    let endE := x.2
    let at_ := fun i => p.getD i 0
    -- lines 76-79
    if endE - startE - 1 < 4 then none
    else
      -- lines 83-97
      let istart := if toupper (at_ (startE + 2)) = 77 then some (startE + 2)
        else if toupper (at_ (startE + 3)) = 77 then some (startE + 3) else none
      istart.bind fun istart =>
        -- lines 106-111
        if endE - startE - 1 > 5 then none
        -- lines 131-144
        else if toupper (at_ (istart + 1)) = 73 ∧ toupper (at_ (istart + 2)) = 78 ∧ at_ (istart + 3) = 47 then
          -- lines 155-162
          some (p.take istart ++ MINUTE ++ p.drop endE)
        else none

/-- zcheck.c:42-58: what zcheckInternal leaves, and the pathname it was called with last, whose hash codes and length
are in ifltab afterwards (zcheckInternal.c:124-125: at most 392 bytes of it). -/
def zcheckName (c : Cfg) (s : Eng) (path : Bytes) : Option (Chk × Bytes) :=
  (zcheck c s path REC_STATUS_VALID).bind fun k =>
    if k.found then some (k, path)
    else match ztsPathCompatible path with
      | none => some (k, path)
      | some q => (zcheck c s (q.take 392) REC_STATUS_VALID).map fun k => (k, q.take 392)

/-- zreadInfo.c:106-213 with `statusWanted` 0. -/
def zreadInfoName (c : Cfg) (s : Eng) (path : Bytes) : Option ((Chk × Bytes) × Option (Nat → Nat)) :=
  (zcheckName c s path).map fun x =>
    if x.1.found then
      let info := fun i => s.disk (x.1.infoAdd + i)
      if info kinfoHash = c.pHash x.2 then (x, some info) else (x, none)
    else (x, none)

/-- zreadInternal.c:231-502. -/
def zreadName (c : Cfg) (s : Eng) (path : Bytes) : Option (Option Rec) :=
  (zreadInfoName c s path).map fun p => p.2.map (readArrays s.disk)

/-- zdeleteInternal.c:57-287 (delete only: an undelete does not use zcheck, zreadInfo.c:127-129). -/
def zdeleteName (c : Cfg) (s : Eng) (path : Bytes) : Option (Eng × Res) :=
  (zreadInfoName c s path).map fun p =>
    match p.2 with
    | none => (s.permWrite c, .notFound)
    | some info =>
      let s := s.put (p.1.1.pathBinAddress + 1) 1 fun _ => REC_STATUS_DELETED
      let s := s.put p.1.1.infoAdd (numberInfo p.1.2) (upd info kinfoStatus REC_STATUS_DELETED)
      let h := { s.hdr with numberRecords := s.hdr.numberRecords - 1, numberDeletes := s.hdr.numberDeletes + 1 }
      (({ s with hdr := h } : Eng).permWrite c, .ok)

/-- The bytes charLong.c:75-83 copies when it is told that the string `path` has `n` bytes: its own, its terminator, and
`after`, which is what the memory behind it contains. -/
def overread (path after : Bytes) (n : Nat) : Bytes := (path ++ 0 :: after).take n

/-- zbinUpdate.c:173-292 as `findSlot`; the hash code and the length in ifltab are those of `looked` (lines 179, 195), the
pathname compared is `path` (lines 202-206). -/
def findSlotName (c : Cfg) (path looked : Bytes) (useRecovered : Bool) (bin : Nat → Nat) : Nat → Nat → Option Nat
  | 0, _ => none
  | fuel + 1, icount =>
    if useRecovered = true ∧ (bin (icount + 1) = REC_STATUS_DELETED ∨ bin (icount + 1) = REC_STATUS_RENAMED) ∧
        hi32 (bin (icount + 2)) = nLongsB looked.length then some icount
    else if bin icount = 0 then some icount
    else if bin icount = c.pHash looked ∧ lo32 (bin (icount + 2)) = path.length ∧
        zstringCompare path (unpackBytes (fun j => bin (icount + 7 + j)) path.length) path.length = true then
      some icount
    else
      let next := icount + (7 + hi32 (bin (icount + 2)))
      if bin icount = c.pHash looked then findSlotName c path looked useRecovered bin fuel next
      else if next ≥ c.isize - 1 then none
      else findSlotName c path looked useRecovered bin fuel next

/-- zbinUpdate.c:247-261 as `setEntry`, with the hash code and the length of `looked` and the bytes `text`. -/
def setEntryName (c : Cfg) (bin : Nat → Nat) (icount : Nat) (looked text : Bytes)
    (infoAdd st typeCat lastWrite dates : Nat) : Nat → Nat := fun i =>
  if i = icount then c.pHash looked
  else if i = icount + 1 then st
  else if i = icount + 2 then pack32 looked.length (nLongsB looked.length)
  else if i = icount + 3 then infoAdd
  else if i = icount + 4 then typeCat
  else if i = icount + 5 then lastWrite
  else if i = icount + 6 then dates
  else if icount + 7 ≤ i ∧ i < icount + 7 + nLongsB looked.length then
    packBytes (fun j => bin (icount + 7 + j)) text (i - (icount + 7))
  else bin i

/-- zbinUpdate.c:79-301 as `zbinUpdate`, for a pathname looked up as `looked`. -/
def zbinUpdateName (c : Cfg) (s : Eng) (k : Chk) (path looked text : Bytes) (infoAdd st typeCat lastWrite dates : Nat) : Option Eng :=
  let useRecovered := decide (k.binWithSpace > 0)
  let start := if useRecovered then some k.binWithSpace else lastBin c s.disk (s.hdr.totalBins + 1) k.binAddCurrent
  start.bind fun b =>
    let bin := fun i => s.disk (b + i)
    (findSlotName c path looked useRecovered bin c.isize 0).map fun icount =>
      if 7 + nLongsB looked.length + (icount + 1) ≥ c.isize then
        let r := zbinNew c s k.hashTableBinAdd b
        r.1.put r.2 c.isize (setEntryName c (fun _ => 0) 0 looked text infoAdd st typeCat lastWrite dates)
      else s.put b c.isize (setEntryName c bin icount looked text infoAdd st typeCat lastWrite dates)

/-- zwriteNew.c:251-316 as `newInfo`; line 316 copies up to the terminator of the pathname. -/
def newInfoName (c : Cfg) (r : Req) (looked : Bytes) (address alloc : Nat) : Nat → Nat := fun i =>
  if i = kinfoPathnameLength then looked.length
  else if i = kinfoHash then c.pHash looked
  else newInfo c r address alloc i

/-- zwriteNew.c:142-352 as `zwriteNew`, for a pathname looked up as `looked`. -/
def zwriteNewName (c : Cfg) (s : Eng) (k : Chk) (looked after : Bytes) (r : Req) : Option (Eng × (Nat → Nat)) :=
  let t := if k.hashTableBinAdd = 0 then
      let b := zbinNew c s 0 k.binAddCurrent
      let s := b.1.put (c.hashStart + c.tHash looked) 1 fun _ => b.2
      (s, { k with hashTableBinAdd := b.2, binAddCurrent := b.2 })
    else (s, k)
  let s := t.1
  let k := t.2
  let total := numberInfo looked + nLongs r.ih.length + nLongs r.h2.length + nLongs r.uh.length +
    nLongs (allocSize r)
  let g := s.getFileSpace total
  let s := g.1
  let address := g.2
  (zbinUpdateName c s k r.path looked (overread r.path after looked.length) address REC_STATUS_PRIMARY (pack32 r.dataType.toNat s.hdr.catSequence)
    r.now r.dates).map fun s =>
    let info := newInfoName c r looked (address + numberInfo looked) (allocSize r)
    let s := s.put address (numberInfo looked) info
    ({ s with hdr := { s.hdr with numberRecords := s.hdr.numberRecords + 1 } }, info)

/-- zwriteInternal.c:158-514 as `zwrite`.  zwriteExisting uses the pathname only for the length of the info block, which is
the one in ifltab (zwriteExisting.c:252). -/
def zwriteName (c : Cfg) (s : Eng) (after : Bytes) (r : Req) : Option (Eng × Res) :=
  (zreadInfoName c s r.path).bind fun p =>
    match p.2 with
    | none =>
      (zwriteNewName c s p.1.1 p.1.2 after r).map fun q =>
        let s := writeArrays q.1 q.2 r
        ((s.writeEOF).permWrite c, .ok)
    | some info =>
      let q := zwriteExisting c s p.1.1 { r with path := p.1.2 } info
      match q.2.1 with
      | .ok =>
        let s' := writeArrays q.1 q.2.2 r
        let s' := if newSize r > originalSize info then s'.writeEOF else s'
        some (s'.permWrite c, .ok)
      | e => some (q.1, e)

end Hec
