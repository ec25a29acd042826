import Verif.Model.Engine
import Verif.Model.Encoding
/-!
The catalog: heclib/heclib_c/src/Internal/zcatalogInternal.c.  Modelled: the list of pathnames with
their types and times that is returned in a zStructCatalog, for a new-style (unsorted) catalog without
a catalog file and without collections; the wild card comparison (zcatComparePath) is a parameter here
and is modelled in Model/Wild.lean.  Not modelled: the CRC values (lines 480-560), progress and messages.
-/
namespace Hec

/-- One row of the catalog (zStructCatalog.h: pathnameList, sortAddresses, startDates / endDates,
recordType, lastWriteTimeRecord). -/
structure CatRow where
  path : Bytes
  address : Nat
  dataType : Nat
  lastWrite : Nat
  dates : Nat
deriving DecidableEq

/-- What is asked for: `statusWanted`, `typeWantedStart`, `typeWantedEnd`, `lastWriteTimeSearch`,
`lastWriteTimeSearchFlag` of the zStructCatalog, the argument `numberWanted`, and the comparison with
the wild card pathname (everything, if none was given). -/
structure CatReq where
  statusWanted : Nat
  typeStart : Nat
  typeEnd : Nat
  searchTime : Nat
  searchFlag : Int
  numberWanted : Nat
  wild : Bytes → Bool

/-- zcatalogInternal.c:313-329: the comparison of the time of the last write. -/
def timeFound (q : CatReq) (lastWrite : Nat) : Bool :=
  if q.searchTime > 0 then
    if q.searchFlag = -2 then decide (lastWrite < q.searchTime)
    else if q.searchFlag = -1 then decide (lastWrite ≤ q.searchTime)
    else if q.searchFlag = 0 then decide (lastWrite = q.searchTime)
    else if q.searchFlag = 1 then decide (lastWrite ≥ q.searchTime)
    else if q.searchFlag = 2 then decide (lastWrite > q.searchTime)
    else false
  else true

/-- zcatalogInternal.c:290-344: is the entry (with the wanted status) put into the list?  As in the
code, an entry whose type is not in the range stays found. -/
def rowFound (q : CatReq) (r : CatRow) : Bool :=
  if q.wild r.path then
    if q.typeStart = 0 ∨ (r.dataType ≥ q.typeStart ∧ r.dataType ≤ q.typeEnd) then timeFound q r.lastWrite
    else true
  else false

/-- zcatalogInternal.c:279-450: the entries of one bin at `binAddress` (words `bin 0 ..`) from offset
`icount` on.  `fuel` bounds the number of turns; each advances by 7 or more words. -/
def catEntries (c : Cfg) (q : CatReq) (binAddress : Nat) (bin : Nat → Nat) : Nat → Nat → List CatRow
  | 0, _ => []
  | fuel + 1, icount =>
    -- line 280
    if bin icount = 0 then []
    else
      -- lines 284-286
      let numberChars := lo32 (bin (icount + 2))
      let pathnameSize := hi32 (bin (icount + 2))
      let row : CatRow := ⟨unpackBytes (fun j => bin (icount + 7 + j)) numberChars, binAddress + icount,
        lo32 (bin (icount + 4)), bin (icount + 5), bin (icount + 6)⟩
      -- lines 442-445
      let next := icount + (7 + pathnameSize)
      let rest := if next ≥ c.isize - 2 then [] else catEntries c q binAddress bin fuel next
      -- lines 290, 357
      if zcompareRecordStatus (bin (icount + 1)) q.statusWanted = true ∧ rowFound q row = true then row :: rest else rest

/-- zcatalogInternal.c:264-460: the bins of a block from address `a` on, `n` of them at most; also the
address at which the loop stops. -/
def catBins (c : Cfg) (q : CatReq) (d : Disk) : Nat → Nat → List CatRow × Nat
  | 0, a => ([], a)
  | n + 1, a =>
    -- line 275
    if d a = 0 then ([], a)
    else
      let r := catBins c q d n (a + c.isize)
      (catEntries c q a (fun i => d (a + i)) c.isize 0 ++ r.1, r.2)

/-- zcatalogInternal.c:262-478: all blocks, from the one at address `a` on.  `none`: the loop did not end
within `fuel` turns. -/
def catBlocks (c : Cfg) (q : CatReq) (d : Disk) : Nat → Nat → Option (List CatRow)
  | 0, _ => none
  | fuel + 1, a =>
    let r := catBins c q d c.binsPerBlock a
    -- lines 468-476
    if d r.2 = 0 then some r.1 else (catBlocks c q d fuel (d r.2)).map (r.1 ++ ·)

/-- zcatalogInternal.c:181-186: the number of rows there is room for (there are no aliases in the model). -/
def catListSize (s : Eng) (q : CatReq) : Nat :=
  let n := s.hdr.numberRecords + s.hdr.numberRenames + s.hdr.numberDeletes
  if q.numberWanted > 0 ∧ q.numberWanted < n then q.numberWanted else n

/-- zcatalogInternal.c:167-478.  Lines 362-369 and 421-423: once the list is full nothing is added.  The
walk over the blocks has no bound in the code; the size of the file serves as one here. -/
def zcatalog (c : Cfg) (s : Eng) (q : CatReq) : Option (List CatRow) :=
  (catBlocks c q s.disk (s.hdr.fileSize + 1) c.firstBin).map fun rows => rows.take (catListSize s q)

end Hec
