import Verif.Model.Catalog
import Verif.Model.Dates
import Verif.Model.Intervals
import Verif.Model.Strings
import Verif.Model.TextFile
import Verif.Spec.Histories
/-!
The sorted catalog: zcatalog.c with a sort flag, zcatInternalSort.c, zcatSortPath.c, toFixedFields.c, getLastInt.c,
sortfiles.c, zsetCatalogSortAddresses.c and zgetCatalogSortAddresses.c (heclib/heclib_c/src), files of version 7.

Simplifications.  The list of addresses is kept in the file; here it is kept beside the file (`SortHdr`), its words are
taken to be nobody else's.  sortfiles.c is a GNU sort without options: it is taken to put the lines of the file into
the order of its `compare`.  Temporary files can be written and read.  spatialDateTime.c, which gives the key of
the D part of gridded records, is a parameter.
-/
namespace Hec
open _root_.Spec (Op)

/-- `%.10d` of printf: ten digits at least, behind the sign. -/
def tenDigits (n : Int) : Bytes :=
  if n < 0 then 45 :: zeroPad 10 (decimal n.natAbs) else zeroPad 10 (decimal n.natAbs)

/-- What zcatSortPath.c uses besides the pathname: the widths of the columns `partMax[0..5]` (zcatalogInternal.c:250-255: the
greatest lengths of the parts A, B, C, F, E, D), spatialDateTime, and what is in the local array `positions`.  `save`: can the
list be stored (zsetCatalogSortAddresses.c:95-134, 138-142: the file is open for writing, a change is to be saved, locks)? -/
structure SortEnv where
  width : Nat → Nat
  grid : Bytes → Option (Int × Int)
  junk : Int
  save : Bool

/-- zcatSortPath.c:95-96: part `k` (from 0) of the pathname. -/
def sortPart (path : Bytes) (pos : List Int) (k : Nat) : Bytes :=
  let start := pos[k]?.getD 0
  let stop := pos[k + 1]?.getD 0
  (path.drop start.toNat).take (stop - start - 1).toNat

/-- zcatSortPath.c:93-149: the six texts of the key (by part) and the order of the columns; `partMax[4]` may be
made larger (line 128). -/
def sortKey (e : SortEnv) (width : Nat → Nat) (path : Bytes) (dataType : Nat) : (Nat → Bytes) × List Nat × (Nat → Nat) :=
  let pos := zpathnamePartPositions path e.junk
  let part := sortPart path pos
  if 100 ≤ dataType ∧ dataType < 200 then
    -- lines 102-132
    let jdate := dateToJulian ((part 3).take 128)
    let d := if jdate ≠ UNDEFINED_TIME then 32 :: tenDigits (jdate + 10000000) else part 3
    match ePartToSeconds 7 ((part 4).take 128) with
    | none => (fun k => if k = 3 then d else part k, [0, 1, 2, 5, 4, 3], width)
    | some x =>
      let t := 32 :: tenDigits x.2.1
      (fun k => if k = 3 then d else if k = 4 then t else part k, [0, 1, 2, 5, 4, 3],
        fun k => if k = 4 ∧ t.length > width 4 then t.length else width k)
  else if 400 ≤ dataType ∧ dataType < 500 then
    -- lines 133-146
    let d := match e.grid (path.drop (pos[3]?.getD 0).toNat) with
      | some x => 32 :: tenDigits (x.1 + 100000) ++ 32 :: decimal (x.2.toNat / 60)
      | none => part 3
    (fun k => if k = 3 then d else part k, [0, 1, 2, 3, 5, 4], width)
  else (part, [0, 1, 2, 3, 4, 5], width)

/-- toFixedFields.c:28-68, all fields to the left: `fields` with the widths of their columns; `col` is where the next column
begins, `acc` what is written. -/
def layFields : List (Bytes × Nat) → Nat → Bytes → Bytes
  | [], col, acc => acc ++ List.replicate (col - acc.length) 32
  | (f, w) :: rest, col, acc => layFields rest (col + w) (acc ++ List.replicate (col - acc.length) 32 ++ f.take w)

/-- zcatSortPath.c:151-168 with toFixedFields.c: the text for the file of keys, with the zero byte at its end.  The array
holds 788 bytes; the zero behind the 788th is written outside of it. -/
def fixedLine (key : Nat → Bytes) (order : List Nat) (width : Nat → Nat) (index : Nat) : Bytes :=
  let l := layFields (order.map fun k => (key k, width k + 1)) 0 [] ++ 32 :: tenDigits index
  l.take 788 ++ [0]

/-- zcatSortPath.c:85-88: has the pathname six parts? -/
def sixParts (path : Bytes) : Bool := (zpathnamePartLengths path 6).1 == 6

/-- zcatSortPath.c:56-171 and zcatalogInternal.c:403-411: what is written for one row, with the end of line that is
written in any case; and the widths afterwards. -/
def sortText (e : SortEnv) (width : Nat → Nat) (row : CatRow) (index : Nat) : Bytes × (Nat → Nat) :=
  if sixParts row.path then
    let k := sortKey e width row.path row.dataType
    (fixedLine k.1 k.2.1 k.2.2 index, k.2.2)
  else ([], width)

/-- The file of keys: all rows, numbered from `index` on. -/
def sortTexts (e : SortEnv) : (Nat → Nat) → Nat → List CatRow → List Bytes
  | _, _, [] => []
  | width, index, row :: rows => (sortText e width row index).1 :: sortTexts e (sortText e width row index).2 (index + 1) rows

/-- The content of a file of lines. -/
def linesFile (ls : List Bytes) : Bytes := ls.flatMap (· ++ [10])

/-- sortfiles.c (`fillbuf`, `findlines`): the lines of a file; text behind the last end of line is a line. -/
def splitLines : Bytes → List Bytes
  | [] => []
  | b :: s =>
    if b = 10 then [] :: splitLines s
    else match splitLines s with
      | [] => [[b]]
      | l :: ls => (b :: l) :: ls

/-- A byte as `char`. -/
def signedByte (b : UInt8) : Int := if b.toNat < 128 then b.toNat else (b.toNat : Int) - 256

/-- `memcmp` of the first `min` bytes, then the lengths: is `a` not behind `b`? -/
def memLe : Bytes → Bytes → Bool
  | [], _ => true
  | _ :: _, [] => false
  | x :: a, y :: b => if x = y then memLe a b else decide (x.toNat < y.toNat)

/-- sortfiles.c:1135-1155: `compare(a, b) <= 0` without keys.  The first bytes are compared as `char`. -/
def lineLe : Bytes → Bytes → Bool
  | [], _ => true
  | _ :: _, [] => false
  | x :: a, y :: b => if x = y then memLe a b else decide (signedByte x < signedByte y)

/-- sortfiles.c. -/
def sortfiles (content : Bytes) : Bytes := linesFile ((splitLines content).mergeSort lineLe)

/-- getLastInt.c:44-49 and 53-58: from index `i` downwards to index 1, the first byte with the property. -/
def scanDown (p : UInt8 → Bool) (b : Bytes) : Nat → Option Nat
  | 0 => none
  | i + 1 => if p (b.getD (i + 1) 0) then some (i + 1) else scanDown p b i

/-- getLastInt.c:38-50: `end`, where the last text of the line ends (for text with blanks behind it one more). -/
def lastStop (b : Bytes) : Int :=
  if b.getD (b.length - 1) 0 = 32 then
    match scanDown (· != 32) b (b.length - 1 - 1) with
    | some i => (i : Int) + 1
    | none => (b.length : Int) - 1 - 1
  else (b.length : Int) - 1

/-- getLastInt.c:52-62: `start`. -/
def lastStart (b : Bytes) (stop : Int) : Int :=
  match scanDown (· == 32) b (stop - 1).toNat with
  | some i => if (i : Int) + 1 = stop - 1 then 0 else (i : Int) + 1
  | none => 0

/-- getLastInt.c:30-66. -/
def getLastInt (b : Bytes) : Int :=
  if b.length = 0 then -1
  else if lastStop b < 0 then -1
  else (findInt (b.drop (lastStart b (lastStop b)).toNat)).1

/-- zcatInternalSort.c:382-395: `n` lines are read into `char cline[400]`; `none`: the file ends before. -/
def readSequence : Nat → Bytes → Option (List Int)
  | 0, _ => some []
  | _ + 1, [] => none
  | n + 1, b :: s =>
    (readSequence n (fgets 399 (b :: s)).2).map (getLastInt (upToZero (fgets 399 (b :: s)).1) :: ·)

/-- zcatInternalSort.c:396-423: the row with a number.  (A number that is none of a row is a read outside of
the list; here the entry is left empty then.) -/
def rowNumber (rows : List CatRow) (n : Int) : Option CatRow := if -1 < n then rows[n.toNat]? else none

/-- What the file header has for sorted catalogs: `kcatSortStatus` and the list of `kcatSortNumber` addresses. -/
structure SortHdr where
  status : Nat
  list : List Nat
deriving DecidableEq

/-- What is asked for: as for a catalog (`CatReq`), but for the time of the last write, which is not looked at (zcatInternalSort.c:129-134).
`useList` (lines 121-126): no pathname with wild characters is given, and no collection. -/
structure SortReq where
  statusWanted : Nat
  typeStart : Nat
  typeEnd : Nat
  wild : Bytes → Bool
  useList : Bool

/-- zcatInternalSort.c:129-134: the request for the catalog that is sorted. -/
def SortReq.inner (q : SortReq) : CatReq := ⟨q.statusWanted, q.typeStart, q.typeEnd, 0, 0, 0, q.wild⟩

/-- What the caller gets: the number returned, and the entries of `pathnameList` (`none` for NULL) with the dates
that belong to them. -/
structure SortGot where
  number : Int
  rows : List (Option CatRow)
  hdr : SortHdr

/-- zcatInternalSort.c:233-442: sorting.  The list is stored when it is as long as the number of records says (lines 349, 435;
zsetCatalogSortAddresses.c:87-93, 187-189). -/
def sortFully (s : Eng) (h : SortHdr) (e : SortEnv) (rows : List CatRow) : SortGot :=
  match readSequence rows.length (sortfiles (linesFile (sortTexts e e.width 0 rows))) with
  | none => ⟨-1, [], h⟩
  | some ns =>
    let out := ns.map (rowNumber rows)
    ⟨rows.length, out, if e.save = true ∧ rows.length = s.hdr.numberRecords
      then ⟨1, out.map fun r => (r.map (·.address)).getD 0⟩ else h⟩

/-- zcatInternalSort.c:81-443, with zgetCatalogSortAddresses.c:46-51. -/
def zcatInternalSort (c : Cfg) (s : Eng) (h : SortHdr) (e : SortEnv) (q : SortReq) : Option SortGot :=
  (zcatalog c s q.inner).map fun (rows : List CatRow) =>
    if q.useList = true ∧ h.status = 1 then
      -- lines 142-150
      if rows.length = 0 then ⟨0, [], h⟩
      else if h.list.length > rows.length then sortFully s h e rows
      else
        -- lines 187-220
        let found := (h.list ++ List.replicate (rows.length - h.list.length) 0).filterMap fun a => rows.find? fun r : CatRow => r.address == a
        ⟨rows.length, found.map some ++ List.replicate (rows.length - found.length) none, h⟩
    else sortFully s h e rows

/-- What the calls do to `kcatSortStatus`: zwriteNew.c:328-335 (where the number of records is counted up too),
zdeleteInternal.c:195-198 and 225-228, zrename.c:379-383 (and the zdelete in line 170, which counts up the deleted records). -/
def sortAfter (op : Op) (res : Res) (s s' : Eng) (h : SortHdr) : SortHdr :=
  match op with
  | .write _ => if s'.hdr.numberRecords ≠ s.hdr.numberRecords ∧ h.status = 1 then { h with status := 2 } else h
  | .delete _ => if res = .ok ∧ h.status > 0 then { h with status := 3 } else h
  | .undelete _ => if res = .ok ∧ h.status > 0 then { h with status := 3 } else h
  | .rename _ _ _ =>
    if res = .ok then { h with status := 3 }
    else if s'.hdr.numberDeletes ≠ s.hdr.numberDeletes ∧ h.status > 0 then { h with status := 3 } else h

end Hec
