/-!
Model of the space allocator with reclamation: zgetFileSpace.c, zreleaseFileSpace.c, zreclaimRead.c,
zreclaimWrite.c, zreclaimSet.c and the part of zpermCreate.c that creates the first table.

Addresses and sizes are numbers of 64-bit words.  Simplifications: quantities are naturals (the C
code casts sizes to 32-bit int); disk errors do not occur; the file's words outside reclaim tables
are not represented, except that the table sized area starting at word 0, where the file header is,
can be read and written as if it were a table (which is what the C code can do).
-/
namespace Hec

/-- A reclaim table as it is on disk: zpermCreate.c:190-194.  Pairs (size, address), then the
address of the next table, 0 if none. -/
structure Seg where
  slots : List (Nat × Nat)
  link : Nat
deriving DecidableEq, Repr

/-- The allocator's fields of the file header, and the tables on disk. -/
structure AFile where
  /-- kfileSize -/
  fileSize : Nat
  /-- kreclaimTableAddress -/
  table : Nat
  /-- kreclaimSegAvailableAdd -/
  segAvail : Nat
  /-- kreclaimSegNumber -/
  segNumber : Nat
  /-- kreclaimMaxAvailable -/
  maxAvail : Nat
  /-- kreclaimTotal -/
  total : Nat
  /-- kreclaimMin -/
  minSize : Nat
  /-- kreclaimNumber: pairs in a table -/
  slotsN : Nat
  /-- kreclaimMaxSegment -/
  maxSeg : Nat
  /-- ifltab[kreclaimLevel] -/
  level : Nat
  /-- what is on disk at an address, read as a table -/
  mem : Nat → Seg

/-- kreclaimSize: zpermCreate.c:193-194, `number = (size - 2) / 2`. -/
def AFile.segSize (f : AFile) : Nat := 2 * f.slotsN + 2

/-- A table of zeros: zput with a negative number (zpermCreate.c:327, zreclaimRead.c:76). -/
def Seg.zero (n : Nat) : Seg := ⟨List.replicate n (0, 0), 0⟩

/-- zput of a table at an address. -/
def AFile.put (f : AFile) (a : Nat) (s : Seg) : AFile :=
  { f with mem := fun b => if b = a then s else f.mem b }

/-- zreclaimWrite.c:10-39. -/
def reclaimWrite (f : AFile) (s : Seg) : AFile :=
  if f.level = 1 then f else f.put f.segAvail s

/-- zgetFileSpace.c:124-131: from the end of the file. -/
def getEOF (f : AFile) (n : Nat) : AFile × Nat :=
  ({ f with fileSize := f.fileSize + n }, f.fileSize)

/-- zreclaimRead.c:55-79, release: follow `k` links from the table at `a`, adding a table at the end
of the file when the chain ends. Gives the file and the address arrived at. -/
def walkCreate : Nat → AFile → Nat → AFile × Nat
  | 0, f, a => (f, a)
  | k + 1, f, a =>
    let arr := f.mem a
    if arr.link = 0 then
      let (f1, na) := getEOF f f.segSize
      let f2 := reclaimWrite f1 { arr with link := na }
      let f3 := f2.put na (Seg.zero f.slotsN)
      walkCreate k { f3 with segAvail := na } na
    else walkCreate k f arr.link

/-- zreclaimRead.c:44-86: read table number `k` to release space into it. The table, the number it
is given, and the file. -/
def readRelease (f : AFile) (k : Nat) : Option (Seg × Nat) × AFile :=
  if f.level = 1 then (none, f)
  else if k = 0 ∨ k = f.segNumber then (some (f.mem f.segAvail, f.segNumber), f)
  else if k < f.maxSeg then
    let (f1, a) := walkCreate k f f.table
    (some (f1.mem a, k), { f1 with segAvail := a, segNumber := k })
  else (none, f)

/-- zreclaimRead.c:97-112, search: follow `k` links; 0 if the chain ends. -/
def walkGet (f : AFile) : Nat → Nat → Nat
  | 0, a => a
  | k + 1, a => let l := (f.mem a).link; if l = 0 then 0 else walkGet f k l

/-- zreclaimRead.c:87-116: read table number `k` to search it. -/
def readGet (f : AFile) (k : Nat) : Option Seg × AFile :=
  if f.level = 1 then (none, f)
  else if k = 0 then (some (f.mem f.table), { f with segAvail := f.table })
  else
    let a := walkGet f k f.table
    if a = 0 then (none, { f with segAvail := 0, segNumber := k })
    else (some (f.mem a), { f with segAvail := a, segNumber := k })

/-- zgetFileSpace.c:83-94: the smallest of the sizes at least `n`, and its position.  `best` is the
one so far. -/
def bestFit (n : Nat) : List (Nat × Nat) → Nat → Option (Nat × Nat) → Option (Nat × Nat)
  | [], _, best => best
  | (s, _) :: rest, i, best =>
    if s ≥ n ∧ s < (best.elim (s + 1) (·.1)) then
      if s = n then some (s, i) else bestFit n rest (i + 1) (some (s, i))
    else bestFit n rest (i + 1) best

/-- zgetFileSpace.c:78-120: search the tables from number `k`.  `fuel` bounds the loop (the C loop
ends when the chain of tables does). -/
def searchTables (n : Nat) : Nat → AFile → Nat → AFile × Nat
  | 0, f, _ => (f, 0)
  | fuel + 1, f, k =>
    match readGet f k with
    | (none, f1) => (f1, 0)
    | (some arr, f1) =>
      match bestFit n arr.slots 0 none with
      | none => searchTables n fuel f1 (k + 1)
      | some (have_, loc) =>
        let addr := (arr.slots.getD loc (0, 0)).2
        let diff := have_ - n
        let e := if diff > f1.minSize then (diff, addr + n) else (0, 0)
        let f2 := { f1 with total := f1.total - n }
        (reclaimWrite f2 { arr with slots := arr.slots.set loc e }, addr)

/-- zgetFileSpace.c:51-151: the file and the address obtained. -/
def zgetFileSpace (fuel : Nat) (f : AFile) (n : Nat) (reuse : Bool) : AFile × Nat :=
  let (f1, a) :=
    if reuse ∧ f.level > 1 ∧ n ≥ f.minSize ∧ n ≤ f.maxAvail then searchTables n fuel f 0 else (f, 0)
  if a = 0 then getEOF f1 n else (f1, a)

/-- zreleaseFileSpace.c:54-63: put `e` in the first slot of size 0. -/
def fillZero (e : Nat × Nat) : List (Nat × Nat) → Option (List (Nat × Nat))
  | [] => none
  | s :: rest => if s.1 = 0 then some (e :: rest) else (fillZero e rest).map (s :: ·)

/-- zreleaseFileSpace.c:49-77: put `e` in a table: the first slot of size 0; if there is none and
`e` is larger than the smallest, the LAST slot (`ipos`, not `loc`). -/
def insertSlot (e : Nat × Nat) (l : List (Nat × Nat)) : Option (List (Nat × Nat)) :=
  match fillZero e l with
  | some l' => some l'
  | none =>
    let minMem := (l.map (·.1)).foldl min ((l.map (·.1)).headD 0)
    if minMem > 0 ∧ e.1 > minMem then some (l.set (l.length - 1) e) else none

/-- zreleaseFileSpace.c:48-82: try the tables in turn. -/
def releaseTables (e : Nat × Nat) : Nat → AFile → Nat → AFile
  | 0, f, _ => f
  | fuel + 1, f, k =>
    match readRelease f k with
    | (none, f1) => f1
    | (some (arr, k1), f1) =>
      match insertSlot e arr.slots with
      | none => releaseTables e fuel f1 (k1 + 1)
      | some l =>
        let f2 := reclaimWrite f1 { arr with slots := l }
        { f2 with total := f2.total + e.1, maxAvail := max f2.maxAvail e.1 }

/-- zreleaseFileSpace.c:26-95 (kdead, a statistic, is not kept). -/
def zreleaseFileSpace (fuel : Nat) (f : AFile) (addr n : Nat) : AFile :=
  if n ≥ f.minSize then releaseTables (n, addr) fuel f 0 else f

/-- zreclaimSet.c:61-81. -/
def zreclaimSet (f : AFile) (level : Nat) : AFile :=
  if level = 1 then
    if f.total > 0 then
      { (f.put f.table (Seg.zero f.slotsN)) with total := 0, segNumber := 0, level := 1, segAvail := f.table }
    else f
  else { f with level := level }

/-- zpermCreate.c:190-198, 320-333 with zopen's default level: a new file, whose header and hash
table (`hdr` read as a table) occupy the first `base` words. -/
def newAllocFile (base : Nat) (hdr : Seg) : AFile :=
  { fileSize := base + 1002, table := base, segAvail := base, segNumber := 0, maxAvail := 0
    total := 0, minSize := 100, slotsN := 500, maxSeg := 20, level := 1
    mem := fun a => if a = base then Seg.zero 500 else hdr }

/-- zwriteExisting.c:252-292: the amount released when a record whose information block of
`numberInfo` 64-bit words is at `infoAdd` no longer fits; the other sizes are numbers of 32-bit words.
`none`: the areas are not contiguous and nothing is released. -/
def expandRelease (infoAdd numberInfo internalHead head2 userHead allocated values1Add : Nat) : Option Nat :=
  let originalSize := internalHead + head2 + userHead + allocated
  if infoAdd + (originalSize + numberInfo) = values1Add + allocated then some (originalSize + numberInfo) else none

end Hec
