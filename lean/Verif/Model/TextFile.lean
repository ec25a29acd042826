import Verif.Model.Records
/-!
Text files and binary files as records: Public/ztextStoreFromFile.c, Public/ztextRetrieveToFile.c,
Public/zbinaryStoreFromFile.c, Public/zbinaryRetrieveToFile.c, System/zfileSize.c, System/zopendisk.c.

The files outside of the DSS file are a function from names to contents.  Simplifications, besides those of
Model/Records.lean: on Linux; memory is not exhausted; reading and writing text files does not fail half way; a handle
is never 0 (zopendisk.c:92).
-/
namespace Hec

/-- The files of the computer: `none` is a name without file (or one that cannot be read). -/
abbrev Files := Bytes → Option Bytes

/-! ### Text files -/

/-- fgets of the C library into an array with room for `n` characters and the zero byte: the characters up to and with
the next line feed, at most `n`; and what is left to read. -/
def fgets : Nat → Bytes → Bytes × Bytes
  | 0, s => ([], s)
  | _ + 1, [] => ([], [])
  | n + 1, b :: s => if b = 10 then ([b], s) else let r := fgets n s; (b :: r.1, r.2)

/-- ztextStoreFromFile.c:99-102 and 119-125: `while (fgets(cline, sizeof(cline), textFileFP))` with `char cline[1000]`.  The
first argument is a bound for the number of turns. -/
def readPieces : Nat → Bytes → List Bytes
  | 0, _ => []
  | _ + 1, [] => []
  | n + 1, b :: s => (fgets 999 (b :: s)).1 :: readPieces n (fgets 999 (b :: s)).2

/-- The pieces of a file. -/
def pieces (content : Bytes) : List Bytes := readPieces content.length content

/-- `strlen`: a string ends at its first zero byte. -/
def upToZero (b : Bytes) : Bytes := b.takeWhile fun x => x != 0

/-- ztextStoreFromFile.c:117-125: the table of the record. -/
def fileTable (content : Bytes) : Bytes := (pieces content).flatMap fun l => upToZero l ++ [0]

/-- ztextStoreFromFile.c:69-114 with zstructTextNew.c:42-61. -/
def fileText (path content : Bytes) : TextIn where
  path := mallocAndCopyPath path
  text := none
  nText := 0
  table := some (fileTable content)
  nTable := (fileTable content).length
  labels := none
  nLabels := 0
  rows := (pieces content).length
  cols := 1
  uh := []

/-- What storing a file gives. -/
inductive FromFile where
  | noAccess
  | arguments
  | res (r : Res)
deriving DecidableEq

/-- ztextStoreFromFile.c:41-142. -/
def ztextStoreFromFile (c : Cfg) (s : Eng) (e : WriteEnv) (fs : Files) (path filename : Bytes) : Option (Eng × FromFile) :=
  match fs filename with
  | none => some (s, .noAccess)
  | some content => (ztextStore c s e (fileText path content)).map fun r =>
      (r.1, match r.2 with | none => .arguments | some res => .res res)

/-- ztextRetrieveToFile.c:105-110: the rows of a table (followed by a zero byte, ztextRetrieve.c:169); `none` if the
program reads beyond it. -/
def writeRows : Nat → Bytes → Nat → Option Bytes
  | 0, _, _ => some []
  | n + 1, table, count =>
    if table.length < count then none
    else
      let line := upToZero (table.drop count)
      (writeRows n table (count + line.length + 1)).map fun r => line ++ r

/-- ztextRetrieveToFile.c:98-111: what is written into the file. -/
def writeText (t : TextOut) : Option Bytes :=
  if t.table.length > 0 then (writeRows t.rows.toNat t.table 0).map fun r => upToZero t.text ++ r else some (upToZero t.text)

/-- What retrieving into a file gives: the files after it, and whether 0 is returned; otherwise the error. -/
inductive ToFile where
  | ok
  | wrongType
  | badHeader
deriving DecidableEq

/-- The files with a new content for one of them. -/
def Files.put (fs : Files) (name content : Bytes) : Files := fun n => if n = name then some content else fs n

/-- ztextRetrieveToFile.c:39-122.  `canWrite`: the file can be opened for writing.  (If it cannot, line 92 closes a null
pointer: `none`.)  A record that is not found is no error (line 73 and zisError.c), the file is written then as well. -/
def ztextRetrieveToFile (c : Cfg) (s : Eng) (fs : Files) (canWrite : Bytes → Bool) (path filename : Bytes) : Option (Files × ToFile) :=
  (ztextRetrieve c s (mallocAndCopyPath path)).bind fun r =>
    match r with
    | .wrongType => some (fs, .wrongType)
    | .badHeader => some (fs, .badHeader)
    | .notFound => if canWrite filename then some (fs.put filename [], .ok) else none
    | .got t => if canWrite filename then (writeText t).map fun b => (fs.put filename b, .ok) else none

/-! ### Binary files -/

/-- zfileSize.c:21-26: `status` is the result of fstat. -/
def zfileSize (status : Int) (size : Int) : Int := if status = 0 then status else size

/-- zbinaryStoreFromFile.c:43-134.  fstat of an open file succeeds; `fill` are the bytes of `malloc` (line 102) behind those
of the file. -/
def zbinaryStoreFromFile (c : Cfg) (s : Eng) (e : WriteEnv) (fs : Files) (fill : Bytes) (path filename : Bytes) : Option (Eng × FromFile) :=
  match fs filename with
  | none => some (s, .noAccess)
  | some content =>
    let n := zfileSize 0 content.length
    if n ≤ 0 then some (s, .noAccess)
    else
      let ints := bytesToInts (content ++ fill.take (3 - (content.length + 3) % 4))
      (zwritePublic c s { plainReq e path 600 [] [] [] ints [] [] ints.length with logicalNumber := n.toNat }).map fun r => (r.1, .res r.2)

/-- zopendisk.c:62-77: the flags of `open`, as numbers: O_WRONLY 1, O_RDWR 2, O_CREAT 64. -/
def openFlags (iaccess : Nat) : Nat :=
  (if iaccess % 2 = 1 then 1 else 0) + (if iaccess / 2 % 2 = 1 then 2 else 0) + (if iaccess / 8 % 2 = 1 then 64 else 0)

/-- zopendisk.c:91-97: the file is opened, which creates it if the flags say so. -/
def zopenDisk (fs : Files) (name : Bytes) (iaccess : Nat) : Option Files :=
  match fs name with
  | some _ => some fs
  | none => if openFlags iaccess / 64 % 2 = 1 then some (fs.put name []) else none

/-- writeBytes.c:63-65 at the beginning of a file: `write` fails with -1 on a file that was opened for reading only. -/
def writeBytes (fs : Files) (name : Bytes) (iaccess : Nat) (b : Bytes) (n : Int) : Files × Int :=
  if openFlags iaccess % 4 = 0 then (fs, if (-1 : Int) = n then 0 else -1)
  else (fs.put name (b.take n.toNat ++ ((fs name).getD []).drop n.toNat), 0)

/-- zbinaryRetrieveToFile.c:48-124: the files afterwards; `none` in the second part if the record is not found, otherwise
whether all is well.  (The number of bytes is that of the info block, which the record has as an `int`.) -/
def zbinaryRetrieveToFile (c : Cfg) (s : Eng) (fs : Files) (path filename : Bytes) : Option (Files × Option Bool) :=
  (zread c s (mallocAndCopyPath path)).map fun r =>
    match r with
    | none => (fs, none)
    | some R =>
      match zopenDisk fs filename 0 with
      | none => (fs, some false)
      | some fs' =>
        let w := writeBytes fs' filename 0 (intsToBytes R.v1) (toInt32 R.logicalNumber)
        (w.1, some (decide (0 ≤ w.2)))

end Hec
