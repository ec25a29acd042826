import Verif.Model.TextFile
/-!
Names of DSS files and opening them: System/zfileName.c, System/zopendisk.c, Internal/zopenInternal.c, Internal/zpermRead.c,
Public/zgetFileVersion.c, on Linux (little endian), with message levels that print nothing.

Contents of files are bytes here.  Left out: memory that is exhausted, read errors of the disk, other programs that change
the file while it is opened, the locks (zopenInternal.c:373-390, in Model/Locks.lean; they write nothing here).
-/
namespace Hec

/-- ".dss" -/
def DOT_DSS : Bytes := [46, 100, 115, 115]
/-- ".ds-" -/
def DOT_DS : Bytes := [46, 100, 115, 45]

/-- tolower of the C library (in the C locale). -/
def tolower (c : UInt8) : UInt8 := if 65 ≤ c ∧ c ≤ 90 then c + 32 else c

/-- zfileName.c:77-109: the name of the file, MAX_FILENAME_LENGTH being 1024.  `none`: line 81 reads in front of an empty
string.  (If only a quote is left, `len` at line 99 is the greatest number, and nothing is there to be copied.) -/
def dssName (f : Bytes) : Option Bytes :=
  if f.length = 0 then none
  else
    let len := if f.getLast? = some 34 then f.length - 1 else f.length
    let extension := ((f.drop (len - 4)).take 4).map tolower
    let found := decide (4 < len) && (decide (extension = DOT_DSS) || decide (extension = DOT_DS))
    let name := if f.head? = some 34 then (f.drop 1).take (min (len - 1) 1023) else f.take (min len 1023)
    some (if found then name else stringCat 1024 name DOT_DSS 4)

/-- What the program can see of the computer: the files by their full names; `realpath` of the C library; what may be done
with a file (0: read and write, 1: read, 2: nothing); whether `open` with the flags of zopendisk.c succeeds. -/
structure Place where
  files : Files
  real : Bytes → Option Bytes
  permission : Bytes → Nat
  opens : Bytes → Nat → Bool

/-- zfileName.c:155-200: full name, permission, and whether the file exists and is not empty. -/
def zfileName (p : Place) (f : Bytes) : Option (Bytes × Nat × Bool) :=
  (dssName f).map fun name =>
    let full := (match p.real name with | none => name | some r => r).take 1023
    match p.files full with
    | none => (full, 0, false)
    | some content => (full, p.permission full, decide (0 < content.length))

/-- The word at a position, little endian. -/
def wordAt (b : Bytes) (i : Nat) : Nat := ((b.drop (8 * i)).take 8).foldr (fun x n => x.toNat + 256 * n) 0

/-- "ZDSS" -/
def ZDSS : Bytes := [90, 68, 83, 83]

/-- What `zopen` comes to. -/
inductive OpenRes where
  | refused
  | created
  | opened
deriving DecidableEq

/-- A word as `long long`. -/
def asLong (w : Nat) : Int := if w < 2 ^ 63 then w else (w : Int) - 2 ^ 64

/-- zpermRead.c:60-96 for a file of this content, with zmemoryGet.c:66 and zget.c:81-104.  `headSize` is the word with
the size of the file header, 0 if it was not read.  `none`: an access outside of the memory for it (zget.c:81,
zpermRead.c:78), which has a word more that holds a key; or a sum that is no `int`. -/
def zpermReadOk (content : Bytes) (headSize : Nat) : Option Bool :=
  let size : Int := if headSize = 0 then 100 else toInt32 headSize
  if 2 ^ 31 - 3 ≤ size then none
  else if size + 3 < 0 then some false
  else if size < 5 then none
  else if 10000000 < 2 * size then some false
  else if (content.length : Int) < 8 * size then some false
  else if size < 99 then none
  else if size = 99 then some false
  else some (decide (asLong (wordAt content 99) = -97531) && decide (20 ≤ asLong (wordAt content 23)) &&
    decide (asLong (wordAt content 23) ≤ 1000))

/-- zopenInternal.c:240-329: the file is an accepted DSS file. -/
def acceptFile (content : Bytes) : Option Bool :=
  if content.length < 32 then zpermReadOk content 0
  else if content.take 4 ≠ ZDSS then some false
  else if (content.drop 16).take 1 ≠ [55] then some false
  else zpermReadOk content (wordAt content 1)

/-- zopenInternal.c:91-371: `fresh` is what zpermCreate writes.  READ_ACCESS is 1, EXCLUSIVE_ACCESS is 4.  The second try at
lines 211-216 finds the file again and is refused at line 218 since the handle is -1. -/
def zopenFile (p : Place) (fresh : Bytes) (f : Bytes) (access : Nat) : Option (Files × OpenRes) :=
  (zfileName p f).bind fun r =>
    let full := r.1
    let exists_ := r.2.2
    if r.2.1 = 2 then some (p.files, .refused)
    else if exists_ = false ∧ access = 1 then some (p.files, .refused)
    else
      let access := if access ≠ 1 ∧ r.2.1 = 1 then 1 else access
      let mode := if access = 4 then 10 else if access = 1 then 0 else if exists_ then 2 else 10
      if p.opens full mode = false then some (p.files, .refused)
      else match zopenDisk p.files full mode with
        | none => some (p.files, .refused)
        | some fs =>
          if exists_ then (acceptFile ((p.files full).getD [])).map fun ok => (fs, if ok then .opened else .refused)
          else if openFlags mode % 4 = 0 then some (fs, .refused)
          else some (fs.put full fresh, .created)

/-- zgetFileVersion.c:38-117. -/
def zgetFileVersion (p : Place) (f : Bytes) : Option Int :=
  (zfileName p f).map fun r =>
    if r.2.2 = false then 0
    else if p.opens r.1 0 = false then -3
    else
      let content := (p.files r.1).getD []
      if content.length < 32 then -4
      else if content.take 4 ≠ ZDSS then -1
      else match (content.drop 16).head? with
        | some 54 => 6
        | some 55 => 7
        | some 56 => 8
        | some 53 => 5
        | _ => -1

end Hec
