import Verif.Model.Copy
/-!
hec_dss_squeeze (heclib/hecdss/hecdss.c:852-856): v6and7/zsqueeze.c, Public/zsqueeze7.c with `boolOnlyIfNeeded` 0 and
`boolInPlace` 1, Internal/copyFile.c, Utilities/getFileFromPath.c (Linux).

Simplifications, besides those of Model/Copy.lean: no other process has the file open, the disk does not fail, nobody
interrupts (`zprogress.interrupt`), names are shorter than MAX_PATH.  The sizes of the hash table and the bins (`Cfg`)
are words of the header in the code; here they go with the file.  zcheckPathnameBins (zsqueeze7.c:369) only reads; the
number of errors it returns is never an error for zisError (zisError.c:38), so the code goes on in any case.
-/
namespace Hec

/-- A file on disk: its words, and how many there are. -/
structure WFile where
  words : Disk
  size : Nat

/-- The files, by their full names. -/
abbrev Dir := Bytes → Option WFile

/-- The directory after the file `n` became `f` (`none`: unlink). -/
def Dir.set (d : Dir) (n : Bytes) (f : Option WFile) : Dir := fun m => if m = n then f else d m

/-- zpermRead.c:71-76, in the layout of `hdrWords`. -/
def readHdr (w : Disk) : Hdr := ⟨w 0, w 1, w 2, w 3, w 4, w 5, w 6, w 7, w 8⟩

/-- zopenInternal.c:240-330: an existing file is opened. -/
def WFile.open (f : WFile) : Eng := ⟨f.words, readHdr f.words, []⟩

/-- The file of a handle when all is written: the last word is the end flag behind `kfileSize` (zwriteEOF.c:53-54). -/
def Eng.image (s : Eng) : WFile := ⟨s.disk, s.hdr.fileSize + 1⟩

/-- The part behind the last byte `b`, if there is one (strrchr). -/
def behindLast (b : UInt8) (p : Bytes) : Bytes := (p.reverse.takeWhile (fun x => x != b)).reverse

/-- getFileFromPath.c:43-47. -/
def getFileFromPath (p : Bytes) : Bytes := behindLast 92 (behindLast 47 p)

/-- "/tmp/" -/
def TEMP_DIR : Bytes := [47, 116, 109, 112, 47]
/-- "_squ.dss" -/
def TEMP_SUFFIX : Bytes := [95, 115, 113, 117, 46, 100, 115, 115]

/-- zsqueeze7.c:196-210. -/
def tempName (main : Bytes) : Bytes :=
  let t := TEMP_DIR ++ getFileFromPath main
  t.take (t.length - 4) ++ TEMP_SUFFIX

/-- copyFile.c:50: the words of a piece. -/
def PIECE : Nat := 32768

/-- copyFile.c:63 with zreaddisk.c: the array after reading a piece at `a`.  Behind the end of the file it stays as it was
(the status is not looked at, copyFile.c:64-65). -/
def readPiece (f : WFile) (a : Nat) (space : Nat → Nat) : Nat → Nat := fun i => if a + i < f.size then f.words (a + i) else space i

/-- copyFile.c:68-73: the words of the last piece, up to the first that is the end flag.  `n` words are left from `j`. -/
def untilEnd (space : Nat → Nat) : Nat → Nat → Nat
  | 0, j => j
  | n + 1, j => if space j = DSS_END_FILE_FLAG then j + 1 else untilEnd space n (j + 1)

/-- zwritedisk.c: `n` words at `a`. -/
def WFile.write (f : WFile) (a n : Nat) (space : Nat → Nat) : WFile := ⟨Wr.apply ⟨a, n, space⟩ f.words, max f.size (a + n)⟩

/-- copyFile.c:62-83: the states of the file `to` after each write; `n` pieces are left from `a`. -/
def copyPieces (src : WFile) : Nat → Nat → (Nat → Nat) → WFile → List WFile
  | 0, _, _, _ => []
  | n + 1, a, space, to =>
    let space := readPiece src a space
    let k := if n = 0 then untilEnd space PIECE 0 else PIECE
    to.write a k space :: copyPieces src n (a + PIECE) space (to.write a k space)

/-- copyFile.c:55-85; `fileSize` is in the header of the file `src`. -/
def copyFile (src : WFile) (fileSize : Nat) (space : Nat → Nat) (to : WFile) : List WFile :=
  copyPieces src (fileSize / PIECE + 1) 0 space to

/-- zsqueeze7.c:415-420: ftruncate. -/
def EMPTY_FILE : WFile := ⟨fun _ => 0, 0⟩

/-- What a squeeze does: the states of the directory, in their order, and whether it succeeds. -/
structure Squeezed where
  states : List Dir
  ok : Bool

/-- zsqueeze.c:49-95 and zsqueeze7.c:77-573 for the file `main`.  `cd`, `t0`: the new file that zopenInternal makes (line 296);
`space`: the local array of copyFile.  If the copy fails, the states in which the temporary file is partly written are
left out: the file `main` is the same in all of them. -/
def zsqueeze (cd : Cfg) (t0 : Eng) (env : CopyEnv) (space : Nat → Nat) (main : Bytes) (dir : Dir) : Squeezed :=
  match dir main with
  | none => ⟨[dir], false⟩
  | some f =>
    let temp := tempName main
    -- line 218
    let d1 := dir.set temp none
    -- lines 296-317
    match zcopyFile cd env f.open t0 with
    | none => ⟨[dir, d1], false⟩
    | some t =>
      let ws := t.log.drop t0.log.length
      let writing := (List.range (ws.length + 1)).map fun k => d1.set temp (some ⟨applyLog t0.disk (ws.take k), t.hdr.fileSize + 1⟩)
      let full := d1.set temp (some t.image)
      -- lines 415-442
      let pieces := (copyFile t.image t.hdr.fileSize space EMPTY_FILE).map fun g => full.set main (some g)
      let last := (pieces.getLast?).getD full
      -- line 497
      ⟨dir :: d1 :: writing ++ [full, full.set main (some EMPTY_FILE)] ++ pieces ++ [last.set temp none], true⟩

end Hec
