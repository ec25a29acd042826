import Verif.Model.Rename
/-!
The time of the last write in the file header and in ifltab: Public/zgetLastWriteTimeFile.c, zgetMyLastWriteTime.c, and where
the times are set.  One process, and no failure of the disk: an answer of zgetLastWriteTimeFile is what the last call left in
the header (every call ends with zlockActive.c:413-416 or 457-460, zpermWrite; only after a refused write kwritingNow stays
set, zput.c:150, and then the header is not read again: zgetLastWriteTimeFile.c:47, zpermRead.c:52).
-/
namespace Hec

/-- klastWriteTime of the file header and kmyLastWriteTime of ifltab. -/
structure FileTimes where
  last : Nat
  mine : Nat

/-- zpermCreate.c:153-154: a new file, made at time `now`. -/
def newTimes (now : Nat) : FileTimes := ⟨now, now⟩

/-- zwriteNew.c:169-171 and zwriteExisting.c:185-187 (before the type of the record is looked at, 206-230). -/
def timesWrite (c : Cfg) (s : Eng) (r : Req) (_ : FileTimes) : Option FileTimes :=
  (zwrite c s r).map fun _ => ⟨r.now, r.now⟩

/-- zdeleteInternal.c:273-274: whether there was a record or not; kmyLastWriteTime is not set. -/
def timesDelete (c : Cfg) (s : Eng) (path : Bytes) (undelete : Bool) (now : Nat) (t : FileTimes) : Option FileTimes :=
  (zdeleteInternal c s path undelete).map fun _ => ⟨now, t.mine⟩

/-- zrename.c:192-233, 385-387: the times after `renameFrom c s old new r`, at the time `now`. -/
def renameTimesFrom (c : Cfg) (s : Eng) (old new : Bytes) (r : RenEnv) (now : Nat) (t : FileTimes) : Option FileTimes :=
  (zcheck c s old REC_STATUS_VALID).bind fun k =>
    if k.found = false then some t
    else (renameFrom c s old new r).map fun _ => ⟨now, now⟩

/-- zrename.c:159-182: the times after `zrenameTo c s old new r`.  `now 0` is the clock when a record is deleted, `now 1` the clock
at the end. -/
def renameTimesTo (c : Cfg) (s : Eng) (old new : Bytes) (r : RenEnv) (now : Nat → Nat) (t : FileTimes) : Option FileTimes :=
  (zcheck c s new REC_STATUS_VALID).bind fun k =>
    if k.found then
      (timesDelete c s new false (now 0) t).bind fun t1 =>
        (zdeleteInternal c s new false).bind fun q => if q.2 = .ok then renameTimesFrom c q.1 old new r (now 1) t1 else none
    else renameTimesFrom c s old new r (now 1) t

/-- zrename.c:121-157: the times after `zrename c s old new r`; in the two renames that change only letter case the clock is `now 0`, ...,
`now 3`. -/
def timesRename (c : Cfg) (s : Eng) (old new : Bytes) (r : RenEnv) (now : Nat → Nat) (t : FileTimes) : Option FileTimes :=
  if old.length = new.length ∧ zstringCompare old new old.length = true then
    (stringCopy (List.replicate 393 0) old old.length).bind fun d =>
      (zpathnameSetPart r.before d.1 r.fpart 6 r.junk).bind fun x =>
        if x.2 = true then
          (renameTimesTo c s old (cstr x.1) r now t).bind fun t1 => (zrenameTo c s old (cstr x.1) r).bind fun q =>
            if q.2 = .ok then renameTimesTo c q.1 (cstr x.1) new r (fun i => now (i + 2)) t1 else some t1
        else some t
  else renameTimesTo c s old new r now t

/-- zgetLastWriteTimeFile.c:37-58. -/
def zgetLastWriteTimeFile (t : FileTimes) : Nat := t.last

/-- zgetMyLastWriteTime.c:36-50, version 7. -/
def zgetMyLastWriteTime (t : FileTimes) : Nat := t.mine

/-- zcheckAccessReset.c:79-80: whether the process has been quiet for `quiet` milliseconds (more than none). -/
def isQuiet (t : FileTimes) (quiet now : Int) : Bool := decide (¬ ((t.mine : Int) > now - quiet))

end Hec
