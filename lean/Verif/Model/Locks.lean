/-!
Model of the multi-user locking of a DSS 7 file: zlockActive.c, zlockPassive.c, zlockdss.c (the
Linux branch), the file header reads and writes that go with it (zpermRead.c, zpermWrite.c, the
guard of zput.c) and the lock related steps of zopenInternal.c, zcloseInternal.c and zsetFile.c.

Several handles (`ifltab`s) of several processes run concurrently.  Every event below is one step
of one handle, and any interleaving of events is a run: a call of zlockActive is a start event
followed by `adv` events, one for each system call.

Record locks are POSIX locks (lockf): they belong to the process, not to the handle.  A lock request
fails exactly if another process holds an overlapping lock; unlocking only removes locks of the
calling process; when a process ends, or closes the file, all its locks go.

Simplifications.  Files made by old versions (klockReadArrayAddress = 0, zlockingOld.c) are not
modelled.  The file header is represented by the list of updates made to it so far, and an update
is the in-memory change of the header that goes with a write of a record.  Scanning the array of
passive locks is one step.  The array of process identifiers is represented only by the fact that
the first successful lock writes to it (zpidWrite.c), which counts as a write; zpidUpdate (a write
of one word, locking and unlocking if not locked) is left out.  lockf never fails for another
reason (deadlock, no more locks).
-/
namespace Hec

/-- READ_ACCESS … RELEASE_ACCESS: hecdss7.h:30-35. -/
def accRead : Nat := 1
def accMulti : Nat := 2
def accAdvisory : Nat := 3
def accExclusive : Nat := 4
def accRelease : Nat := 6

/-- Where a handle is inside zlockActive (`idle`: not inside).  The numbers are lines of
zlockActive.c. -/
inductive LPc where
  | idle
  /-- 200: about to take a passive write lock -/
  | slot (lvl : Nat) (fl : Bool)
  /-- 207: about to look for other writers -/
  | look (lvl : Nat) (fl : Bool)
  /-- 248: exclusive mode, about to look for other users -/
  | users (lvl : Nat) (fl : Bool)
  /-- 253 or 262: about to try to lock -/
  | attempt (lvl : Nat) (fl : Bool)
  /-- 276: about to test the exclusive word -/
  | testX (lvl : Nat) (fl : Bool)
  /-- 332: about to lock, waiting if needed -/
  | wait (lvl : Nat) (fl : Bool)
  /-- 376: locked, about to read the file header -/
  | header (fl : Bool)
  /-- 384: about to record the process -/
  | record
  /-- 426: about to unlock the lock word -/
  | unlock
  /-- 404: about to unlock the lock word and the exclusive word -/
  | unlockBoth
deriving DecidableEq, Repr

/-- The part of an `ifltab` used for locking. -/
structure LHandle where
  isOpen : Bool := false
  pc : LPc := .idle
  /-- kmultiUserAccess -/
  access : Nat := 0
  /-- klocked -/
  locked : Bool := false
  /-- klockLevel -/
  level : Nat := 0
  /-- kwritingNow -/
  writing : Bool := false
  /-- klockWriteMyAddress, as an index in the array -/
  wslot : Option Nat := none
  /-- klockReadMyAddress, as an index in the array -/
  rslot : Option Nat := none
  /-- kpidMyAddress is not 0 -/
  pid : Bool := false
  /-- the copy in memory of the file header -/
  header : List Nat := []

/-- All handles, the locks the operating system holds (the number is the process), and the file. -/
structure LSys where
  h : Nat → LHandle
  /-- word klockAddressWord -/
  word : Option Nat := none
  /-- word klockExclusiveWord -/
  xword : Option Nat := none
  /-- words klockWriteArrayAddress … -/
  wslots : List (Option Nat)
  /-- words klockReadArrayAddress … -/
  rslots : List (Option Nat)
  /-- the file header on disk -/
  disk : List Nat := []

/-- lockf F_TEST / F_TLOCK: does another process hold the word? -/
def heldByOther (p : Nat) (o : Option Nat) : Bool :=
  match o with
  | none => false
  | some q => q != p

/-- lockf F_ULOCK: only the caller's own lock goes. -/
def unlockWord (p : Nat) (o : Option Nat) : Option Nat := if o = some p then none else o

/-- zlockPassive.c:187-194 and 203-210: the first word of the array that can be locked. -/
def takeSlot (p : Nat) : List (Option Nat) → Option (Nat × List (Option Nat))
  | [] => none
  | o :: os =>
    if heldByOther p o then
      match takeSlot p os with
      | none => none
      | some (i, os') => some (i + 1, o :: os')
    else some (0, some p :: os)

/-- Some word of the array with index from `i` on, other than `mine`, is held by another process:
zlockPassive.c:249-264 and 295-310 (the array is cut to `lockArraySize` words beforehand). -/
def otherFrom (p : Nat) (mine : Option Nat) : Nat → List (Option Nat) → Bool
  | _, [] => false
  | i, o :: os => (decide (mine ≠ some i) && heldByOther p o) || otherFrom p mine (i + 1) os

/-- zlockPassive.c:222-268 and 274-314, LOCKING_LOCK_TEST: is there another user?  Lines 228-229
and 279-280 shorten the array by one if our word is the first one, and lines 249 and 295 then scan
the shortened array from its start. -/
def passiveTest (p : Nat) (mine : Option Nat) (a : List (Option Nat)) : Bool :=
  if mine = some 0 then
    (a.drop 1).any (heldByOther p) && otherFrom p mine 0 (a.take (a.length - 1))
  else if mine = none then
    a.any (heldByOther p) && otherFrom p mine 0 a
  else otherFrom p mine 0 a

/-- Replace the state of handle `i`. -/
def LSys.set (s : LSys) (i : Nat) (x : LHandle) : LSys :=
  { s with h := fun j => if j = i then x else s.h j }

/-- zpermRead.c:52-58 and 71: refused while `kwritingNow` is set (zlockActive ignores that). -/
def readHeader (x : LHandle) (disk : List Nat) : LHandle :=
  if x.writing then x else { x with header := disk }

/-- `if (flush && kwritingNow) { zpermWrite; kwritingNow = 0; }`: zlockActive.c:398-402, 413-416 and
457-460.  zput.c:80 refuses to write if not locked. -/
def flushHeader (s : LSys) (i : Nat) (fl : Bool) : LSys :=
  let x := s.h i
  if fl && x.writing then
    { s.set i { x with writing := false } with disk := if x.locked then x.header else s.disk }
  else s

/-- Steps of a run; the first argument is the handle. -/
inductive LEv where
  /-- zlockActive(level, LOCKING_LOCK_ON, flush) is called -/
  | lockOn (i : Nat) (lvl : Nat) (fl : Bool)
  /-- zlockActive(level, LOCKING_LOCK_OFF, flush) is called -/
  | lockOff (i : Nat) (lvl : Nat) (fl : Bool)
  /-- the next step inside zlockActive -/
  | adv (i : Nat)
  /-- zlockActive gives up (lines 300-306, 362-366) -/
  | giveUp (i : Nat)
  /-- a record is written: zput, and the header in memory is updated -/
  | write (i : Nat) (u : Nat)
  /-- the access mode is assigned: zsetFile.c:138, zcloseInternal.c:89, zsqueeze7.c:158, 397, 460 -/
  | setAccess (i : Nat) (a : Nat)
  /-- zopen: the file is opened and its header read -/
  | openF (i : Nat) (a : Nat)
  /-- the file is closed by the process, or the process ends -/
  | die (i : Nat)
deriving DecidableEq, Repr

/-- Start of zlockActive with LOCKING_LOCK_ON: zlockActive.c:178-196 and 445-455. -/
def startOn (s : LSys) (i : Nat) (lvl : Nat) (fl : Bool) : LSys :=
  let x := s.h i
  if lvl < x.level then s
  else if accRead < x.access then s.set i { x with pc := .slot lvl fl }
  else if x.locked then s
  else
    let y := { x with locked := true }
    s.set i (if fl then readHeader y s.disk else y)

/-- Start of zlockActive with LOCKING_LOCK_OFF: zlockActive.c:178-193, 388-423 and 456-462. -/
def startOff (s : LSys) (i : Nat) (lvl : Nat) (fl : Bool) : LSys :=
  let x := s.h i
  if lvl < x.level then s
  else if accRead < x.access then
    let s := s.set i { x with level := 0 }
    if x.access = accRelease then
      let s := flushHeader s i fl
      s.set i { s.h i with pc := .unlockBoth }
    else if x.locked then
      let s := flushHeader s i fl
      if x.access = accMulti then s.set i { s.h i with pc := .unlock } else s
    else s
  else
    let s := flushHeader s i fl
    s.set i { s.h i with locked := false }

/-- zlockActive.c:369-372: locked. -/
def gotLock (x : LHandle) (lvl : Nat) (fl : Bool) : LHandle :=
  { x with locked := true, level := lvl, pc := .header fl }

/-- One step inside zlockActive of handle `i` of process `p`; `none` if it has to wait. -/
def advance (s : LSys) (i p : Nat) : Option LSys :=
  let x := s.h i
  match x.pc with
  | .idle => none
  | .slot lvl fl =>
    -- 200-202
    if x.wslot = none then
      match takeSlot p s.wslots with
      | none => some (s.set i { x with pc := .look lvl fl })
      | some (k, ws) => some { s.set i { x with pc := .look lvl fl, wslot := some k } with wslots := ws }
    else some (s.set i { x with pc := .look lvl fl })
  | .look lvl fl =>
    -- 207-219, 244-246
    let a := if x.access = accAdvisory ∧ passiveTest p x.wslot s.wslots = true then accMulti else x.access
    let pc := if x.locked then LPc.record else if a = accExclusive then LPc.users lvl fl else LPc.attempt lvl fl
    some (s.set i { x with pc := pc, access := a })
  | .users lvl fl =>
    -- 248-252
    if passiveTest p x.rslot s.rslots then some (s.set i { x with pc := .idle })
    else some (s.set i { x with pc := .attempt lvl fl })
  | .attempt lvl fl =>
    if x.access = accExclusive then
      -- 253-257
      if heldByOther p s.word || heldByOther p s.xword then some (s.set i { x with pc := .idle })
      else some { s.set i (gotLock x lvl fl) with word := some p, xword := some p }
    else
      -- 262, 273
      if heldByOther p s.word then some (s.set i { x with pc := .testX lvl fl })
      else some { s.set i (gotLock x lvl fl) with word := some p }
  | .testX lvl fl =>
    -- 276-319
    if heldByOther p s.xword then none
    else some (s.set i { x with pc := .wait lvl fl, access := if x.access = accAdvisory then accMulti else x.access })
  | .wait lvl fl =>
    -- 332
    if heldByOther p s.word then none
    else some { s.set i (gotLock x lvl fl) with word := some p }
  | .header fl =>
    -- 376-381
    let y := if fl then readHeader x s.disk else x
    some (s.set i { y with pc := .record })
  | .record =>
    -- 384-386, zpidWrite.c:100
    if x.pid then some (s.set i { x with pc := .idle })
    else some (s.set i { x with pc := .idle, pid := true, writing := true })
  | .unlock =>
    -- 426-431
    some { s.set i { x with pc := .idle, locked := false } with word := unlockWord p s.word }
  | .unlockBoth =>
    -- 404-405
    some { s.set i { x with pc := .idle, locked := false } with word := unlockWord p s.word, xword := unlockWord p s.xword }

/-- zlockActive gives up: zlockActive.c:300-306 (unlocks the exclusive word) and 362-366. -/
def giveUp (s : LSys) (i p : Nat) : Option LSys :=
  let x := s.h i
  match x.pc with
  | .testX _ _ => if heldByOther p s.xword then some { s.set i { x with pc := .idle } with xword := unlockWord p s.xword } else none
  | .wait _ _ => if heldByOther p s.word then some (s.set i { x with pc := .idle }) else none
  | _ => none

/-- zopenInternal.c:373-390; the default access is SINGLE_USER_ADVISORY_ACCESS (zinitIfltab.c). -/
def openHandle (s : LSys) (i p a : Nat) : LSys :=
  let x : LHandle := { isOpen := true, access := if a = 0 then accAdvisory else a, header := s.disk }
  if a = accExclusive then s.set i x
  else match takeSlot p s.rslots with
    | none => s.set i x
    | some (k, rs) => { s.set i { x with rslot := some k } with rslots := rs }

/-- The locks of a process go when it ends or closes the file. -/
def dieHandle (s : LSys) (i p : Nat) : LSys :=
  { s.set i {} with
    word := unlockWord p s.word, xword := unlockWord p s.xword,
    wslots := s.wslots.map (unlockWord p), rslots := s.rslots.map (unlockWord p) }

/-- One step of a run; `pr i` is the process of handle `i`.  `none`: the step is not possible. -/
def lstep (pr : Nat → Nat) (s : LSys) : LEv → Option LSys
  | .lockOn i lvl fl => if (s.h i).isOpen ∧ (s.h i).pc = .idle then some (startOn s i lvl fl) else none
  | .lockOff i lvl fl => if (s.h i).isOpen ∧ (s.h i).pc = .idle then some (startOff s i lvl fl) else none
  | .adv i => if (s.h i).isOpen then advance s i (pr i) else none
  | .giveUp i => if (s.h i).isOpen then giveUp s i (pr i) else none
  | .write i u =>
    -- zput.c:80: only when locked
    if (s.h i).isOpen ∧ (s.h i).pc = .idle ∧ (s.h i).locked then
      some (s.set i { s.h i with header := (s.h i).header ++ [u], writing := true })
    else none
  | .setAccess i a =>
    if (s.h i).isOpen ∧ (s.h i).pc = .idle then some (s.set i { s.h i with access := a }) else none
  | .openF i a => if (s.h i).isOpen then none else some (openHandle s i (pr i) a)
  | .die i => if (s.h i).isOpen then some (dieHandle s i (pr i)) else none

/-- A run: the events in order, each of them possible. -/
def lrun (pr : Nat → Nat) : LSys → List LEv → Option LSys
  | s, [] => some s
  | s, e :: es => match lstep pr s e with
    | none => none
    | some s' => lrun pr s' es

/-- A file nobody has open; `n` is klockArraySizes (DSS_LOCK_ARRAY_SIZE). -/
def lstart (n : Nat) : LSys :=
  { h := fun _ => {}, wslots := List.replicate n none, rslots := List.replicate n none }

end Hec
