/-!
Model of the write buffer: zputBuff.c, zgetBuff.c, zflushBuffers.c and zwriteEOFandFlush.c.

The disk is an array of 32-bit words; addresses are numbers of 64-bit words, so address `a` is word
`2 * a`.  Simplifications: disk errors do not occur, and reading beyond the end of the file gives
whatever the array holds.
-/
namespace Hec

/-- bufferControl[BUFF_STAT]: zdssVals.h:71-73. -/
inductive BufStat where | unused | notDirty | dirty
deriving DecidableEq, Repr

/-- The disk, bufferControl and the buffer. -/
structure BufState where
  disk : Nat → Int
  /-- kfileSize, in 64-bit words -/
  fileSize : Nat
  /-- BUFF_SIZE -/
  size : Nat
  stat : BufStat
  /-- BUFF_ADDRESS -/
  addr : Nat
  /-- BUFF_INTS_USED -/
  used : Nat
  buf : Nat → Int

/-- numberLongsInInts: 64-bit words that hold `n` 32-bit words. -/
def bufLongs (n : Nat) : Nat := (n + 1) / 2

/-- The array after copying `l` to it from position `p`. -/
def copyAt (m : Nat → Int) (p : Nat) (l : List Int) : Nat → Int :=
  fun i => if p ≤ i ∧ i < p + l.length then l.getD (i - p) 0 else m i

/-- `n` words of the array from position `p`. -/
def wordsAt (m : Nat → Int) (p n : Nat) : List Int := (List.range n).map fun i => m (p + i)

/-- zput at an address (zput.c:61-156). -/
def BufState.zput (s : BufState) (a : Nat) (l : List Int) : BufState :=
  { s with disk := copyAt s.disk (2 * a) l }

/-- zputBuff.c:164, zgetBuff.c:131, 232: write the used part of the buffer to disk. -/
def BufState.dump (s : BufState) : BufState :=
  { s.zput s.addr (wordsAt s.buf 0 s.used) with stat := .notDirty }

/-- zputBuff.c:128-176: the first part, buffer in use. -/
def putFirst (s : BufState) (a : Nat) (l : List Int) : BufState :=
  if s.stat = .unused then s
  else if a ≥ s.addr ∧ a + bufLongs l.length ≤ s.addr + bufLongs s.size then
    let ipos := 2 * (a - s.addr)
    { s with buf := copyAt s.buf ipos l, stat := .dirty, used := max s.used (ipos + l.length) }
  else { (if s.stat = .dirty then s.dump else s) with stat := .notDirty }

/-- zputBuff.c:94-223. `flush`: BUFF_WRITE_FLUSH instead of BUFF_WRITE. -/
def putBuff (s : BufState) (a : Nat) (l : List Int) (flush : Bool) : BufState :=
  let s1 := putFirst s a l
  if s1.stat ≠ .dirty ∧ l.length ≥ s1.size then s1.zput a l
  else
    let s2 := if s1.stat ≠ .dirty then
        { s1 with buf := copyAt s1.buf 0 l, stat := .dirty, addr := a, used := l.length }
      else s1
    if flush ∧ s2.stat = .dirty then s2.dump else s2

/-- zflushBuffers.c:53-65. -/
def flushBuffers (s : BufState) : BufState := putBuff s 0 [] true

/-- zgetBuff.c:98-121, 145-190: BUFF_LOAD of `n` 32-bit words. -/
def loadBuff (s : BufState) (a n : Nat) : BufState :=
  let s1 := if s.stat = .dirty then s.dump else s
  if s1.stat = .unused ∨ s1.addr ≠ a ∨ s1.used < n then
    if s1.size = 0 then s1
    else
      let n1 := min n s1.size
      let n2 := if a + bufLongs n1 > s1.fileSize then 2 * (a + bufLongs n1 - s1.fileSize) else n1
      { s1 with stat := .notDirty, addr := a, used := n2, buf := copyAt s1.buf 0 (wordsAt s1.disk (2 * a) n2) }
  else s1

/-- zgetBuff.c:98-142, 191-253: BUFF_READ of `n` 32-bit words. -/
def readBuff (s : BufState) (a n : Nat) : BufState × List Int :=
  if s.stat = .unused then (s, wordsAt s.disk (2 * a) n)
  else if n > s.size then
    let s1 := if s.stat = .dirty then s.dump else s
    (s1, wordsAt s1.disk (2 * a) n)
  else if a ≥ s.addr ∧ a + bufLongs n ≤ s.addr + bufLongs s.used then
    (s, wordsAt s.buf (2 * (a - s.addr)) n)
  else
    let s1 := if s.stat = .dirty ∧ ¬(a > s.addr + bufLongs s.used ∨ a + bufLongs n < s.addr) then s.dump else s
    (s1, wordsAt s1.disk (2 * a) n)

/-- BUFF_NO_ACTION: zputBuff.c:113-116. -/
def putDirect (s : BufState) (a : Nat) (l : List Int) : BufState := s.zput a l

/-- BUFF_NO_ACTION: zgetBuff.c:118-121. -/
def getDirect (s : BufState) (a n : Nat) : List Int := wordsAt s.disk (2 * a) n

end Hec
