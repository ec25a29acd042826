import Verif.Model.Buffer
/-! The reference: the same requests made directly on an array of words. -/
namespace Spec
open Hec

/-- A request. -/
inductive BOp where
  /-- write words through the buffer, and flush it or not -/
  | put (a : Nat) (l : List Int) (flush : Bool)
  /-- write past the buffer -/
  | direct (a : Nat) (l : List Int)
  /-- read through the buffer -/
  | read (a n : Nat)
  /-- read past the buffer -/
  | readDirect (a n : Nat)
  /-- load the buffer -/
  | load (a n : Nat)
  | flush

/-- The buffered file: new state and what was read. -/
def bStep (s : BufState) : BOp → BufState × List Int
  | .put a l f => (putBuff s a l f, [])
  | .direct a l => (putDirect s a l, [])
  | .read a n => readBuff s a n
  | .readDirect a n => (s, getDirect s a n)
  | .load a n => (loadBuff s a n, [])
  | .flush => (flushBuffers s, [])

/-- The reference: an array of words without any buffer. -/
def rStep (m : Nat → Int) : BOp → (Nat → Int) × List Int
  | .put a l _ => (fun i => if 2 * a ≤ i ∧ i < 2 * a + l.length then l.getD (i - 2 * a) 0 else m i, [])
  | .direct a l => (fun i => if 2 * a ≤ i ∧ i < 2 * a + l.length then l.getD (i - 2 * a) 0 else m i, [])
  | .read a n => (m, (List.range n).map fun i => m (2 * a + i))
  | .readDirect a n => (m, (List.range n).map fun i => m (2 * a + i))
  | .load _ _ => (m, [])
  | .flush => (m, [])

def bRun : BufState → List BOp → BufState × List (List Int)
  | s, [] => (s, [])
  | s, o :: os => let r := bStep s o; let t := bRun r.1 os; (t.1, r.2 :: t.2)

def rRun : (Nat → Int) → List BOp → (Nat → Int) × List (List Int)
  | m, [] => (m, [])
  | m, o :: os => let r := rStep m o; let t := rRun r.1 os; (t.1, r.2 :: t.2)

/-- Words `p .. p+n` and `q .. q+m` have none in common. -/
def clear (p n q m : Nat) : Prop := p + n ≤ q ∨ q + m ≤ p ∨ n = 0 ∨ m = 0

/-- The requests for which the buffer is not seen: a write that lands in the buffer starts at or before
the end of what the buffer holds and fits in it; a write that goes past the buffer has no word in common
with what it holds; a read served from the buffer is of words it holds; a direct read has no word in
common with unwritten contents. -/
def bOK (s : BufState) : BOp → Prop
  | .put a l _ =>
    s.stat ≠ .unused →
      (a ≥ s.addr ∧ a + bufLongs l.length ≤ s.addr + bufLongs s.size → 2 * (a - s.addr) ≤ s.used) ∧
      (¬(a ≥ s.addr ∧ a + bufLongs l.length ≤ s.addr + bufLongs s.size) → l.length ≥ s.size →
        clear (2 * a) l.length (2 * s.addr) s.used)
  | .direct a l => s.stat ≠ .unused → clear (2 * a) l.length (2 * s.addr) s.used
  | .read a n => s.stat ≠ .unused → n ≤ s.size →
      a ≥ s.addr ∧ a + bufLongs n ≤ s.addr + bufLongs s.used → 2 * (a - s.addr) + n ≤ s.used
  | .readDirect a n => s.stat = .dirty → clear (2 * a) n (2 * s.addr) s.used
  | .load _ _ => True
  | .flush => True

def bAllOK : BufState → List BOp → Prop
  | _, [] => True
  | s, o :: os => bOK s o ∧ bAllOK (bStep s o).1 os

end Spec
