import Verif.Spec.Paired
import Verif.Spec.Location
import Verif.Model.Api
/-! Memory that the caller of the public interface gives for results. -/
namespace Spec
open Hec Hec.Spec

/-- Bytes 1 to 127. -/
def Ascii (s : Bytes) : Prop := ∀ b ∈ s, 1 ≤ b.toNat ∧ b.toNat ≤ 127

/-- The last byte is not a blank. -/
def NoBlankEnd (s : Bytes) : Prop := s.getLast? ≠ some 32

/-- Memory after `x` was written to its beginning. -/
def written {α : Type} (mem x : List α) : List α := x ++ mem.drop x.length

/-- Memory after the string `s` was written to it, of which `size` bytes may be used: as much of the string as there is
room for, and a zero byte. -/
def shownIn (mem : Bytes) (size : Nat) (s : Bytes) : Bytes := if size = 0 then mem else written mem (s.take (size - 1) ++ [0])

/-- The same for a string that may be missing: then nothing is written. -/
def shownOpt (mem : Bytes) (size : Nat) : Option Bytes → Bytes
  | none => mem
  | some s => shownIn mem size s

/-- The lengths given for strings are not longer than the memory, and those for numbers are the ones needed for `n`
ordinates and `m` curves. -/
structure PdRoom (b : PdBuffers) (l : PdLengths) (n m : Nat) : Prop where
  ords : l.ords = n ∧ n ≤ b.ords.length
  vals : l.vals = (m * n : Nat) ∧ m * n ≤ b.vals.length
  strings : ∀ x ∈ [(b.unitsI, l.unitsI), (b.typeI, l.typeI), (b.unitsD, l.unitsD), (b.typeD, l.typeD), (b.labels, l.labels), (b.zone, l.zone)],
    0 ≤ x.2 ∧ x.2 ≤ x.1.length

/-- Nothing was written behind the first `n`. -/
def KeepsBehind {α : Type} (n : Nat) (mem mem' : List α) : Prop := mem'.length = mem.length ∧ mem'.drop n = mem.drop n

/-- The string `x` with its zero byte is in memory at `pos`. -/
def StringAt (mem : Bytes) (pos : Nat) (x : Bytes) : Prop := (mem.drop pos).take (x.length + 1) = x ++ [0]

end Spec
