import Verif.Model.Strings
/-!
Whether a file should be squeezed: heclib/heclib_c/src/Public/zsqueezeNeeded.c.  The counts are natural numbers; a quotient of two of them as doubles,
compared with 0.25, 0.1 or 1, is compared exactly (true of counts under 2^50; a quotient by 0 is then infinite, or not a number and not greater).
-/
namespace Hec

/-- The words of the file header that zsqueezeNeeded.c reads. -/
structure FileUse where
  fileSize : Nat
  dead : Nat
  reclaimed : Nat
  records : Nat
  deletes : Nat
  renames : Nat
  maxHash : Nat
  hashesUsed : Nat
  errors : Nat

/-- `(double)a / (double)b > p / q`. -/
def overRatio (a b p q : Nat) : Bool := decide (p * b < a * q)

/-- zsqueezeNeeded.c:58-61. -/
def deadSpace (f : FileUse) : Bool :=
  overRatio f.dead f.fileSize 1 4 || (overRatio f.dead f.fileSize 1 10 && decide (f.dead > 100000)) || decide (f.dead > 400000)

/-- zsqueezeNeeded.c:66-71. -/
def manyChanges (f : FileUse) : Bool :=
  overRatio f.deletes f.records 1 10 || decide (f.deletes > 1000) || overRatio f.renames f.records 1 10 || decide (f.renames > 1000)

/-- zsqueezeNeeded.c:77-86. -/
def crowdedTable (f : FileUse) : Bool :=
  if overRatio f.records (f.hashesUsed * 10) 1 1 then
    if f.maxHash > 35000 ∧ f.dead < 10000 then decide (f.records > 1000000 ∧ f.maxHash < 50000) else true
  else false

/-- zsqueezeNeeded.c:96-98. -/
def muchReclaimed (f : FileUse) : Bool := overRatio f.reclaimed f.fileSize 1 10 || decide (f.reclaimed > 50000)

/-- zsqueezeNeeded.c:36-131 of a version 7 file: the value returned, and the number of the reason in the log (0 if none; line 62, 72, 87, 92, 99). -/
def squeezeNeeded (f : FileUse) : Bool × Nat :=
  let b1 := deadSpace f
  let b2 := b1 || manyChanges f
  let b3 := b2 || crowdedTable f
  let b4 := b3 || decide (f.errors ≠ 0)
  let b5 := b4 || muchReclaimed f
  (b5, if b1 then 1 else if b2 then 2 else if b3 then 3 else if b4 then 4 else if b5 then 5 else 0)

end Hec
