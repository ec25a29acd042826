import Verif.Model.SqueezeAdvice
/-!
C105: zsqueezeNeeded says that a file should be squeezed if much of it is wasted, and does not say so of a file that has just been squeezed.
-/
namespace Spec

/-- Enough waste: more than a quarter of the file or 400,000 words dead, more than a tenth of the file dead if that is more than 100,000 words, more
than a tenth of the records or 1,000 of them deleted, or renamed, an error, more than a tenth of the file or 50,000 words reclaimed. -/
def MuchWaste (f : Hec.FileUse) : Prop :=
  4 * f.dead > f.fileSize ∨ f.dead > 400000 ∨ (10 * f.dead > f.fileSize ∧ f.dead > 100000) ∨
  10 * f.deletes > f.records ∨ f.deletes > 1000 ∨ 10 * f.renames > f.records ∨ f.renames > 1000 ∨
  f.errors ≠ 0 ∨ 10 * f.reclaimed > f.fileSize ∨ f.reclaimed > 50000

/-- `g` is `f` with more waste, in a file with the same records and of the same size. -/
def MoreWaste (f g : Hec.FileUse) : Prop :=
  g.fileSize = f.fileSize ∧ g.records = f.records ∧ g.maxHash = f.maxHash ∧ g.hashesUsed = f.hashesUsed ∧
  f.dead ≤ g.dead ∧ f.reclaimed ≤ g.reclaimed ∧ f.deletes ≤ g.deletes ∧ f.renames ≤ g.renames ∧ f.errors ≤ g.errors

/-- `f` is a file written anew, with `n` records, nothing dead, deleted, renamed or reclaimed; zsqueeze7 (lines 117-118, 296) makes its table as
large as znewFileSize says for the number of pathnames the file was made for, `expected`, or if that was not given for the records it has, and no more
hash codes are in use than there are. -/
def Squeezed (f : Hec.FileUse) (n expected : Nat) : Prop :=
  f.records = n ∧ f.dead = 0 ∧ f.reclaimed = 0 ∧ f.deletes = 0 ∧ f.renames = 0 ∧ f.errors = 0 ∧
  (f.maxHash : Int) = (Hec.znewFileSize (if expected = 0 then n else expected : Nat) 0 0 false).1 ∧ f.hashesUsed ≤ f.maxHash

end Spec

namespace Hec
open Spec

theorem crowded_iff (f : FileUse) : crowdedTable f = true ↔
    (f.records > 10 * f.hashesUsed ∧ (f.maxHash ≤ 35000 ∨ f.dead ≥ 10000 ∨ (f.records > 1000000 ∧ f.maxHash < 50000))) := by
  unfold crowdedTable
  by_cases h1 : overRatio f.records (f.hashesUsed * 10) 1 1 = true
  · have h1' : f.records > 10 * f.hashesUsed := by simp only [overRatio, decide_eq_true_eq] at h1; omega
    rw [if_pos h1]
    by_cases h2 : f.maxHash > 35000 ∧ f.dead < 10000
    · rw [if_pos h2, decide_eq_true_eq]; omega
    · rw [if_neg h2]
      exact ⟨fun _ => by omega, fun _ => rfl⟩
  · have h1' : ¬ f.records > 10 * f.hashesUsed := by simp only [overRatio, decide_eq_true_eq] at h1; omega
    rw [if_neg h1]
    exact ⟨fun h => by simp at h, fun h => absurd h.1 h1'⟩

/-- The whole meaning of the answer: much waste, or more than ten records for each hash code in use in a table that a squeeze would make larger. -/
theorem C105_answer (f : FileUse) :
    (squeezeNeeded f).1 = true ↔
      MuchWaste f ∨
        (f.records > 10 * f.hashesUsed ∧
          (f.maxHash ≤ 35000 ∨ f.dead ≥ 10000 ∨ (f.records > 1000000 ∧ f.maxHash < 50000))) := by
  have hc := crowded_iff f
  simp only [squeezeNeeded, deadSpace, manyChanges, muchReclaimed, overRatio, MuchWaste, Bool.or_eq_true, Bool.and_eq_true, decide_eq_true_eq,
    ne_eq, hc]
  omega

/-- Enough waste: yes. -/
theorem C105_waste (f : FileUse) (h : MuchWaste f) : (squeezeNeeded f).1 = true := (C105_answer f).2 (Or.inl h)

example : MuchWaste ⟨1000, 251, 0, 100, 0, 0, 8192, 100, 0⟩ := Or.inl (by decide)

/-- No waste, no crowding: no. -/
theorem C105_clean (f : FileUse) (h : ¬ MuchWaste f) (h2 : f.records ≤ 10 * f.hashesUsed) : (squeezeNeeded f).1 = false := by
  cases hb : (squeezeNeeded f).1 with
  | false => rfl
  | true => rcases (C105_answer f).1 hb with h3 | h3
            · exact absurd h3 h
            · omega

example : ¬ MuchWaste ⟨1000, 100, 100, 100, 10, 10, 8192, 90, 0⟩ := by unfold MuchWaste; decide

/-- More waste does not turn yes into no. -/
theorem C105_monotone (f g : FileUse) (h : MoreWaste f g) (hf : (squeezeNeeded f).1 = true) : (squeezeNeeded g).1 = true := by
  have hf := (C105_answer f).1 hf
  refine (C105_answer g).2 ?_
  obtain ⟨h1, h2, h3, h4, h5, h6, h7, h8, h9⟩ := h
  unfold MuchWaste at *
  rw [h1, h2, h3, h4]
  omega

/-- The log gives a reason just when the answer is yes. -/
theorem C105_reason (f : FileUse) : (squeezeNeeded f).2 ≠ 0 ↔ (squeezeNeeded f).1 = true := by
  simp only [squeezeNeeded]
  cases deadSpace f <;> cases manyChanges f <;> cases crowdedTable f <;> cases decide (f.errors ≠ 0) <;> cases muchReclaimed f <;> decide

/-- The reason is the first that applies: dead space is given for dead space. -/
theorem C105_first_reason (f : FileUse) : (squeezeNeeded f).2 = 1 ↔
    (4 * f.dead > f.fileSize ∨ f.dead > 400000 ∨ (10 * f.dead > f.fileSize ∧ f.dead > 100000)) := by
  have : deadSpace f = true ↔ (4 * f.dead > f.fileSize ∨ f.dead > 400000 ∨ (10 * f.dead > f.fileSize ∧ f.dead > 100000)) := by
    simp only [deadSpace, overRatio, Bool.or_eq_true, Bool.and_eq_true, decide_eq_true_eq]; omega
  rw [← this]
  simp only [squeezeNeeded]
  cases deadSpace f <;> cases manyChanges f <;> cases crowdedTable f <;> cases decide (f.errors ≠ 0) <;> cases muchReclaimed f <;> decide

theorem size_table (n : Nat) : (znewFileSize n 0 0 false).1 =
    if n ≤ 100000 then 8192 else if n ≤ 500000 then 16348 else if n ≤ 1000000 then 32768 else 64000 := by
  simp only [znewFileSize, Bool.false_eq_true, if_false]
  repeat' split
  all_goals first | rfl | omega

/-- **Part of C105**: a file just squeezed need not be squeezed if it has at most ten records for each hash code in use, or if its table was made for
more than a million pathnames.  Missing: the others (`C105_again_violation`, `C105_expected_violation`). -/
theorem C105_squeezed_partial (f : FileUse) (n expected : Nat) (h : Squeezed f n expected)
    (hn : n ≤ 10 * f.hashesUsed ∨ (if expected = 0 then n else expected) > 1000000) : squeezeNeeded f = (false, 0) := by
  obtain ⟨h1, h2, h3, h4, h5, h6, h7, h8⟩ := h
  rw [size_table] at h7
  have hb : (squeezeNeeded f).1 = false := by
    cases hb : (squeezeNeeded f).1 with
    | false => rfl
    | true =>
      have ha := (C105_answer f).1 hb
      unfold MuchWaste at ha
      rw [h1, h2, h3, h4, h5, h6] at ha
      exfalso
      rcases hn with hn | hn
      · omega
      · rw [if_neg (by omega), if_neg (by omega), if_neg (by omega)] at h7
        omega
  have hr : (squeezeNeeded f).2 = 0 := by
    by_cases h0 : (squeezeNeeded f).2 = 0
    · exact h0
    · exact absurd ((C105_reason f).1 h0) (by rw [hb]; decide)
  exact Prod.ext hb hr

example : Squeezed ⟨5000000, 0, 0, 40000, 0, 0, 8192, 8000, 0⟩ 40000 0 := by
  refine ⟨rfl, rfl, rfl, rfl, rfl, rfl, ?_, ?_⟩ <;> decide +kernel

/-- **C105 is false of the code**: a file of 81,921 to 100,000 records, of 163,481 to 500,000 or of 327,681 to a million, which was made without the
number of pathnames to expect, should be squeezed again at once, however its hash codes fall: the table that znewFileSize gives is too small for
zsqueezeNeeded. -/
theorem C105_again_violation (f : FileUse) (n : Nat) (h : Squeezed f n 0)
    (hn : (81920 < n ∧ n ≤ 100000) ∨ (163480 < n ∧ n ≤ 500000) ∨ (327680 < n ∧ n ≤ 1000000)) : squeezeNeeded f = (true, 3) := by
  obtain ⟨h1, h2, h3, h4, h5, h6, h7, h8⟩ := h
  rw [if_pos rfl, size_table] at h7
  have hm : n > 10 * f.hashesUsed ∧ f.maxHash ≤ 35000 := by
    split at h7
    · omega
    · split at h7
      · omega
      · split at h7 <;> omega
  have e1 : deadSpace f = false := by simp [deadSpace, overRatio, h2]
  have e2 : manyChanges f = false := by simp [manyChanges, overRatio, h4, h5]
  have e3 : crowdedTable f = true := (crowded_iff f).2 (by omega)
  simp [squeezeNeeded, e1, e2, e3]

example : Squeezed ⟨9000000, 0, 0, 90000, 0, 0, 8192, 8192, 0⟩ 90000 0 := by
  refine ⟨rfl, rfl, rfl, rfl, rfl, rfl, ?_, ?_⟩ <;> decide +kernel

/-- **C105 is false of the code**: a file made for few pathnames that has got more than 81,920 records keeps its small table when it is squeezed, and
should then be squeezed again, whatever the number of its records. -/
theorem C105_expected_violation (f : FileUse) (n expected : Nat) (h : Squeezed f n expected) (he : 0 < expected ∧ expected ≤ 100000)
    (hn : 81920 < n) : squeezeNeeded f = (true, 3) := by
  obtain ⟨h1, h2, h3, h4, h5, h6, h7, h8⟩ := h
  rw [if_neg (by omega), size_table, if_pos he.2] at h7
  have e1 : deadSpace f = false := by simp [deadSpace, overRatio, h2]
  have e2 : manyChanges f = false := by simp [manyChanges, overRatio, h4, h5]
  have e3 : crowdedTable f = true := (crowded_iff f).2 (by omega)
  simp [squeezeNeeded, e1, e2, e3]

example : Squeezed ⟨9000000, 0, 0, 2000000, 0, 0, 8192, 8192, 0⟩ 2000000 1000 := by
  refine ⟨rfl, rfl, rfl, rfl, rfl, rfl, ?_, ?_⟩ <;> decide +kernel

end Hec
