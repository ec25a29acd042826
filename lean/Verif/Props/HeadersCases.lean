import Verif.Props.Headers
/-! Concrete cases for C51: the hypotheses are met, and what happens outside of them. -/
namespace Hec
open _root_.Spec (trim shown rtrim cells NoZero setField strings)

def exTs : TsStrings := ⟨false, some [67, 70, 83, 32], none, none, some [73, 78, 83, 84, 45, 86, 65, 76], none⟩
def exProfile : TsStrings := ⟨true, none, some [109], some [32, 67], some [73, 78, 83, 84], some [85, 84, 67]⟩
def noField : Field := ⟨none, false⟩
def noHead : TsHead := ⟨0, 0, 0, noField, noField, noField, noField, noField⟩
def okAnd {α : Type} (o : Option α) (p : α → Bool) : Bool := match o with | some x => p x | none => false

/-- The hypotheses of C51_time_series_partial are met by a series and by a profile. -/
example : (∀ s ∈ strings exTs, NoZero s) ∧ ((strings exTs).map cells).sum = 32 ∧ (intAt (List.replicate 400 0) 3 = 0 ↔ exTs.profile = false) := by
  refine ⟨?_, by decide +kernel, by decide +kernel⟩
  unfold NoZero; decide +kernel
example : (∀ s ∈ strings exProfile, NoZero s) ∧ ((strings exProfile).map cells).sum = 32 ∧
    (intAt (List.replicate 12 0 ++ [1] ++ List.replicate 387 0) 3 = 0 ↔ exProfile.profile = false) := by
  refine ⟨?_, by decide +kernel, by decide +kernel⟩
  unfold NoZero; decide +kernel

/-- Stored and read: the units lose the blank, the missing time zone stays missing, other bytes in the arrays do no harm. -/
example : okAnd ((ztsInternalHeaderPack exTs (List.replicate 300 7) (List.replicate 400 0)).bind fun p =>
      ztsInternalHeaderUnpack noHead p.1 p.2 (List.replicate 200 9))
    (fun t => decide (t = { noHead with units := ⟨some [67, 70, 83], true⟩, type := ⟨some [73, 78, 83, 84, 45, 86, 65, 76], true⟩ })) = true := by
  decide +kernel

/-- The hypotheses of C51_paired_data_partial are met. -/
example : (∀ s ∈ [some [70, 84], some [76, 73, 78], some [67, 70, 83], none, some [32]], NoZero s) ∧
    ([some [70, 84], some [76, 73, 78], some [67, 70, 83], none, some [32]].map cells).sum = 40 := by
  refine ⟨?_, by decide +kernel⟩
  unfold NoZero; decide +kernel

/-- An old header: `CFS`, `INST-VAL`, `UTC` behind 17 ints. -/
def oldHdr : Bytes := List.replicate 68 0 ++ ([67, 70, 83] ++ 0 :: ([73, 78, 83, 84] ++ 0 :: ([85, 84, 67] ++ 0 :: [0, 0, 0])))

example : (oldHdr.drop 68).take ((21 - 17) * 4) = [67, 70, 83] ++ 0 :: ([73, 78, 83, 84] ++ 0 :: ([85, 84, 67] ++ 0 :: [0, 0, 0])) ∧ intAt oldHdr 3 = 0 ∧
    (([[67, 70, 83], [73, 78, 83, 84], [85, 84, 67]].map fun s => cells (shown (some s)))).sum = 24 := by decide +kernel

/-- Strings that need between 201 and 297 bytes are stored, but reading them goes outside the array of 200 bytes. -/
theorem C51_read_outside_violation : okAnd (ztsInternalHeaderPack ⟨false, some (List.replicate 191 70), none, none, some [73], some [85]⟩ (List.replicate 300 0) (List.replicate 400 0))
    (fun p => decide (ztsInternalHeaderUnpack noHead p.1 p.2 (List.replicate 200 0) = none)) = true := by decide +kernel

/-- Strings that need 298 bytes or more: none of them is stored, not even the units, and no error is reported. -/
theorem C51_all_lost_violation : okAnd (ztsInternalHeaderPack ⟨false, some [67, 70, 83], none, none, some [73], some (List.replicate 290 65)⟩ (List.replicate 300 0) (List.replicate 400 0))
    (fun p => decide (p = (List.replicate 400 0, 75))) = true := by decide +kernel

/-- Paired data: strings that need 398 bytes or more are all lost as well. -/
theorem C51_paired_lost_violation : okAnd (zpdUnitsToHead [some [70, 84], some [76], some [67], some [76], some (List.replicate 366 65)] (List.replicate 400 0) (List.replicate 480 0) 120)
    (fun p => decide (p = (List.replicate 480 0, 100))) = true := by decide +kernel

/-- For a profile, units of the depths of 296 characters are written outside the array: the size that is left, a negative
number, is taken as unsigned. -/
theorem C51_profile_overflow_violation :
    ztsInternalHeaderPack ⟨true, none, some (List.replicate 296 70), some [67, 70, 83], none, none⟩ (List.replicate 300 0) (List.replicate 400 0) = none := by
  decide +kernel

/-- An old header with an empty type: the original has a time zone, its copy has none. -/
theorem C51_copy_loses_zone_violation :
    okAnd (ztsInternalHeaderUnpack noHead (List.replicate 68 0 ++ [67, 70, 83, 0, 0, 85, 84, 67, 0, 0, 0, 0]) 20 (List.replicate 200 0))
      (fun t => decide (t.zone = ⟨some [85, 84, 67], true⟩)) = true ∧
    okAnd ((convertHeader 100 (List.replicate 68 0 ++ [67, 70, 83, 0, 0, 85, 84, 67, 0, 0, 0, 0]) 20 (List.replicate 200 0)).bind fun p =>
        ztsInternalHeaderUnpack noHead p.1 p.2 (List.replicate 200 0))
      (fun t => decide (t.units = ⟨some [67, 70, 83], true⟩ ∧ t.zone = noField)) = true := by decide +kernel

/-- An old header of a profile (it has four strings): its copy has no time zone. -/
theorem C51_copy_profile_violation :
    okAnd (ztsInternalHeaderUnpack noHead (List.replicate 12 0 ++ [1] ++ List.replicate 55 0 ++ [109, 0, 67, 0, 73, 0, 85, 0]) 19 (List.replicate 200 0))
      (fun t => decide (t.zone = ⟨some [85], true⟩)) = true ∧
    okAnd ((convertHeader 100 (List.replicate 12 0 ++ [1] ++ List.replicate 55 0 ++ [109, 0, 67, 0, 73, 0, 85, 0]) 19 (List.replicate 200 0)).bind fun p =>
        ztsInternalHeaderUnpack noHead p.1 p.2 (List.replicate 200 0))
      (fun t => decide (t.type = ⟨some [73], true⟩ ∧ t.zone = noField)) = true := by decide +kernel

end Hec
