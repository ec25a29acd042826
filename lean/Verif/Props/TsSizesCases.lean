import Verif.Props.TsSizes
import Verif.Props.TsFailures
/-! C74: cases and violations. -/
namespace Hec
set_option synthInstance.maxSize 1000
set_option synthInstance.maxHeartbeats 200000
open _root_.Spec (join RegInterval PathFor NamesSeries ItsPathFor IsPart Printable)

/-- `/A/B/FLOW/2019/1Month/F/` -/
def runoffExact : Bytes := join [[65], [66], [70, 76, 79, 87], [50, 48, 49, 57], [49, 77, 111, 110, 116, 104], [70]]
/-- `/A/B/FLOW/2019/~1Day/F/` -/
def springExact : Bytes := join [[65], [66], [70, 76, 79, 87], [50, 48, 49, 57], [126, 49, 68, 97, 121], [70]]

/-- The hypotheses of C74_regular_partial are met: the three months of `runoffs`. -/
theorem runoff_sizes : ∃ s n quality rounds, (∀ fuel : Nat, rounds ≤ fuel → hecTsGetSizes tiny.1 aTsMem runoffExact nov30 midnight feb29 midnight s fuel = some (.ok n quality)) ∧ 3 ≤ n := by
  obtain ⟨past, s, h⟩ := runoff_history
  obtain ⟨n, quality, rounds, h1, h2, _⟩ := C74_regular_partial (mul := id) tiny_good doubleCfg_ok (r := .period .month) trivial runoff_name h (a := 12 * 2019 + 10) (b := 12 * 2020 + 1)
    (by show (100 : Int) ≤ _; decide) (by decide) (by decide +kernel) aTsMem_ok (path := runoffExact)
    ⟨[50, 48, 49, 57], [49, 77, 111, 110, 116, 104], rfl, by unfold IsPart; decide, by unfold IsPart; decide, by unfold Printable; decide, by unfold Printable; decide, by decide, by decide, by decide,
      by decide +kernel, by decide⟩ ⟨[50, 48, 49, 57], by unfold IsPart; decide, rfl, by decide⟩ nov_text feb_text (by decide +kernel)
  refine ⟨s, n, quality, rounds, h1, Int.le_trans ?_ h2⟩
  decide +kernel

/-- And those of C74_irregular_partial. -/
theorem spring_sizes : ∃ s n quality rounds, (∀ fuel : Nat, rounds ≤ fuel → hecTsGetSizes tiny.1 aTsMem springExact nov30 midnight feb29 midnight s fuel = some (.ok n quality)) ∧ 2 ≤ n := by
  obtain ⟨past, s, h⟩ := spring_history
  obtain ⟨n, quality, rounds, h1, h2, _⟩ := C74_irregular_partial (mul := id) tiny_good .year springCfg_ok spring_name h (ta := (julianOf ⟨2019, 11, 30⟩, 86400)) (tb := (julianOf ⟨2020, 2, 29⟩, 86400))
    (by decide +kernel) (by decide) aTsMem_ok (path := springExact)
    ⟨[50, 48, 49, 57], [126, 49, 68, 97, 121], [49, 68, 97, 121], rfl, by unfold IsPart; decide, by unfold IsPart; decide, by unfold Printable; decide, by unfold Printable; decide,
      by decide, by decide, by decide, by decide +kernel, by decide, by decide⟩ ⟨[50, 48, 49, 57], by unfold IsPart; decide, rfl, by decide⟩ nov_window feb_window (by decide +kernel)
  refine ⟨s, n, quality, rounds, h1, ?_⟩
  refine h2 [julianOf ⟨2019, 11, 30⟩ * 86400 + 90000, julianOf ⟨2019, 11, 30⟩ * 86400 + 41 * 86400] (by decide +kernel) ?_
  intro t ht
  rcases List.mem_cons.mp ht with rfl | ht
  · exact ⟨⟨([2, 6], []), by decide +kernel⟩, by decide +kernel⟩
  · rcases List.mem_cons.mp ht with rfl | ht
    · exact ⟨⟨([3, 7], []), by decide +kernel⟩, by decide +kernel⟩
    · cases ht

/-- And those of C74_endless_violation: `/A/B/FLOW//WHAT/F/` in a new file. -/
theorem endless_case (fuel : Nat) : hecTsGetSizes tiny.1 aTsMem (join [[65], [66], [70, 76, 79, 87], [], [87, 72, 65, 84], [70]]) nov30 midnight feb29 midnight tiny.2 fuel = some .running :=
  C74_endless_violation (mul := id) tiny_good (past := []) ⟨trivial, [], rfl⟩ ⟨rfl, by unfold IsPart; decide⟩ (by decide) (by unfold Printable; decide) (by decide) (by decide) (Or.inr (by decide +kernel)) aTsMem_ok
    ⟨86400, by decide +kernel⟩ ⟨86400, by decide +kernel⟩ fuel

/-- C74, failing part: all positions of both decades are counted, for three values stored and asked for.  With the E part in another spelling,
with which hec_dss_tsStoreRegular stored the values and hec_dss_tsRetrieve finds them, the call is a success with no values. -/
theorem C74_spelling_violation :
    ((hecTsStoreRegular tiny.1 doubleCfg aTsEnv aTsMem runoffPath nov30 midnight runoffs.values cfs instVal [] 0 tiny.2).bind fun p =>
      (hecTsGetSizes tiny.1 aTsMem runoffExact nov30 midnight feb29 midnight p.1 5).bind fun x => (hecTsGetSizes tiny.1 aTsMem runoffPath nov30 midnight feb29 midnight p.1 5).map fun y => (x, y)) =
    some (.ok 240 0, .ok 0 0) := by
  decide +kernel

/-- 31Dec2050 -/
def dec50 : Bytes := [51, 49, 68, 101, 99, 50, 48, 53, 48]

/-- C74, failing part: from February 2020 to December 2050 there are 371 positions, for each of which hec_dss_tsRetrieve gives a value or the missing
value (C66), but the number is that of the decade of 2020 alone. -/
theorem C74_absent_block_violation :
    ((hecTsStoreRegular tiny.1 doubleCfg aTsEnv aTsMem runoffPath nov30 midnight runoffs.values cfs instVal [] 0 tiny.2).bind fun p =>
      hecTsGetSizes tiny.1 aTsMem runoffExact feb29 midnight dec50 midnight p.1 5) = some (.ok 120 0) := by
  decide +kernel

/-- C74, failing part: a window that ends before it starts.  In one block, all its values are counted; in different blocks, the result is that of a
variable that was not set. -/
theorem C74_reversed_violation :
    ((hecTsStoreRegular tiny.1 doubleCfg aTsEnv aTsMem runoffPath nov30 midnight runoffs.values cfs instVal [] 0 tiny.2).bind fun p =>
      (hecTsGetSizes tiny.1 aTsMem runoffExact feb29 midnight feb29 [48, 49, 48, 48] p.1 5).bind fun x =>
        (hecTsGetSizes tiny.1 { aTsMem with junk := 7 } runoffExact feb29 midnight nov30 midnight p.1 5).bind fun y =>
          (hecTsGetSizes tiny.1 { aTsMem with junk := -7 } runoffExact feb29 midnight nov30 midnight p.1 5).map fun z => (x, y, z)) =
    some (.ok 120 0, .ok 0 0, .failed) := by
  decide +kernel

end Hec
