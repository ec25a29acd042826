import Verif.Props.TsInfo
import Verif.Props.TsSizesCases
import Verif.Props.Paired
/-! C75: cases and violations. -/
namespace Hec
set_option synthInstance.maxSize 1000
set_option synthInstance.maxHeartbeats 200000
open _root_.Spec (join RegInterval IsPart Ascii DayOf Date shownOpt shown OldMinute)

theorem parts_not_old : (∀ e, runoff[4]? = some e → ¬ OldMinute e) ∧ ∀ e, spring[4]? = some e → ¬ OldMinute e := by
  constructor <;> intro e he
  · cases he
    rintro ⟨a, m, i, n, h, h1, h2, h3, h4⟩
    have hl := congrArg List.length h
    rcases h4 with h4 | ⟨x, y, h4, _⟩
    · simp [h4] at hl
    · subst h4; simp at hl
  · cases he
    rintro ⟨a, m, i, n, h, h1, h2, h3, h4⟩
    rcases h4 with h4 | ⟨x, y, h4, _⟩
    · have hl := congrArg List.length h
      simp [h4] at hl
    · subst h4
      simp at h
      obtain ⟨_, _, rfl, rfl, rfl⟩ := h
      exact absurd h1 (by decide)

/-- The hypotheses of C75_regular_partial are met: the decade of 2010 of `runoffs`. -/
theorem runoff_info : ∃ s, hecTsRetrieveInfo tiny.1 (List.replicate 200 8) runoff2010 (List.replicate 10 1) 10 (List.replicate 10 2) 10 s =
    some (.ok, shownOpt (List.replicate 10 1) 10 (shown (some cfs)), shownOpt (List.replicate 10 2) 10 (shown (some instVal))) := by
  obtain ⟨past, s, h⟩ := runoff_history
  have hd : DayOf julianOf (.period .month) (12 * 2019 + 10) ⟨2019, 11, 30⟩ := by unfold DayOf Date.Valid; decide +kernel
  rcases C75_regular_partial (mul := id) tiny_good doubleCfg_ok (r := .period .month) trivial runoff_name.six runoff_name.fits parts_not_old.1 h
    (units := cfs) (type := instVal) (zone := []) (by unfold Ascii; decide) (by unfold Ascii; decide) (by simp [RegInterval.secs, _root_.Spec.Period.secs]) (a0 := 12 * 2019 + 10) (by show (100 : Int) ≤ _; decide)
    hd (by decide +kernel) (p := runoff2010) ⟨[48, 49, 74, 97, 110, 50, 48, 49, 48], by decide +kernel, rfl⟩ (carray := List.replicate 200 8) List.length_replicate
    (unitsBuf := List.replicate 10 1) (typeBuf := List.replicate 10 2) (unitsSize := 10) (typeSize := 10) (by decide) (by decide) with ⟨_, hno⟩ | hok
  · have := hno (12 * 2019 + 10) (by show (100 : Int) ≤ _; decide) ⟨_, _, hd, hd, rfl⟩
    exact absurd this (by decide +kernel)
  · exact ⟨s, hok⟩

/-- And those of C75_irregular_partial: 2020. -/
theorem spring_info : ∃ s, hecTsRetrieveInfo tiny.1 (List.replicate 200 8) spring2020 (List.replicate 10 1) 10 (List.replicate 10 2) 10 s =
    some (.ok, shownOpt (List.replicate 10 1) 10 (shown (some cfs)), shownOpt (List.replicate 10 2) 10 (shown (some instVal))) := by
  obtain ⟨past, s, h⟩ := spring_history
  exact ⟨s, (C75_irregular_partial (mul := id) tiny_good .year springCfg_ok spring_name.six spring_name.fits parts_not_old.2 h
    (units := cfs) (type := instVal) (zone := []) (by unfold Ascii; decide) (by unfold Ascii; decide) (by simp) (d0 := ⟨2020, 2, 3⟩) (by unfold Date.Valid; decide) (by decide)
    (by decide +kernel) (p := spring2020) ⟨[48, 49, 74, 97, 110, 50, 48, 50, 48], by decide +kernel, rfl⟩ (carray := List.replicate 200 8) List.length_replicate
    (unitsBuf := List.replicate 10 1) (typeBuf := List.replicate 10 2) (unitsSize := 10) (typeSize := 10) (by decide) (by decide)).2
    ⟨julianOf ⟨2019, 11, 30⟩ * 86400 + 41 * 86400, ([3, 7], []), by decide +kernel, by decide +kernel, by decide +kernel⟩⟩

/-- Curves with a long name of units: 60 characters; the time zone is UTC. -/
def longUnits : PdIn := { curves with strings := [some (List.replicate 60 88), some [85, 78, 84], some [67, 70, 83], some [85, 78, 84], some [85, 84, 67]] }

/-- C75, failing part: for a record of paired data the call is a success.  It gives no units, and as type the units of the dependent variable. -/
theorem C75_other_record_violation :
    ((zpdStore tiny.1 tiny.2 aPdEnv anEnv 2 longUnits).bind fun p => hecTsRetrieveInfo tiny.1 (List.replicate 200 0) nA (List.replicate 10 1) 10 (List.replicate 10 2) 10 p.1) =
      some (.ok, List.replicate 10 1, [67, 70, 83, 0, 2, 2, 2, 2, 2, 2]) := by
  decide +kernel

/-- C75, failing part: the pathname with which the values were stored, and with which hec_dss_tsRetrieve finds them, is not found, and neither is that with the
E part as it is in the file: only the names of blocks are. -/
theorem C75_series_name_violation :
    ((hecTsStoreRegular tiny.1 doubleCfg aTsEnv aTsMem runoffPath nov30 midnight runoffs.values cfs instVal [] 0 tiny.2).bind fun p =>
      (hecTsRetrieveInfo tiny.1 (List.replicate 200 8) runoffPath (List.replicate 10 1) 10 (List.replicate 10 2) 10 p.1).bind fun x =>
      (hecTsRetrieveInfo tiny.1 (List.replicate 200 8) runoffExact (List.replicate 10 1) 10 (List.replicate 10 2) 10 p.1).map fun y => (x.1, y.1)) = some (.notFound, .notFound) := by
  decide +kernel

end Hec
