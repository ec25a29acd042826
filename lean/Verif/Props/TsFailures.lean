import Verif.Props.ItsApiCases
import Verif.Props.ItsFileCases
import Verif.Props.Catalog
/-! C63, C66 and C67: calls that fail. -/
namespace Hec
set_option linter.unusedSimpArgs false
set_option linter.unusedVariables false
set_option synthInstance.maxSize 1000
set_option synthInstance.maxHeartbeats 200000
open _root_.Spec (Op join SixParts IsPart TsMemOk)

/-- The pathname with tags that are wrong is refused. -/
theorem untagged_none {ps : List Bytes} (h : SixParts ps) (hl : ∀ p ∈ ps, p.length ≤ 128) (ht : 10 ≤ (normalizeFPart (ps.getD 5 [])).1) {m : TsMem} (hm : TsMemOk m) :
    tsNormalized m (join ps) = some none := by
  unfold tsNormalized
  rw [C65_pathname h hl hm.parts m.junk, Option.map_some]
  cases hf : normalizeFPart (ps.getD 5 []) with
  | mk st o =>
    rw [hf] at ht
    simp only at ht
    have h0 : st ≠ 0 := by omega
    congr 1
    split
    · next heq => injection heq with e _; omega
    · next st' o' _ heq =>
      injection heq with e _
      subst e
      rw [if_neg (show ¬ st < 10 by omega)]
      exact if_neg h0

/-- C66.  A pathname whose F part has wrong tags (C65 says which) is never stored, and the file stays as it is. -/
theorem C66_bad_tags {ps : List Bytes} (h : SixParts ps) (hl : ∀ p ∈ ps, p.length ≤ 128) (ht : 10 ≤ (normalizeFPart (ps.getD 5 [])).1) (c : Cfg) (cfg : RegCfg UInt32) (env : Int → TsEnv)
    {m : TsMem} (hm : TsMemOk m) (date time : Bytes) (values : List (List UInt32)) (units type zone : Bytes) (flag : Int) {s s' : Eng} {r : TsApi}
    (hr : hecTsStoreRegular c cfg env m (join ps) date time values units type zone flag s = some (s', r)) : s' = s ∧ r ≠ .ok := by
  unfold hecTsStoreRegular at hr
  simp only at hr
  rw [malloc_join h] at hr
  split at hr
  · injection hr with hr; injection hr with h1 h2; subst h1; subst h2; exact ⟨rfl, by decide⟩
  obtain ⟨t, _, hr⟩ := Option.bind_eq_some_iff.mp hr
  obtain ⟨p, _, hr⟩ := Option.bind_eq_some_iff.mp hr
  cases p with
  | bad => injection hr with hr; injection hr with h1 h2; subst h1; subst h2; exact ⟨rfl, by decide⟩
  | irregular a b => injection hr with hr; injection hr with h1 h2; subst h1; subst h2; exact ⟨rfl, by decide⟩
  | pattern => injection hr with hr; injection hr with h1 h2; subst h1; subst h2; exact ⟨rfl, by decide⟩
  | regular interval buf =>
    simp only at hr
    split at hr
    · injection hr with hr; injection hr with h1 h2; subst h1; subst h2; exact ⟨rfl, by decide⟩
    rw [untagged_none h hl ht hm] at hr
    obtain ⟨i, _, hr⟩ := Option.bind_eq_some_iff.mp hr
    rw [Option.bind_some] at hr
    injection hr with hr; injection hr with h1 h2; subst h1; subst h2; exact ⟨rfl, by decide⟩

/-- C66.  A retrieve that does not succeed says that there are no values, and leaves all arrays as they are. -/
theorem C66_failed (c : Cfg) (cfg : RegCfg UInt32) (env : Int → Bytes × Bytes) (m : TsMem) (path startDate startTime endDate endTime : Bytes)
    (arraySize qualityWidth unitsSize typeSize zoneSize : Int) (b out : TsBuffers) (s : Eng) {r : TsApi} (hr : r ≠ .ok)
    (h : hecTsRetrieve c cfg env m path startDate startTime endDate endTime arraySize qualityWidth unitsSize typeSize zoneSize b s = some (r, out)) :
    out.number = 0 ∧ out.times = b.times ∧ out.values = b.values ∧ out.units = b.units ∧ out.type = b.type ∧ out.zone = b.zone := by
  unfold hecTsRetrieve at h
  obtain ⟨s0, _, h⟩ := Option.bind_eq_some_iff.mp h
  obtain ⟨e0, _, h⟩ := Option.bind_eq_some_iff.mp h
  obtain ⟨q, _, h⟩ := Option.bind_eq_some_iff.mp h
  cases q with
  | stop r' =>
    injection h with h; injection h with h1 h2; subst h2
    exact ⟨rfl, rfl, rfl, rfl, rfl, rfl⟩
  | got g base times quality =>
    exfalso
    obtain ⟨u, _, h⟩ := Option.bind_eq_some_iff.mp h
    obtain ⟨t, _, h⟩ := Option.bind_eq_some_iff.mp h
    obtain ⟨z, _, h⟩ := Option.bind_eq_some_iff.mp h
    simp only at h
    split at h
    · cases h
    obtain ⟨ts, _, h⟩ := Option.bind_eq_some_iff.mp h
    obtain ⟨vs, _, h⟩ := Option.map_eq_some_iff.mp h
    injection h with h1 _
    exact hr h1.symm

/-- C67.  The same for irregular series: wrong tags are refused. -/
theorem C67_bad_tags {ps : List Bytes} (h : SixParts ps) (hl : ∀ p ∈ ps, p.length ≤ 128) (ht : 10 ≤ (normalizeFPart (ps.getD 5 [])).1) (c : Cfg) (pol : PackPolicy) (env : Int → TsEnv)
    {m : TsMem} (hm : TsMemOk m) (date : Bytes) (vals : List (Entry (List UInt32))) (gran : Int) (quality : List UInt32) (units type zone : Bytes) (flag : Int)
    {s s' : Eng} {r : TsApi}
    (hr : hecTsStoreIregular c pol env m (join ps) date vals gran quality units type zone flag s = some (s', r)) : s' = s ∧ r ≠ .ok := by
  unfold hecTsStoreIregular at hr
  simp only at hr
  generalize (if date.length > 4 then dateToJulian date else 0) = base at hr
  rw [malloc_join h] at hr
  split at hr
  · injection hr with hr; injection hr with h1 h2; subst h1; subst h2; exact ⟨rfl, by decide⟩
  obtain ⟨p, _, hr⟩ := Option.bind_eq_some_iff.mp hr
  cases p with
  | bad => injection hr with hr; injection hr with h1 h2; subst h1; subst h2; exact ⟨rfl, by decide⟩
  | regular a b => injection hr with hr; injection hr with h1 h2; subst h1; subst h2; exact ⟨rfl, by decide⟩
  | pattern => injection hr with hr; injection hr with h1 h2; subst h1; subst h2; exact ⟨rfl, by decide⟩
  | irregular size buf =>
    simp only at hr
    cases vals with
    | nil => injection hr with hr; injection hr with h1 h2; subst h1; subst h2; exact ⟨rfl, by decide⟩
    | cons e l =>
      simp only at hr
      split at hr
      · injection hr with hr; injection hr with h1 h2; subst h1; subst h2; exact ⟨rfl, by decide⟩
      split at hr
      · injection hr with hr; injection hr with h1 h2; subst h1; subst h2; exact ⟨rfl, by decide⟩
      rw [untagged_none h hl ht hm] at hr
      obtain ⟨i, _, hr⟩ := Option.bind_eq_some_iff.mp hr
      rw [Option.bind_some] at hr
      injection hr with hr; injection hr with h1 h2; subst h1; subst h2; exact ⟨rfl, by decide⟩

/-- C67.  A retrieve that does not succeed says that there are no values, and leaves all arrays as they are. -/
theorem C67_failed (c : Cfg) (cfg : ItsCfg) (env : Int → Bytes × Bytes) (m : TsMem) (old path startDate startTime endDate endTime : Bytes)
    (arraySize qualityWidth unitsSize typeSize zoneSize : Int) (b out : TsBuffers) (flags fs : List UInt32) (s : Eng) {r : TsApi} (hr : r ≠ .ok)
    (h : hecTsRetrieveIrreg c cfg env m old path startDate startTime endDate endTime arraySize qualityWidth unitsSize typeSize zoneSize b flags s = some (r, out, fs)) :
    out.number = 0 ∧ out.times = b.times ∧ out.values = b.values ∧ out.units = b.units ∧ out.type = b.type ∧ out.zone = b.zone ∧ fs = flags := by
  unfold hecTsRetrieveIrreg at h
  obtain ⟨s0, _, h⟩ := Option.bind_eq_some_iff.mp h
  obtain ⟨e0, _, h⟩ := Option.bind_eq_some_iff.mp h
  obtain ⟨q, _, h⟩ := Option.bind_eq_some_iff.mp h
  cases q with
  | stop r' =>
    injection h with h; injection h with h1 h2; injection h2 with h2 h3; subst h2; subst h3
    exact ⟨rfl, rfl, rfl, rfl, rfl, rfl, rfl⟩
  | got g =>
    exfalso
    obtain ⟨u, _, h⟩ := Option.bind_eq_some_iff.mp h
    obtain ⟨t, _, h⟩ := Option.bind_eq_some_iff.mp h
    obtain ⟨z, _, h⟩ := Option.bind_eq_some_iff.mp h
    obtain ⟨fs', _, h⟩ := Option.bind_eq_some_iff.mp h
    obtain ⟨ts, _, h⟩ := Option.bind_eq_some_iff.mp h
    obtain ⟨vs, _, h⟩ := Option.map_eq_some_iff.mp h
    injection h with h1 _
    exact hr h1.symm

/-! ### Cases -/

/-- `/A/B/FLOW//1Month/T:X|F/`: the tag T must be a time. -/
def runoffBad : List Bytes := [[65], [66], [70, 76, 79, 87], [], [49, 77, 111, 110, 116, 104], [84, 58, 88, 124, 70]]

theorem runoffBad_case : 10 ≤ (normalizeFPart (runoffBad.getD 5 [])).1 ∧
    hecTsStoreRegular tiny.1 doubleCfg aTsEnv aTsMem (join runoffBad) nov30 midnight runoffs.values cfs instVal [] 0 tiny.2 ≠ none := by
  refine ⟨by decide +kernel, ?_⟩
  have : ((hecTsStoreRegular tiny.1 doubleCfg aTsEnv aTsMem (join runoffBad) nov30 midnight runoffs.values cfs instVal [] 0 tiny.2).map Prod.snd) = some .failed := by decide +kernel
  intro h
  rw [h] at this
  cases this

/-- `/A/B/FLOW/01Jan2020/1Month/F/` -/
def runoff2020 : Bytes := join [[65], [66], [70, 76, 79, 87], [48, 49, 74, 97, 110, 50, 48, 50, 48], [49, 77, 111, 110, 116, 104], [70]]
/-- `/A/B/FLOW/01Jan2010/1Month/F/` -/
def runoff2010 : Bytes := join [[65], [66], [70, 76, 79, 87], [48, 49, 74, 97, 110, 50, 48, 49, 48], [49, 77, 111, 110, 116, 104], [70]]
/-- `/A/B/FLOW/01Jan2020/~1Day/F/` -/
def spring2020 : Bytes := join [[65], [66], [70, 76, 79, 87], [48, 49, 74, 97, 110, 50, 48, 50, 48], [126, 49, 68, 97, 121], [70]]
/-- `/A/B/FLOW/01Jan2019/~1Day/F/` -/
def spring2019 : Bytes := join [[65], [66], [70, 76, 79, 87], [48, 49, 74, 97, 110, 50, 48, 49, 57], [126, 49, 68, 97, 121], [70]]

/-- C66, failing part: the block of the second decade has the name of a text.  The store fails, but the values of the first
decade have been stored. -/
theorem C66_half_stored_violation :
    ((zwrite tiny.1 tiny.2 (reqT runoff2020 300 1)).bind fun t =>
      (hecTsStoreRegular tiny.1 doubleCfg aTsEnv aTsMem runoffPath nov30 midnight runoffs.values cfs instVal [] 0 t.1).bind fun p =>
        (zread tiny.1 t.1 runoff2010).bind fun before => (zread tiny.1 p.1 runoff2010).map fun after => (p.2, before.isSome, after.isSome)) =
    some (.failed, false, true) := by
  decide +kernel

/-- C67, failing part: the same for irregular series. -/
theorem C67_half_stored_violation :
    ((zwrite tiny.1 tiny.2 (reqT spring2020 300 1)).bind fun t =>
      (hecTsStoreIregular tiny.1 samplePolicy aTsEnv aTsMem springPath nov30 springs 60 [] cfs instVal [] 0 t.1).bind fun p =>
        (zread tiny.1 t.1 spring2019).bind fun before => (zread tiny.1 p.1 spring2019).map fun after => (p.2, before.isSome, after.isSome)) =
    some (.failed, false, true) := by
  decide +kernel

/-- Two values of the same time are accepted, and both come back. -/
theorem C67_same_time :
    ((hecTsStoreIregular tiny.1 samplePolicy aTsEnv aTsMem springPath nov30 [⟨1500, [1, 5]⟩, ⟨1500, [2, 6]⟩] 60 [] cfs instVal [] 0 tiny.2).bind fun p =>
      (hecTsRetrieveIrreg tiny.1 springCfg (fun _ => (List.replicate 700 6, List.replicate 200 8)) aTsMem (List.replicate 393 9) springPath nov30 midnight feb29 midnight 5 0 10 10 10 fiveBuffers [9, 9, 9, 9, 9] p.1).map
        fun q => (p.2, q.2.1.values, q.2.1.number)) =
    some (.ok, [[1, 5], [2, 6], [7, 7], [7, 7], [7, 7]], 2) := by
  decide +kernel

end Hec
