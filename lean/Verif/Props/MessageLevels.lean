import Verif.Props.Settings
/-! C97: levels of messages. -/
namespace Hec
open _root_.Spec (SetCall sets levelKeys numberSettings keptNumber LevelOf DatumOf currKey totaKey progKey vdtmKey Holds otherKeys)
open Hec.Spec (sameUpToCase)

theorem fold_set (v : Int) : ∀ (n : Nat) (l : List Int) (j : Nat), n < l.length →
    ((List.range n).foldl (fun l i => l.set (i + 1) v) l).length = l.length ∧
      ((List.range n).foldl (fun l i => l.set (i + 1) v) l)[j]? = if 1 ≤ j ∧ j ≤ n then some v else l[j]? := by
  intro n
  induction n with
  | zero => intro l j _; exact ⟨rfl, by rw [if_neg (by omega)]; rfl⟩
  | succ n ih =>
    intro l j hl
    obtain ⟨h1, h2⟩ := ih l j (by omega)
    rw [List.range_succ, List.foldl_append]
    simp only [List.foldl_cons, List.foldl_nil]
    refine ⟨by simp [h1], ?_⟩
    by_cases hj : n + 1 = j
    · subst hj
      rw [List.getElem?_set_self (by omega), if_pos (by omega)]
    · rw [List.getElem?_set_ne hj, h2]
      by_cases h : 1 ≤ j ∧ j ≤ n
      · rw [if_pos h, if_pos (by omega)]
      · rw [if_neg h, if_neg (by omega)]

/-- The level of group `j` after zsetMessageLevel. -/
theorem setLevel_get {l : List Int} (hl : l.length = 18) {g : Nat} (hg : g < 18) (v : Int) (j : Nat) (hj : j < 18) :
    (setLevel l g v).getD j 0 = if j = g ∨ (g = 0 ∨ g = 1) ∧ 1 ≤ j then v else l.getD j 0 := by
  unfold setLevel
  rw [if_neg (by omega)]
  simp only [Int.toNat_natCast, List.getD_eq_getElem?_getD]
  by_cases h01 : g = 0 ∨ g = 1
  · rw [if_pos (show (g : Int) = 0 ∨ (g : Int) = 1 by omega)]
    obtain ⟨_, h⟩ := fold_set v 17 (l.set g v) j (by simp; omega)
    rw [h]
    by_cases hj1 : 1 ≤ j
    · rw [if_pos ⟨hj1, by omega⟩, if_pos (Or.inr ⟨h01, hj1⟩)]; rfl
    · rw [if_neg (by omega)]
      by_cases hjg : g = j
      · subst hjg
        rw [List.getElem?_set_self (by omega), if_pos (Or.inl rfl)]; rfl
      · rw [List.getElem?_set_ne hjg, if_neg (by omega)]
  · rw [if_neg (show ¬ ((g : Int) = 0 ∨ (g : Int) = 1) by omega)]
    by_cases hjg : g = j
    · subst hjg
      rw [List.getElem?_set_self (by omega), if_pos (Or.inl rfl)]; rfl
    · rw [List.getElem?_set_ne hjg, if_neg (by omega)]

theorem group_found {n : Bytes} {g : Nat} (h : groupOfName n = some g) : g < 18 ∧ n.take 3 = (groupNames.getD g []).take 3 := by
  unfold groupOfName at h
  rw [List.findIdx?_eq_some_iff_getElem] at h
  obtain ⟨hi, h1, _⟩ := h
  refine ⟨hi, ?_⟩
  rw [List.getD_eq_getElem?_getD, List.getElem?_eq_getElem hi]
  simpa using h1

/-- A call that is not about group `g` leaves its level alone. -/
theorem group_kept {c : SetCall} {g : Nat} (hg : g < 18) (hn : ¬ c.About g) {s s' : Settings} {b : Bool} (hs : SettingsOk s)
    (h : zset s c.name c.text c.value = some (s', b)) : s'.levels.getD g 0 = s.levels.getD g 0 := by
  by_cases hk : paramKey c.name ∈ levelKeys
  · have hab : ∃ k ∈ levelKeys, c.Names k := ⟨_, hk, (names_key (by simp only [List.mem_append]; exact Or.inl (Or.inl (Or.inl hk))) _).mp rfl⟩
    unfold zset at h
    simp only at h
    rw [if_pos (by simpa [levelKeys] using hk)] at h
    cases ht : c.text with
    | none => rw [ht] at h; cases h
    | some t =>
      rw [ht] at h
      injection h with h; injection h with h _; subst h
      simp only
      have hno : ¬ (t.length < 2 ∨ t.take 3 = [103, 101, 110] ∨ t.take 3 = [103, 108, 111] ∨ t.take 3 = (groupNames.getD g []).take 3) :=
        fun hx => hn ⟨hab, t, ht, hx⟩
      unfold setGroupLevel
      rw [if_neg (fun hx => hno (Or.inl hx))]
      cases hf : groupOfName t with
      | none => rfl
      | some g' =>
        obtain ⟨h1, h2⟩ := group_found hf
        simp only
        rw [setLevel_get hs.levels h1 _ g hg, if_neg]
        rintro (hx | ⟨hx | hx, _⟩)
        · subst hx; exact hno (Or.inr (Or.inr (Or.inr h2)))
        · subst hx; exact hno (Or.inr (Or.inr (Or.inl h2)))
        · subst hx; exact hno (Or.inr (Or.inl h2))
  · rw [(zset_keeps h).1 hk]

theorem groups_kept {g : Nat} (hg : g < 18) (cs : List SetCall) : ∀ {s s' : Settings}, SettingsOk s → sets s cs = some s' → (∀ c ∈ cs, ¬ c.About g) →
    s'.levels.getD g 0 = s.levels.getD g 0 := by
  induction cs with
  | nil => intro s s' _ h _; injection h with h; rw [h]
  | cons c cs ih =>
    intro s s' hs h hn
    unfold sets at h
    rw [Option.bind_eq_some_iff] at h
    obtain ⟨⟨s1, b⟩, h1, h2⟩ := h
    rw [ih (zset_ok h1 hs) h2 fun x hx => hn x (by simp [hx])]
    exact group_kept hg (hn c (by simp)) hs h1

/-- The rule when the level of the general functions is below 10. -/
theorem message_rule {l : List Int} (h : l.getD 1 0 < 10) (g : Nat) (v : Int) : zmessageLevel l none g v = true ↔ v ≤ l.getD g 0 := by
  unfold zmessageLevel
  simp only [Bool.false_eq_true, if_false]
  by_cases hv : v ≤ l.getD g 0
  · rw [if_pos hv]; exact ⟨fun _ => hv, fun _ => rfl⟩
  · rw [if_neg hv]
    refine ⟨fun hx => absurd hx ?_, fun hx => absurd hx hv⟩
    split
    · rw [decide_eq_true_eq]; omega
    · exact Bool.false_ne_true

theorem level_of (v : Int) : LevelOf v (usualLevel v) ∧ 0 ≤ usualLevel v ∧ usualLevel v ≤ 6 := by
  unfold LevelOf usualLevel
  repeat' split
  all_goals omega

theorem set_levels {c : SetCall} {k : Bytes} (hk : k ∈ levelKeys) (hc : c.Names k) {t : Bytes} (ht : c.text = some t) (s : Settings) :
    zset s c.name c.text c.value = some ({ s with levels := setGroupLevel s.levels t (if t.length < 3 then usualLevel c.value else c.value) }, true) := by
  have hp : paramKey c.name ∈ levelKeys := by
    rw [(names_key (by simp only [List.mem_append]; exact Or.inl (Or.inl (Or.inl hk))) _).mpr hc]; exact hk
  unfold zset
  simp only
  rw [if_pos (by simpa [levelKeys] using hp), ht]

/-- C97: a level set for all messages (hec_dss_set_value) decides which messages are written, in every group of functions, and is found with
"mlvl", until a level is set again. -/
theorem C97_all (before : List SetCall) {s : Settings} (hs : sets initialSettings before = some s) (c : SetCall) {k : Bytes} (hk : k ∈ levelKeys) (hc : c.Names k)
    (ht : c.text = some []) :
    ∃ s1 level, zset s c.name c.text c.value = some (s1, true) ∧ LevelOf c.value level ∧
      ∀ cs s2, sets s1 cs = some s2 → (∀ x ∈ cs, ∀ k ∈ levelKeys, ¬ x.Names k) →
        (∀ g, g < 18 → ∀ v, zmessageLevel s2.levels none g v = true ↔ v ≤ level) ∧
        ∀ asked : Bytes, sameUpToCase (asked.take 4) [109, 108, 118, 108] ∨ sameUpToCase (asked.take 4) [109, 108, 101, 118] →
          ∀ buf : Bytes, 0 < buf.length → ∃ b, zquery s2 asked buf = some (true, b, some level) := by
  have hok := sets_ok hs initial_ok
  obtain ⟨h1, h2, h3⟩ := level_of c.value
  have hset := set_levels hk hc ht s
  rw [if_pos (by decide)] at hset
  generalize hls : setGroupLevel s.levels [] (usualLevel c.value) = ls at hset
  refine ⟨_, _, hset, h1, fun cs s2 hr hn => ?_⟩
  have hl2 : s2.levels = ls :=
    sets_kept (fun s => s.levels) (fun x => ∃ k ∈ levelKeys, x.Names k)
      (fun s c s' b h hx => (zset_keeps h).1 fun h' => hx ⟨_, h', (names_key (by simp only [List.mem_append]; exact Or.inl (Or.inl (Or.inl h'))) _).mp rfl⟩) cs _ s2 hr
      (fun x hx ⟨k, hk, hc⟩ => hn x hx k hk hc)
  have hall : ∀ j, j < 18 → s2.levels.getD j 0 = usualLevel c.value := by
    intro j hj
    rw [hl2, ← hls]
    unfold setGroupLevel
    rw [if_pos (by decide)]
    have := setLevel_get hok.levels (g := 0) (by omega) (usualLevel c.value) j hj
    exact this.trans (if_pos (by omega))
  refine ⟨fun g hg v => ?_, fun asked ha buf hb => ?_⟩
  · rw [message_rule (by rw [hall 1 (by omega)]; omega), hall g hg]
  · have hw : wr buf 0 0 = some _ := wr_eq (i := 0) hb
    have hkey : paramKey asked = [109, 108, 118, 108] ∨ paramKey asked = [109, 108, 101, 118] := by
      rcases ha with h | h
      · exact Or.inl ((names_key (by decide) _).mpr h)
      · exact Or.inr ((names_key (by decide) _).mpr h)
    unfold zquery
    simp only
    rw [if_pos hkey, hw, hall 0 (by omega)]
    exact ⟨_, rfl⟩

/-- C97: the level set for one group of functions, by its name, decides which of their messages are written, until a call about this group
or about all groups; as long as the level of the general functions is below 10, and except for the group "time_series_write". -/
theorem C97_group_partial (before : List SetCall) {s : Settings} (hs : sets initialSettings before = some s) (c : SetCall) {k : Bytes} (hk : k ∈ levelKeys) (hc : c.Names k)
    {g : Nat} (hg : g < 18 ∧ g ≠ 11) (ht : c.text = some (groupNames.getD g [])) :
    ∃ s1, zset s c.name c.text c.value = some (s1, true) ∧
      ∀ cs s2, sets s1 cs = some s2 → (∀ x ∈ cs, ¬ x.About g) → s2.levels.getD 1 0 < 10 →
        ∀ v, zmessageLevel s2.levels none g v = true ↔ v ≤ c.value := by
  have hok := sets_ok hs initial_ok
  have hall : ∀ g, g < 18 → g ≠ 11 → groupOfName (groupNames.getD g []) = some g ∧ 3 ≤ (groupNames.getD g []).length := by decide +kernel
  obtain ⟨h1, h2⟩ := hall g hg.1 hg.2
  have hset := set_levels hk hc ht s
  refine ⟨_, hset, fun cs s2 hr hn h10 v => ?_⟩
  rw [message_rule h10, groups_kept hg.1 cs (zset_ok hset hok) hr hn]
  simp only
  unfold setGroupLevel
  rw [if_neg (by omega), h1, if_neg (by omega)]
  simp only
  rw [setLevel_get hok.levels hg.1 _ g hg.1, if_pos (Or.inl rfl)]

/-- C97: the levels of the other groups stay (unless the group is "general" or "global", which stand for all). -/
theorem C97_others (before : List SetCall) {s : Settings} (hs : sets initialSettings before = some s) (c : SetCall) {g : Nat} (hg : g < 18) (hc : ¬ c.About g)
    {s1 : Settings} {b : Bool} (h : zset s c.name c.text c.value = some (s1, b)) : s1.levels.getD g 0 = s.levels.getD g 0 :=
  group_kept hg hc (sets_ok hs initial_ok) h

theorem same_level (v : Int) (j : Nat) (hj : j < 18) : (List.replicate 18 v).getD j 0 = v := by
  rw [List.getD_eq_getElem?_getD, List.getElem?_replicate, if_pos hj, Option.getD_some]

/-- C97: a squeeze leaves the levels as they were if all of them were the same. -/
theorem C97_squeeze_partial (v : Int) : squeezeLevels (List.replicate 18 v) = List.replicate 18 v := by
  by_cases h2 : v = 2
  · subst h2; decide +kernel
  by_cases h3 : v = 3
  · subst h3; decide +kernel
  by_cases h4 : v = 4
  · subst h4; decide +kernel
  have hset : ∀ g : Int, setLevel (List.replicate 18 v) g v = List.replicate 18 v := by
    intro g
    by_cases hg : g < 0 ∨ g > 17
    · unfold setLevel; rw [if_pos hg]
    · have hlt : g.toNat < 18 := by omega
      have e : (setLevel (List.replicate 18 v) g v) = setLevel (List.replicate 18 v) (g.toNat : Int) v := by rw [Int.toNat_of_nonneg (by omega)]
      rw [e]
      apply List.ext_getElem?
      intro j
      have hl := setLevel_length (List.replicate 18 v) (g.toNat : Int) v
      by_cases hj : j < 18
      · have := setLevel_get (l := List.replicate 18 v) (by simp) hlt v j hj
        have e2 : (List.replicate 18 v).getD j 0 = v := same_level v j hj
        rw [e2, ite_self] at this
        rw [List.getElem?_eq_getElem (by rw [hl]; simpa using hj), List.getElem?_replicate, if_pos hj]
        rw [List.getD_eq_getElem?_getD, List.getElem?_eq_getElem (by rw [hl]; simpa using hj)] at this
        rw [Option.getD_some] at this
        rw [this]
      · rw [List.getElem?_eq_none (by rw [hl]; simp; omega), List.getElem?_eq_none (by simp; omega)]
  have hget : ∀ j, j < 18 → (List.replicate 18 v).getD j 0 = v := same_level v
  have lower : ∀ n ≤ 17, ∀ x : List Int, x.length = 18 →
      ((List.range n).foldl (fun (x : List Int × List Int) i =>
        let level := x.2.getD (i + 1) 0
        (x.1.set (i + 1) level, if level > 1 ∧ level < 5 then setLevel x.2 level 1 else x.2)) (x, List.replicate 18 v)).2 = List.replicate 18 v ∧
      ((List.range n).foldl (fun (x : List Int × List Int) i =>
        let level := x.2.getD (i + 1) 0
        (x.1.set (i + 1) level, if level > 1 ∧ level < 5 then setLevel x.2 level 1 else x.2)) (x, List.replicate 18 v)).1 =
        (List.range n).foldl (fun l i => l.set (i + 1) v) x := by
    intro n
    induction n with
    | zero => intro _ x _; exact ⟨rfl, rfl⟩
    | succ n ih =>
      intro hn x hx
      obtain ⟨i1, i2⟩ := ih (by omega) x hx
      rw [List.range_succ, List.foldl_append, List.foldl_append]
      simp only [List.foldl_cons, List.foldl_nil]
      rw [i1, i2, hget (n + 1) (by omega)]
      exact ⟨if_neg (by omega), rfl⟩
  obtain ⟨l1, l2⟩ := lower 17 (Nat.le_refl _) (List.replicate 18 0) (by simp)
  unfold squeezeLevels squeezeLower squeezeRestore
  simp only at l1 l2 ⊢
  rw [l1, l2]
  have horig : ∀ i, i < 17 → ((List.range 17).foldl (fun l i => l.set (i + 1) v) (List.replicate 18 (0 : Int))).getD (i + 1) 0 = v := by
    intro i hi
    obtain ⟨_, h⟩ := fold_set v 17 (List.replicate 18 (0 : Int)) (i + 1) (by simp)
    rw [List.getD_eq_getElem?_getD, h, if_pos (by omega)]
    rfl
  generalize (List.range 17).foldl (fun l i => l.set (i + 1) v) (List.replicate 18 (0 : Int)) = o at horig
  have restore : ∀ n ≤ 17, (List.range n).foldl (fun l i => setLevel l (l.getD (i + 1) 0) (o.getD (i + 1) 0)) (List.replicate 18 v) = List.replicate 18 v := by
    intro n
    induction n with
    | zero => intro _; rfl
    | succ n ih =>
      intro hn
      rw [List.range_succ, List.foldl_append, ih (by omega)]
      simp only [List.foldl_cons, List.foldl_nil]
      rw [horig n (by omega)]
      exact hset _
  exact restore 17 (Nat.le_refl _)

/-- C97, failing part: a squeeze sets other levels back to the usual ones: messages of reading that were turned off (group 4) are written
again. -/
theorem C97_squeeze_violation :
    ((sets initialSettings [⟨[109, 101, 115, 115], some [114, 101, 97, 100], 0⟩]).map fun s =>
      (s.levels.getD 4 9, (squeezeLevels s.levels).getD 4 9, zmessageLevel s.levels none 4 3, zmessageLevel (squeezeLevels s.levels) none 4 3)) =
      some (0, 3, false, true) := by decide +kernel

/-- C97, failing part: the name "time_series_write" stands for the functions that read time series (group 10), those that write (11) keep
their level. -/
theorem C97_name_violation :
    ((sets initialSettings [⟨[109, 101, 115, 115], some (groupNames.getD 11 []), 0⟩]).map fun s => (s.levels.getD 10 9, s.levels.getD 11 9)) = some (0, 3) := by decide +kernel

/-- C97, failing part: if the level of the general functions is 10 or more, messages up to a level are written whatever the level of their
group is. -/
theorem C97_general_violation :
    ((sets initialSettings [⟨[109, 101, 115, 115], some (groupNames.getD 1 []), 15⟩, ⟨[109, 101, 115, 115], some [114, 101, 97, 100], 0⟩]).map fun s =>
      (s.levels.getD 4 9, zmessageLevel s.levels none 4 6)) = some (0, true) := by decide +kernel

/-- C97, failing part: setting the level that zquery gave lowers it: 3, then 2. -/
theorem C97_restore_violation :
    ((zquery initialSettings [109, 108, 118, 108] [9]).bind fun q => q.2.2.bind fun v =>
      (hecSetValue initialSettings [109, 108, 118, 108] v).bind fun r => (zquery r.1 [109, 108, 118, 108] [9]).map fun q => (v, r.2, q.2.2)) = some (3, true, some 2) := by
  decide +kernel

/-! The conditions are met. -/

/-- `hec_dss_set_value("MLVL", 5)`, then other settings, then the query: 4. -/
theorem levels_set : ∃ s1 level, zset initialSettings [77, 76, 86, 76] (some []) 5 = some (s1, true) ∧ LevelOf 5 level ∧
    ∀ cs s2, sets s1 cs = some s2 → (∀ x ∈ cs, ∀ k ∈ levelKeys, ¬ x.Names k) →
      (∀ g, g < 18 → ∀ v, zmessageLevel s2.levels none g v = true ↔ v ≤ level) ∧
      ∀ asked : Bytes, sameUpToCase (asked.take 4) [109, 108, 118, 108] ∨ sameUpToCase (asked.take 4) [109, 108, 101, 118] →
        ∀ buf : Bytes, 0 < buf.length → ∃ b, zquery s2 asked buf = some (true, b, some level) :=
  C97_all [] (s := initialSettings) rfl ⟨[77, 76, 86, 76], some [], 5⟩ (k := [109, 108, 118, 108]) (by decide)
    ((lower_iff _ _).mpr (by decide)) rfl

/-- `hec_dss_set_value("disaggregate", 2)` and `hec_dss_set_string("vdtm", "navd-88")`, then the two queries. -/
theorem values_set :
    ((sets initialSettings [⟨[100, 105, 115, 97, 103, 103], some [], 2⟩, ⟨[118, 100, 116, 109], some [110, 97, 118, 100, 45, 56, 56], 0⟩]).bind fun s =>
      (zquery s [68, 73, 83, 65] [9]).bind fun a => (zquery s [118, 100, 116, 109] (List.replicate 10 9)).map fun b => (a, b)) =
      some ((true, [9], some 2), (true, [78, 65, 86, 68, 45, 56, 56, 0, 9, 9], some 1)) := by decide +kernel

theorem values_set_names : (⟨[100, 105, 115, 97, 103, 103], some [], 2⟩ : SetCall).Names [100, 105, 115, 97] ∧
    ¬ (⟨[118, 100, 116, 109], some [110, 97, 118, 100, 45, 56, 56], 0⟩ : SetCall).Names [100, 105, 115, 97] :=
  ⟨(lower_iff _ _).mpr (by decide), fun h => by have := (lower_iff _ _).mp h; revert this; decide⟩

end Hec
