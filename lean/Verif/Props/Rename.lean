import Verif.Props.EngineCases
import Verif.Props.Pathnames
import Verif.Model.Catalog
/-!
Renaming (C50), in every file that is in use (a new file, after a history of writes, deletes, undeletes and
renames).
-/
namespace Hec
set_option linter.unusedSimpArgs false
set_option linter.unusedVariables false
set_option synthInstance.maxSize 1000
set_option synthInstance.maxHeartbeats 200000
open _root_.Spec (Op Store Step Steps run runs Allowed AllAllowed Plain Reachable GoodSizes create join keepDates renamed SixParts IsPart Holds
  Set stored oddHeaders)
open Hec.Spec (sameUpToCase)

section
variable {hdrSize maxHash binSize : Nat} {mul : Nat → Nat}

theorem delete_live {st st' : Store} {p : Bytes} {res : Res} (h : Step st (.delete p) res st') (hl : ∀ p q, sameUpToCase p q → st.live p = st.live q) :
    Set st.live st'.live p none := by
  cases h with
  | delete _ h2 _ => exact h2
  | deleteMissing h1 => exact fun q => ⟨fun hs => by rw [← hl _ _ hs]; exact h1, fun _ => rfl⟩

open Classical in
/-- C50.  Renaming a record that is there succeeds.  Afterwards the record is found, unchanged, under its new pathname
(`renamed`: the new pathname; for time series, with the D and E parts of the old one), and not under the old one;
a record that was under the new pathname is gone; every other record is as before. -/
theorem C50_rename_partial (g : GoodSizes hdrSize maxHash binSize) {past : List Op} {s : Eng}
    (hs : Reachable (create hdrSize maxHash binSize mul).1 (create hdrSize maxHash binSize mul).2 past s) (o n : List Bytes) (v : RenEnv)
    (ha : Allowed (create hdrSize maxHash binSize mul).1 past s (.rename o n v)) {R : Rec}
    (hr : zread (create hdrSize maxHash binSize mul).1 s (join o) = some (some R)) :
    ∃ s', zrename (create hdrSize maxHash binSize mul).1 s (join o) (join n) v = some (s', .ok) ∧
      ∀ q, q.length ≤ 392 → zread (create hdrSize maxHash binSize mul).1 s' q =
        if sameUpToCase (renamed R.dataType o n) q then some (some R)
        else if sameUpToCase (join o) q ∨ sameUpToCase (join n) q then some none
        else zread (create hdrSize maxHash binSize mul).1 s q := by
  obtain ⟨G, H⟩ := reach g hs
  have hc := create_OK (mul := mul) g
  obtain ⟨G', s', res, hrun, S, H'⟩ := H.step hc ha
  obtain ⟨h1, h2, hlo, hln, hne, _⟩ := ha
  have hcg : ∀ p q, sameUpToCase p q → (abs (create hdrSize maxHash binSize mul).1 G s.disk).live p = (abs (create hdrSize maxHash binSize mul).1 G s.disk).live q :=
    fun p q h => (live_cong hc (same_iff.mp h)).symm
  have hlv : (abs (create hdrSize maxHash binSize mul).1 G s.disk).live (join o) = some R := by
    rw [zread_abs hc H.inv hlo] at hr; simpa using hr
  have hst := S.step
  have hrd := fun q hq => zread_abs hc H.inv (q := q) hq
  have hrd' := fun q hq => zread_abs hc H'.inv (q := q) hq
  generalize abs (create hdrSize maxHash binSize mul).1 G s.disk = st at *
  generalize abs (create hdrSize maxHash binSize mul).1 G' s'.disk = st' at *
  cases hst with
  | renameMissing hd hno =>
    have := (delete_live hd hcg (join o)).2 (fun h => hne (sameUp_symm h))
    rw [this, hlv] at hno; cases hno
  | @rename st1 _ _ _ _ res1 R1 mid hd hsome hmid hfin _ =>
    have hdl := delete_live hd hcg
    have : some R1 = some R := by
      rw [← hsome, (hdl (join o)).2 (fun h => hne (sameUp_symm h)), hlv]
    injection this with this
    subst this
    refine ⟨s', hrun, fun q hq => ?_⟩
    · rw [hrd' q hq, hrd q hq]
      split
      · next h => rw [(hfin q).1 h]
      · next h =>
        rw [(hfin q).2 h]
        split
        · next h' =>
          by_cases ho : sameUpToCase (join o) q
          · rw [(hmid q).1 ho]
          · rw [(hmid q).2 ho, (hdl q).1 (h'.resolve_left ho)]
        · next h' =>
          rw [(hmid q).2 (fun h => h' (Or.inl h)), (hdl q).2 (fun h => h' (Or.inr h))]

open Classical in
/-- C50.  Renaming a record that is not there reports that; but a record under the new pathname is deleted. -/
theorem C50_missing_partial (g : GoodSizes hdrSize maxHash binSize) {past : List Op} {s : Eng}
    (hs : Reachable (create hdrSize maxHash binSize mul).1 (create hdrSize maxHash binSize mul).2 past s) (o n : List Bytes) (v : RenEnv)
    (ha : Allowed (create hdrSize maxHash binSize mul).1 past s (.rename o n v))
    (hr : zread (create hdrSize maxHash binSize mul).1 s (join o) = some none) :
    ∃ s', zrename (create hdrSize maxHash binSize mul).1 s (join o) (join n) v = some (s', .notFound) ∧
      ∀ q, q.length ≤ 392 → zread (create hdrSize maxHash binSize mul).1 s' q =
        if sameUpToCase (join n) q then some none else zread (create hdrSize maxHash binSize mul).1 s q := by
  obtain ⟨G, H⟩ := reach g hs
  have hc := create_OK (mul := mul) g
  obtain ⟨G', s', res, hrun, S, H'⟩ := H.step hc ha
  obtain ⟨h1, h2, hlo, hln, hne, _⟩ := ha
  have hcg : ∀ p q, sameUpToCase p q → (abs (create hdrSize maxHash binSize mul).1 G s.disk).live p = (abs (create hdrSize maxHash binSize mul).1 G s.disk).live q :=
    fun p q h => (live_cong hc (same_iff.mp h)).symm
  have hlv : (abs (create hdrSize maxHash binSize mul).1 G s.disk).live (join o) = none := by
    rw [zread_abs hc H.inv hlo] at hr; simpa using hr
  have hst := S.step
  have hrd := fun q hq => zread_abs hc H.inv (q := q) hq
  have hrd' := fun q hq => zread_abs hc H'.inv (q := q) hq
  generalize abs (create hdrSize maxHash binSize mul).1 G s.disk = st at *
  generalize abs (create hdrSize maxHash binSize mul).1 G' s'.disk = st' at *
  cases hst with
  | renameMissing hd hno =>
    have hdl := delete_live hd hcg
    refine ⟨s', hrun, fun q hq => ?_⟩
    rw [hrd' q hq, hrd q hq]
    split
    · next h => rw [(hdl q).1 h]
    · next h => rw [(hdl q).2 h]
  | rename hd hsome hmid hfin _ =>
    rw [(delete_live hd hcg (join o)).2 (fun h => hne (sameUp_symm h)), hlv] at hsome; cases hsome

/-! ### Changing the case of letters -/

theorem allAllowed_snoc {c : Cfg} {s : Eng} {ops : List Op} : ∀ {past : List Op} {s0 : Eng} {ress : List Res}, AllAllowed c past s0 ops →
    runs c s0 ops = some (s, ress) → ∀ {op : Op}, Allowed c (past ++ ops) s op → AllAllowed c past s0 (ops ++ [op]) := by
  induction ops with
  | nil =>
    intro past s0 ress _ hr op ha
    simp only [runs, Option.some.injEq, Prod.mk.injEq] at hr
    rw [hr.1]
    exact ⟨by simpa using ha, fun _ _ _ => trivial⟩
  | cons o ops ih =>
    intro past s0 ress h hr op ha
    refine ⟨h.1, fun s' res hrun => ?_⟩
    simp only [runs, hrun, Option.bind_some, Option.map_eq_some_iff] at hr
    obtain ⟨⟨s1, r1⟩, h1, h2⟩ := hr
    have e : s1 = s := congrArg Prod.fst h2
    subst e
    exact ih (h.2 s' res hrun) h1 (by rw [List.append_assoc]; exact ha)

theorem runs_snoc {c : Cfg} {s s' : Eng} {op : Op} {res : Res} (hrun : run c s op = some (s', res)) {ops : List Op} :
    ∀ {s0 : Eng} {ress : List Res}, runs c s0 ops = some (s, ress) → runs c s0 (ops ++ [op]) = some (s', ress ++ [res]) := by
  induction ops with
  | nil =>
    intro s0 ress h
    simp only [runs, Option.some.injEq, Prod.mk.injEq] at h
    obtain ⟨rfl, rfl⟩ := h
    simp [runs, hrun]
  | cons o ops ih =>
    intro s0 ress h
    cases hr0 : run c s0 o with
    | none => simp [runs, hr0] at h
    | some x =>
      simp only [runs, hr0, Option.bind_some, Option.map_eq_some_iff] at h
      obtain ⟨⟨s1, r1⟩, h1, h2⟩ := h
      simp only [Prod.mk.injEq] at h2
      obtain ⟨rfl, rfl⟩ := h2
      simp [runs, hr0, ih h1]

theorem reachable_snoc {c : Cfg} {s0 s s' : Eng} {past : List Op} {op : Op} {res : Res} (h : Reachable c s0 past s) (ha : Allowed c past s op)
    (hrun : run c s op = some (s', res)) : Reachable c s0 (past ++ [op]) s' := by
  obtain ⟨h1, ress, h2⟩ := h
  exact ⟨allAllowed_snoc h1 h2 ha, _, runs_snoc hrun h2⟩

theorem same_join {o n : List Bytes} (hl : o.length = n.length) (h : ∀ (i : Nat) (a b : Bytes), o[i]? = some a → n[i]? = some b → sameUpToCase a b) :
    sameUpToCase (join o) (join n) := by
  have key : ∀ o n : List Bytes, o.length = n.length → (∀ (i : Nat) (a b : Bytes), o[i]? = some a → n[i]? = some b → Same a b) →
      Same (o.flatMap (· ++ [47])) (n.flatMap (· ++ [47])) := by
    intro o
    induction o with
    | nil => intro n hl _; cases n with | nil => rfl | cons => cases hl
    | cons a o ih =>
      intro n hl h
      cases n with
      | nil => cases hl
      | cons b n =>
        have h1 := h 0 a b rfl rfl
        have h2 := ih n (by simpa using hl) (fun i x y hx hy => h (i + 1) x y hx hy)
        unfold Same at *
        simp only [List.flatMap_cons, List.map_append, h1, h2]
  rw [same_iff]
  have := key o n hl (fun i a b ha hb => same_iff.mp (h i a b ha hb))
  unfold Same at this ⊢
  unfold join
  rw [List.map_cons, List.map_cons, this]

/-- C50.  Changing only the case of letters: the record is renamed twice, by way of a pathname with another F part.
If both are possible, no read changes. -/
theorem C50_case_partial (g : GoodSizes hdrSize maxHash binSize) {past : List Op} {s : Eng}
    (hs : Reachable (create hdrSize maxHash binSize mul).1 (create hdrSize maxHash binSize mul).2 past s) (o n : List Bytes) (v : RenEnv)
    (ho : SixParts o) (hn : SixParts n) (hcase : ∀ (i : Nat) (a b : Bytes), o[i]? = some a → n[i]? = some b → sameUpToCase a b)
    (hf : IsPart v.fpart) (hmem : ∀ j, ∃ b, v.before j = some b)
    (ha1 : Allowed (create hdrSize maxHash binSize mul).1 past s (.rename o (o.set 5 v.fpart) v))
    (ha2 : ∀ s1, run (create hdrSize maxHash binSize mul).1 s (.rename o (o.set 5 v.fpart) v) = some (s1, .ok) →
      Allowed (create hdrSize maxHash binSize mul).1 (past ++ [.rename o (o.set 5 v.fpart) v]) s1 (.rename (o.set 5 v.fpart) n v)) {R : Rec}
    (hr : zread (create hdrSize maxHash binSize mul).1 s (join o) = some (some R))
    (hfree : zread (create hdrSize maxHash binSize mul).1 s (join (o.set 5 v.fpart)) = some none) :
    ∃ s', zrename (create hdrSize maxHash binSize mul).1 s (join o) (join n) v = some (s', .ok) ∧
      ∀ q, q.length ≤ 392 → zread (create hdrSize maxHash binSize mul).1 s' q = zread (create hdrSize maxHash binSize mul).1 s q := by
  have hc := create_OK (mul := mul) g
  have hol : o.length = n.length := by rw [ho.1, hn.1]
  have hsame := same_join hol hcase
  obtain ⟨o0, o1, o2, o3, o4, o5, rfl⟩ : ∃ a b c d e f, o = [a, b, c, d, e, f] := by
    have h6 := ho.1
    match o, h6 with
    | [a, b, c, d, e, f], _ => exact ⟨a, b, c, d, e, f, rfl⟩
  obtain ⟨n0, n1, n2, n3, n4, n5, rfl⟩ : ∃ a b c d e f, n = [a, b, c, d, e, f] := by
    have h6 := hn.1
    match n, h6 with
    | [a, b, c, d, e, f], _ => exact ⟨a, b, c, d, e, f, rfl⟩
  have hset : ([o0, o1, o2, o3, o4, o5] : List Bytes).set 5 v.fpart = [o0, o1, o2, o3, o4, v.fpart] := rfl
  rw [hset] at ha1 ha2 hfree
  obtain ⟨s1, hr1, hz1⟩ := C50_rename_partial g hs _ _ v ha1 hr
  have hren1 : renamed R.dataType [o0, o1, o2, o3, o4, o5] [o0, o1, o2, o3, o4, v.fpart] = join [o0, o1, o2, o3, o4, v.fpart] := by
    unfold renamed keepDates; split <;> rfl
  rw [hren1] at hz1
  have hs1 := reachable_snoc hs ha1 hr1
  have hal2 := ha2 s1 hr1
  obtain ⟨_, ht6, hlo, hlt, hne1, _⟩ := ha1
  obtain ⟨_, _, _, hln, hne2, _⟩ := ha2 s1 hr1
  have hrt : zread (create hdrSize maxHash binSize mul).1 s1 (join [o0, o1, o2, o3, o4, v.fpart]) = some (some R) := by
    rw [hz1 _ hlt, if_pos (same_iff.mpr (Same.refl _))]
  obtain ⟨s2, hr2, hz2⟩ := C50_rename_partial g hs1 _ _ v hal2 hrt
  have hren2 : sameUpToCase (renamed R.dataType [o0, o1, o2, o3, o4, v.fpart] [n0, n1, n2, n3, n4, n5]) (join [o0, o1, o2, o3, o4, o5]) := by
    unfold renamed
    split
    · refine same_join (o := [n0, n1, n2, o3, o4, n5]) rfl ?_
      intro i a b hx hy
      match i with
      | 0 => exact sameUp_symm (hcase 0 b a hy hx)
      | 1 => exact sameUp_symm (hcase 1 b a hy hx)
      | 2 => exact sameUp_symm (hcase 2 b a hy hx)
      | 3 => rw [show a = b by simp at hx hy; rw [← hx, ← hy]]; exact same_iff.mpr (Same.refl _)
      | 4 => rw [show a = b by simp at hx hy; rw [← hx, ← hy]]; exact same_iff.mpr (Same.refl _)
      | 5 => exact sameUp_symm (hcase 5 b a hy hx)
      | i + 6 => simp at hx
    · exact sameUp_symm hsame
  refine ⟨s2, ?_, fun q hq => ?_⟩
  · unfold zrename
    have hsl := (same_iff.mp hsame).length
    rw [if_pos ⟨hsl, (compare_iff _ _ hsl.symm).mpr (same_iff.mp hsame)⟩]
    have hpos : 0 < (join [o0, o1, o2, o3, o4, o5]).length := by unfold join; simp
    obtain ⟨d, e1, e2, e3⟩ := stringCopy_spec (List.replicate 393 0) (join [o0, o1, o2, o3, o4, o5]) (join [o0, o1, o2, o3, o4, o5]).length hpos (Nat.le_refl _) (by rw [List.length_replicate]; exact Nat.lt_of_le_of_lt hlo (by omega))
    rw [e1, Option.bind_some]
    rw [List.take_length] at e3
    simp only
    obtain ⟨b', f1, f2, f3⟩ := setPart_spec [o0, o1, o2, o3, o4, o5] rfl ho.2 5 (by omega) d e3 v.fpart v.junk v.before (Or.inr hmem)
      (by rw [e2]; simp only [List.length_replicate]; exact Nat.lt_of_le_of_lt hlt (by omega))
    have f1' : zpathnameSetPart v.before d v.fpart 6 v.junk = some (b', true) := f1
    rw [f1', Option.bind_some]
    simp only [if_true]
    have hcs : cstr b' = join [o0, o1, o2, o3, o4, v.fpart] := cstr_holds f3 (part_zero ht6.2)
    rw [hcs]
    have u1 : zrenameTo (create hdrSize maxHash binSize mul).1 s (join [o0, o1, o2, o3, o4, o5]) (join [o0, o1, o2, o3, o4, v.fpart]) v = some (s1, .ok) := by
      rw [← hr1]
      unfold zrename
      rw [if_neg (not_case_only (fun h => hne1 (same_iff.mpr h)))]
    have u2 : zrenameTo (create hdrSize maxHash binSize mul).1 s1 (join [o0, o1, o2, o3, o4, v.fpart]) (join [n0, n1, n2, n3, n4, n5]) v = some (s2, .ok) := by
      rw [← hr2]
      unfold zrename
      rw [if_neg (not_case_only (fun h => hne2 (same_iff.mpr h)))]
    rw [u1, Option.bind_some]
    simp only [if_true]
    exact u2
  · have hcg : ∀ p q : Bytes, p.length ≤ 392 → sameUpToCase p q → zread (create hdrSize maxHash binSize mul).1 s q = zread (create hdrSize maxHash binSize mul).1 s p := by
      intro p q hp h
      obtain ⟨G, H⟩ := reach g hs
      rw [zread_abs hc H.inv hp, zread_abs hc H.inv (same_len (same_iff.mp h) hp), live_cong hc (same_iff.mp h)]
    rw [hz2 q hq]
    split
    · next h =>
      rw [hcg _ q hlo (sameUp_trans (sameUp_symm hren2) h), hr]
    · next h =>
      split
      · next h' =>
        rcases h' with h' | h'
        · rw [hcg _ q hlt h', hfree]
        · exact absurd (sameUp_trans hren2 (sameUp_trans hsame h')) h
      · next h' =>
        rw [hz1 q hq]
        split
        · next h2 => exact absurd (Or.inl h2) h'
        · next h2 =>
          split
          · next h3 =>
            rcases h3 with h3 | h3
            · exact absurd (Or.inr (sameUp_trans (sameUp_symm hsame) h3)) h'
            · exact absurd h3 h2
          · rfl

end
end Hec
