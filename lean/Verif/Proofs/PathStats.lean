import Verif.Spec.PathStats
import Verif.Props.Undelete
import Verif.Props.Rename
import Verif.Props.OldNames
import Verif.Proofs.SeriesLoop
/-!
C100: the numbers of the header after one call, against the abstract contents of the file.
-/
namespace Hec
set_option linter.unusedSimpArgs false
set_option linter.unusedVariables false
open _root_.Spec (Op Store Step Steps run runs Allowed AllAllowed Reachable GoodSizes create join keepDates renamed SixParts IsPart Set DropOne
  statsAfter statsRuns HasRoom FromOne)
open Hec.Spec (sameUpToCase)

/-- What the program takes for the length of the `k`-th part. -/
def lensOf (p : Bytes) (k : Nat) : Int := (zpathnamePartLengths p 6).2.getD k 0

/-- The numbers are not less than those of `p`. -/
def Fits (st : PathStats) (p : Bytes) : Prop := (p.length : Int) ≤ st.maxPath ∧ ∀ k, lensOf p k ≤ st.part k

theorem lengthsLoop_same : ∀ (p q : Bytes), Same p q → ∀ (i st : Int) (acc : List Int) (size : Nat),
    partLengthsLoop p i st acc size = partLengthsLoop q i st acc size := by
  intro p
  induction p with
  | nil =>
    intro q h i st acc size
    have : q = [] := by have := h.length; simpa using this.symm
    rw [this]
  | cons a p ih =>
    intro q h i st acc size
    cases q with
    | nil => have := h.length; simp at this
    | cons b q =>
      have h' : toupper a = toupper b ∧ Same p q := by
        unfold Same at h ⊢
        simpa using h
      have hab : a = SLASH ↔ b = SLASH := by
        constructor
        · rintro rfl
          exact toupper_slash b (h'.1.symm.trans (by decide))
        · rintro rfl
          exact toupper_slash a (h'.1.trans (by decide))
      simp only [partLengthsLoop]
      by_cases ha : a = SLASH
      · rw [if_pos ha, if_pos (hab.1 ha), ih q h'.2]
      · rw [if_neg ha, if_neg (fun hb => ha (hab.2 hb)), ih q h'.2]

theorem lens_same {p q : Bytes} (h : Same p q) (k : Nat) : lensOf p k = lensOf q k := by
  have hd : Same (p.drop 1) (q.drop 1) := by
    unfold Same at h ⊢
    rw [List.map_drop, List.map_drop, h]
  unfold lensOf zpathnamePartLengths
  simp only
  rw [lengthsLoop_same _ _ hd]

theorem fits_same {st : PathStats} {p q : Bytes} (h : Same p q) (f : Fits st p) : Fits st q :=
  ⟨by rw [← h.length]; exact f.1, fun k => by rw [← lens_same h]; exact f.2 k⟩

theorem lens_join {ps : List Bytes} (h : SixParts ps) (k : Nat) : lensOf (join ps) k = ((ps.getD k []).length : Int) := by
  have hp : ∀ p ∈ ps, ∀ c ∈ p, c ≠ 47 := fun p hp c hc => (h.2 p hp c hc).1
  have hpl : zpathnamePartLengths (join ps) 6 = (6, ps.map (fun p => (p.length : Int))) := by
    unfold zpathnamePartLengths join
    simp only [List.drop_succ_cons, List.drop_zero, show ¬ ((6 : Nat) > 6) from by omega, if_false]
    have h2 := partLengths_join ps hp 1 [] 6 (by have := h.1; simp; omega)
    simp only [List.nil_append] at h2
    rw [show (1 : Int) - 1 = 0 from rfl] at h2
    rw [h2]
    simp [h.1]
  unfold lensOf
  rw [hpl]
  simp only [List.getD_eq_getElem?_getD, List.getElem?_map]
  cases ps[k]? with
  | none => simp
  | some x => simp

theorem lengthsLoop_bound (l : Bytes) : ∀ (i st : Int) (acc : List Int) (size : Nat) (m : Int), 0 ≤ st → st < i → i + l.length ≤ m + 1 →
    (∀ x ∈ acc, 0 ≤ x ∧ x ≤ m) → ∀ x ∈ partLengthsLoop l i st acc size, 0 ≤ x ∧ x ≤ m := by
  induction l with
  | nil => intro i st acc size m _ _ _ h; exact h
  | cons a l ih =>
    intro i st acc size m h0 h1 h2 h
    simp only [List.length_cons] at h2
    simp only [partLengthsLoop]
    by_cases ha : a = SLASH
    · rw [if_pos ha]
      refine ih (i + 1) i _ size m (by omega) (by omega) (by omega) ?_
      split
      · intro x hx
        rcases List.mem_append.mp hx with hx | hx
        · exact h x hx
        · simp only [List.mem_cons, List.not_mem_nil, or_false] at hx
          omega
      · exact h
    · rw [if_neg ha]
      exact ih (i + 1) st acc size m h0 (by omega) (by omega) h

theorem lens_bound (p : Bytes) (k : Nat) : 0 ≤ lensOf p k ∧ lensOf p k ≤ p.length := by
  have key : ∀ x ∈ (zpathnamePartLengths p 6).2, 0 ≤ x ∧ x ≤ (p.length : Int) := by
    intro x hx
    unfold zpathnamePartLengths at hx
    simp only at hx
    rcases List.mem_append.mp hx with hx | hx
    · exact lengthsLoop_bound (p.drop 1) 1 0 [] _ p.length (by omega) (by omega) (by simp only [List.length_drop]; omega) (by simp) x hx
    · rw [List.mem_replicate] at hx
      omega
  unfold lensOf
  rw [List.getD_eq_getElem?_getD]
  cases h : (zpathnamePartLengths p 6).2[k]? with
  | none => simp
  | some x => exact key x (List.mem_of_getElem? h)

theorem update_fits (st : PathStats) (p : Bytes) : Fits (zupdatePathStats st p) p := by
  constructor
  · simp only [zupdatePathStats]; split <;> omega
  · intro k
    simp only [zupdatePathStats, lensOf]
    split <;> omega

theorem update_more (st : PathStats) (p : Bytes) {q : Bytes} (f : Fits st q) : Fits (zupdatePathStats st p) q := by
  obtain ⟨f1, f2⟩ := f
  constructor
  · simp only [zupdatePathStats]; split <;> omega
  · intro k
    have := f2 k
    simp only [zupdatePathStats]
    split <;> omega

theorem update_from (st : PathStats) (p : Bytes) (k : Nat) : (zupdatePathStats st p).part k = st.part k ∨ (zupdatePathStats st p).part k = lensOf p k := by
  simp only [zupdatePathStats, lensOf]
  split
  · exact Or.inr rfl
  · exact Or.inl rfl

/-- There is, or was, a record with this pathname. -/
def Occupied (S : Store) (p : Bytes) : Prop := S.live p ≠ none ∨ S.trash p ≠ []

theorem drop_nonempty {f f' : Bytes → List Rec} (h : DropOne f f') {q : Bytes} (hq : f' q ≠ []) : f q ≠ [] := by
  obtain ⟨t, i, h⟩ := h
  intro he
  apply hq
  by_cases ht : sameUpToCase t q
  · rw [(h q).1 ht, he]; rfl
  · rw [(h q).2 ht, he]

theorem occupied_delete {S S' : Store} {p : Bytes} {res : Res} (h : Step S (.delete p) res S') (hl : ∀ p q, sameUpToCase p q → S.live p = S.live q)
    {q : Bytes} (hq : Occupied S' q) : Occupied S q := by
  cases h with
  | deleteMissing _ => exact hq
  | @delete _ _ R h1 h2 h3 =>
    by_cases hs : sameUpToCase p q
    · left; rw [← hl p q hs, h1]; simp
    · rcases hq with hq | hq
      · left; rwa [(h2 q).2 hs] at hq
      · right; rwa [(h3 q).2 hs] at hq

variable {c : Cfg}

/-- The pathname that a record gets, in the program and in the specification. -/
theorem rename_path (hc : c.OK) {G : Ghost} {s : Eng} (I : Inv c G s) {o n : List Bytes} (ho : SixParts o) (hn : SixParts n) (junk : Int)
    (hlo : (join o).length ≤ 392) {R : Rec} (hR : (abs c G s.disk).live (join o) = some R)
    (hw : nLongsB (renamed R.dataType o n).length ≤ nLongsB (join n).length) :
    ∃ k, zcheck c s (join o) REC_STATUS_VALID = some k ∧ k.found = true ∧
      (if 100 ≤ lo32 (s.disk (k.pathBinAddress + 4)) ∧ lo32 (s.disk (k.pathBinAddress + 4)) < 200 then renamePath (join o) (join n) junk
        else some (mallocAndCopyPath (join n))) = some (renamed R.dataType o n) := by
  obtain ⟨A, B, e, T, hm, hl, hA, hB⟩ := live_entry hc I hlo hR
  obtain ⟨k, hk, hkf, _, hat, _⟩ := kill_ok hc I hlo T hm hA
  refine ⟨k, hk, hkf, ?_⟩
  obtain ⟨_, _, _, _, hat4, _⟩ := hat
  have hdt : lowInt (s.disk (e.infoAdd + kinfoTypeVersion)) = R.dataType := by rw [← T.rcd.eq]; rfl
  have ht := bin_type T.rcd.ok.tc
  rw [hdt] at ht
  rw [hat4]
  by_cases h : 100 ≤ R.dataType ∧ R.dataType < 200
  · rw [if_pos (ht.mpr h)]
    simp only [renamed, if_pos h] at hw ⊢
    refine renamePath_join ho hn junk ?_
    simp only [nLongsB] at hw
    omega
  · rw [if_neg (fun h1 => h (ht.mp h1))]
    simp only [renamed, if_neg h]
    rw [mallocAndCopyPath_join hn]

/-- What a call does to the numbers. -/
def StatsStep (S S' : Store) (op : Op) (st st' : PathStats) : Prop :=
  (st' = st ∨ ∃ p ∈ op.paths, p.length ≤ 392 ∧ st' = zupdatePathStats st p) ∧
    ∀ q, Occupied S' q → Occupied S q ∨ ∃ p, st' = zupdatePathStats st p ∧ sameUpToCase p q

theorem stats_from (hc : c.OK) {G : Ghost} {s : Eng} (I : Inv c G s) {o n : List Bytes} (ho : SixParts o) (hn : SixParts n) (v : RenEnv)
    (hlo : (join o).length ≤ 392) (st : PathStats)
    (hw : ∀ R, (abs c G s.disk).live (join o) = some R → nLongsB (renamed R.dataType o n).length ≤ nLongsB (join n).length) :
    statsFrom c s (join o) (join n) v st = some (match (abs c G s.disk).live (join o) with
      | none => st
      | some R => zupdatePathStats st (renamed R.dataType o n)) := by
  unfold statsFrom
  cases hR : (abs c G s.disk).live (join o) with
  | none =>
    obtain ⟨k, hk, hkf⟩ := zcheck_found hc I hlo
    rw [hR] at hkf
    have hkf : k.found = false := hkf
    rw [hk, Option.bind_some, if_pos hkf]
  | some R =>
    obtain ⟨k, hk, hkf, hp⟩ := rename_path hc I ho hn v.junk hlo hR (hw R hR)
    rw [hk, Option.bind_some, if_neg (by rw [hkf]; decide)]
    simp only
    rw [hp]
    rfl

theorem stats_step (hc : c.OK) {G G' : Ghost} {s s' : Eng} {past : List Op} (H : HInv c G s past) {op : Op} (ha : Allowed c past s op) {res : Res}
    (S : Stepped c op G s res G' s') (st : PathStats) :
    ∃ st', statsAfter c s st op = some st' ∧ StatsStep (abs c G s.disk) (abs c G' s'.disk) op st st' := by
  have hst := S.step
  have hcg : ∀ p q, sameUpToCase p q → (abs c G s.disk).live p = (abs c G s.disk).live q := fun p q h => (live_cong hc (same_iff.mp h)).symm
  cases op with
  | write r =>
    have hrd := zread_abs hc H.inv (q := r.path) ha.2.1
    unfold zread at hrd
    rw [Option.map_eq_some_iff] at hrd
    obtain ⟨p, hp, hv⟩ := hrd
    generalize abs c G' s'.disk = S' at hst ⊢
    generalize abs c G s.disk = S0 at hst hcg hv ⊢
    simp only [statsAfter, statsWrite, hp, Option.map_some]
    refine ⟨_, rfl, ?_⟩
    cases hst with
    | writeNew h1 h2 h3 =>
      rw [h1, Option.map_eq_none_iff] at hv
      rw [hv]
      refine ⟨Or.inr ⟨r.path, by simp [Op.paths], ha.2.1, rfl⟩, fun q hq => ?_⟩
      by_cases hs : sameUpToCase r.path q
      · exact Or.inr ⟨_, rfl, hs⟩
      · left
        rcases hq with hq | hq
        · left; rwa [(h2 q).2 hs] at hq
        · exact Or.inr (drop_nonempty h3 hq)
    | @overwrite _ _ R h1 _ h3 h4 =>
      rw [h1, Option.map_eq_some_iff] at hv
      obtain ⟨info, hi, _⟩ := hv
      rw [hi]
      refine ⟨Or.inl rfl, fun q hq => Or.inl ?_⟩
      by_cases hs : sameUpToCase r.path q
      · left; rw [← hcg _ _ hs, h1]; simp
      · rcases hq with hq | hq
        · left; rwa [(h3 q).2 hs] at hq
        · right; rwa [h4] at hq
    | @refused _ R h1 _ =>
      rw [h1, Option.map_eq_some_iff] at hv
      obtain ⟨info, hi, _⟩ := hv
      rw [hi]
      exact ⟨Or.inl rfl, fun q hq => Or.inl hq⟩
  | delete p => exact ⟨st, rfl, Or.inl rfl, fun q hq => Or.inl (occupied_delete hst hcg hq)⟩
  | undelete p =>
    have htr : ∀ p q, sameUpToCase p q → (abs c G s.disk).trash p = (abs c G s.disk).trash q := fun p q h => trash_same hc (same_iff.mp h)
    refine ⟨st, rfl, Or.inl rfl, ?_⟩
    generalize abs c G' s'.disk = S' at hst ⊢
    generalize abs c G s.disk = S0 at hst hcg htr ⊢
    intro q hq
    left
    cases hst with
    | @undelete _ _ R rest h1 h2 h3 =>
      by_cases hs : sameUpToCase p q
      · right; rw [← htr _ _ hs, h1]; simp
      · rcases hq with hq | hq
        · left; rwa [(h2 q).2 hs] at hq
        · right; rwa [(h3 q).2 hs] at hq
    | undeleteMissing _ => exact hq
  | rename o n v =>
    obtain ⟨ho, hn, hlo, hln, hne, hg⟩ := ha
    have hno : ¬ sameUpToCase (join n) (join o) := fun h => hne (sameUp_symm h)
    have hw : ∀ R, (abs c G s.disk).live (join o) = some R → nLongsB (renamed R.dataType o n).length ≤ nLongsB (join n).length :=
      fun R hR => (hg R (by rw [zread_abs hc H.inv hlo, hR])).2.1
    have h392 : ∀ R, (abs c G s.disk).live (join o) = some R → (renamed R.dataType o n).length ≤ 392 :=
      fun R hR => (hg R (by rw [zread_abs hc H.inv hlo, hR])).1
    have hst' : statsAfter c s st (.rename o n v) = some (match (abs c G s.disk).live (join o) with
        | none => st
        | some R => zupdatePathStats st (renamed R.dataType o n)) := by
      show statsRename c s (join o) (join n) v st = _
      unfold statsRename
      rw [if_neg (not_case_only (fun h => hne (same_iff.mpr h)))]
      unfold statsTo
      obtain ⟨k, hk, hkf⟩ := zcheck_found hc H.inv hln
      rw [hk, Option.bind_some]
      cases hT : (abs c G s.disk).live (join n) with
      | none =>
        rw [hT] at hkf
        have hkf : k.found = false := hkf
        rw [if_neg (by rw [hkf]; decide)]
        exact stats_from hc H.inv ho hn v hlo st hw
      | some T =>
        rw [hT] at hkf
        have hkf : k.found = true := hkf
        rw [if_pos hkf]
        obtain ⟨G1, s1, hr1, H1, _⟩ := H.delete_ok hc hln (R := T) (by rw [zread_abs hc H.inv hln, hT])
        obtain ⟨G2, s2, res2, hr2, S2, H2⟩ := H.step hc (op := .delete (join n)) hln
        have : some (s2, res2) = some (s1, .ok) := hr2.symm.trans hr1
        simp only [Option.some.injEq, Prod.mk.injEq] at this
        obtain ⟨rfl, rfl⟩ := this
        rw [hr1, Option.bind_some, if_pos rfl]
        have hset := delete_live S2.step hcg
        have e : (abs c G2 s2.disk).live (join o) = (abs c G s.disk).live (join o) := (hset (join o)).2 hno
        rw [stats_from hc S2.inv ho hn v hlo st (fun R hR => hw R (by rw [← e]; exact hR)), e]
    refine ⟨_, hst', ?_⟩
    generalize abs c G' s'.disk = S' at hst ⊢
    generalize abs c G s.disk = S0 at hst hcg hw h392 ⊢
    cases hst with
    | renameMissing hd hno' =>
      have h0 : S0.live (join o) = none := by rw [← (delete_live hd hcg (join o)).2 hno]; exact hno'
      rw [h0]
      exact ⟨Or.inl rfl, fun q hq => Or.inl (occupied_delete hd hcg hq)⟩
    | @rename st1 _ _ _ _ res1 R mid hd hsome hmid hfin htr =>
      have h0 : S0.live (join o) = some R := by rw [← (delete_live hd hcg (join o)).2 hno]; exact hsome
      rw [h0]
      refine ⟨Or.inr ⟨_, ?_, h392 R h0, rfl⟩, fun q hq => ?_⟩
      · simp only [Op.paths, renamed]
        split <;> simp
      · by_cases hs : sameUpToCase (renamed R.dataType o n) q
        · exact Or.inr ⟨_, rfl, hs⟩
        · left
          refine occupied_delete hd hcg ?_
          rcases hq with hq | hq
          · left
            rw [(hfin q).2 hs] at hq
            by_cases hq2 : sameUpToCase (join o) q
            · rw [(hmid q).1 hq2] at hq; exact absurd rfl hq
            · rwa [(hmid q).2 hq2] at hq
          · exact Or.inr (drop_nonempty htr hq)

/-- The numbers are enough for all records, and each is that of some pathname of a call. -/
structure StatsInv (S : Store) (past : List Op) (st : PathStats) : Prop where
  fits : ∀ p, Occupied S p → Fits st p
  one : ∀ k, st.part k = 0 ∨ ∃ p ∈ past.flatMap Op.paths, st.part k = lensOf p k
  small : ∀ k, 0 ≤ st.part k ∧ st.part k ≤ 392

theorem StatsInv.step {S S' : Store} {past : List Op} {op : Op} {st st' : PathStats} (V : StatsInv S past st) (h : StatsStep S S' op st st') :
    StatsInv S' (past ++ [op]) st' := by
  obtain ⟨h1, h2⟩ := h
  constructor
  · intro q hq
    rcases h2 q hq with h | ⟨p, rfl, hs⟩
    · rcases h1 with rfl | ⟨p, _, _, rfl⟩
      · exact V.fits q h
      · exact update_more _ _ (V.fits q h)
    · exact fits_same (same_iff.mp hs) (update_fits _ _)
  · intro k
    have old : st.part k = 0 ∨ ∃ p ∈ (past ++ [op]).flatMap Op.paths, st.part k = lensOf p k := by
      rcases V.one k with h | ⟨p, hp, h⟩
      · exact Or.inl h
      · exact Or.inr ⟨p, by rw [List.flatMap_append]; exact List.mem_append_left _ hp, h⟩
    rcases h1 with rfl | ⟨p, hp, _, rfl⟩
    · exact old
    · rcases update_from st p k with h | h
      · rw [h]; exact old
      · exact Or.inr ⟨p, by rw [List.flatMap_append]; exact List.mem_append_right _ (by simpa using hp), h⟩
  · intro k
    rcases h1 with rfl | ⟨p, hp, hl, rfl⟩
    · exact V.small k
    · have := V.small k
      have := lens_bound p k
      rcases update_from st p k with h | h <;> omega

theorem stats_runs (hc : c.OK) (ops : List Op) : ∀ {G : Ghost} {s s' : Eng} {past : List Op} {st : PathStats} {ress : List Res}, HInv c G s past →
    StatsInv (abs c G s.disk) past st → AllAllowed c past s ops → runs c s ops = some (s', ress) →
    ∃ G' st', statsRuns c s st ops = some st' ∧ HInv c G' s' (past ++ ops) ∧ StatsInv (abs c G' s'.disk) (past ++ ops) st' := by
  induction ops with
  | nil =>
    intro G s s' past st ress H V _ hr
    simp only [runs, Option.some.injEq, Prod.mk.injEq] at hr
    obtain ⟨rfl, _⟩ := hr
    exact ⟨G, st, rfl, by simpa using H, by simpa using V⟩
  | cons op ops ih =>
    intro G s s' past st ress H V ha hr
    obtain ⟨G1, s1, res, hr1, S, H1⟩ := H.step hc ha.1
    obtain ⟨st1, hs1, hstep⟩ := stats_step hc H ha.1 S st
    simp only [runs, hr1, Option.bind_some, Option.map_eq_some_iff] at hr
    obtain ⟨⟨s2, r2⟩, hr2, he⟩ := hr
    simp only [Prod.mk.injEq] at he
    obtain ⟨rfl, _⟩ := he
    obtain ⟨G', st', k1, k2, k3⟩ := ih H1 (V.step hstep) (ha.2 s1 res hr1) hr2
    refine ⟨G', st', ?_, by simpa using k2, by simpa using k3⟩
    simp only [statsRuns, hs1, hr1, Option.bind_some]
    exact k1

theorem empty_stats (past : List Op) : StatsInv Store.empty past noPathStats :=
  ⟨fun p h => by rcases h with h | h <;> exact absurd rfl h, fun k => Or.inl rfl, fun k => ⟨Int.le_refl 0, show (0:Int) ≤ 392 by decide⟩⟩

end Hec
