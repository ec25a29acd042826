import Verif.Proofs.EngineCopy3
/-! Pathnames and headers of the records of a file, from its history. -/
namespace Hec
set_option linter.unusedSimpArgs false
set_option linter.unusedVariables false
open _root_.Spec (Op Store Step Steps run runs Set DropOne join SixParts IsPart GoodWrite stored renamed keepDates)

theorem upper_slash (x : UInt8) : toupper x = toupper 47 → x = 47 :=
  uint8_all (P := fun x => toupper x = toupper 47 → x = 47) (by decide +kernel) x

theorem upper_nul (x : UInt8) : toupper x = toupper 0 → x = 0 :=
  uint8_all (P := fun x => toupper x = toupper 0 → x = 0) (by decide +kernel) x

theorem upper_inv {x y : UInt8} (h : toupper x = toupper y) (hy : y ≠ 47 ∧ y ≠ 0) : x ≠ 47 ∧ x ≠ 0 := by
  constructor
  · intro hx; subst hx; exact hy.1 (upper_slash y h.symm)
  · intro hx; subst hx; exact hy.2 (upper_nul y h.symm)

theorem part_same {p q : Bytes} (h : p.map toupper = q.map toupper) (hp : IsPart p) : IsPart q := by
  intro x hx
  have : toupper x ∈ q.map toupper := List.mem_map_of_mem hx
  rw [← h] at this
  obtain ⟨y, hy, e⟩ := List.mem_map.mp this
  exact upper_inv e.symm (hp y hy)

theorem parts_same (ps : List Bytes) : ∀ q : Bytes, (∀ p ∈ ps, IsPart p) → (ps.flatMap (· ++ [47])).map toupper = q.map toupper →
    ∃ ps' : List Bytes, ps'.length = ps.length ∧ (∀ p ∈ ps', IsPart p) ∧ q = ps'.flatMap (· ++ [47]) := by
  induction ps with
  | nil =>
    intro q _ h
    refine ⟨[], rfl, by simp, ?_⟩
    have : q.length = 0 := by simpa using (congrArg List.length h).symm
    simpa using this
  | cons p ps ih =>
    intro q hp h
    rw [List.flatMap_cons, List.map_append, List.map_append] at h
    obtain ⟨q1, q2, rfl, h1, h2⟩ := List.map_eq_append_iff.mp h.symm
    obtain ⟨q3, q4, rfl, h3, h4⟩ := List.map_eq_append_iff.mp h1
    have hq4 : q4 = [47] := by
      match q4, h4 with
      | [], h4 => simp at h4
      | [x], h4 =>
        simp only [List.map_cons, List.map_nil, List.cons.injEq, and_true] at h4
        rw [upper_slash x h4]
      | _ :: _ :: _, h4 => simp at h4
    obtain ⟨ps', e1, e2, e3⟩ := ih q2 (fun x hx => hp x (by simp [hx])) h2.symm
    refine ⟨q3 :: ps', by simp [e1], ?_, ?_⟩
    · intro x hx
      rcases List.mem_cons.mp hx with hx | hx
      · rw [hx]; exact part_same h3.symm (hp p (by simp))
      · exact e2 x hx
    · rw [List.flatMap_cons, ← e3, hq4]

theorem six_same {p q : Bytes} (h : Same p q) : (∃ ps, SixParts ps ∧ p = join ps) → ∃ ps, SixParts ps ∧ q = join ps := by
  rintro ⟨ps, ⟨h6, hp⟩, rfl⟩
  unfold Same join at h
  rw [List.map_cons] at h
  match q, h with
  | x :: q, h =>
    simp only [List.map_cons, List.cons.injEq] at h
    obtain ⟨ps', e1, e2, e3⟩ := parts_same ps q hp h.2
    refine ⟨ps', ⟨by rw [e1]; exact h6, e2⟩, ?_⟩
    unfold join
    rw [upper_slash x h.1.symm, e3]

/-- The pathnames have six parts, and the headers are of the new form. -/
def NamesOK (st : Store) : Prop :=
  ∀ q R, st.live q = some R ∨ R ∈ st.trash q → (∃ ps, SixParts ps ∧ q = join ps) ∧
    (100 ≤ R.dataType → R.dataType ≤ 119 → 18 < R.ih.length → R.ih[17]? = some 0 ∨ R.ih[17]? = some 0x20202020)

theorem NamesOK.set {f f' : Bytes → Option Rec} {p : Bytes} {v : Option Rec} (h : Set f f' p v) {q : Bytes} {R : Rec} (hq : f' q = some R) :
    (Same p q ∧ v = some R) ∨ f q = some R := by
  by_cases hs : Spec.sameUpToCase p q
  · left; exact ⟨same_iff.mp hs, by rw [← (h q).1 hs]; exact hq⟩
  · right; rw [← (h q).2 hs]; exact hq

theorem six_renamed {t : UInt32} {o n : List Bytes} (ho : SixParts o) (hn : SixParts n) : ∃ ps, SixParts ps ∧ renamed t o n = join ps := by
  unfold renamed
  split
  · refine ⟨_, ⟨?_, ?_⟩, rfl⟩
    · have := ho.1; have := hn.1
      simp only [List.length_append, List.length_take, List.length_drop]; omega
    · intro p hp
      simp only [List.mem_append] at hp
      rcases hp with (hp | hp) | hp
      · exact hn.2 p (List.mem_of_mem_take hp)
      · exact ho.2 p (List.mem_of_mem_drop (List.mem_of_mem_take hp))
      · exact hn.2 p (List.mem_of_mem_drop hp)
  · exact ⟨n, hn, rfl⟩

theorem NamesOK.step {st st' : Store} {op : Op} {res : Res} (h : Step st op res st') : GoodWrite op → NamesOK st → NamesOK st' := by
  induction h with
  | writeNew h1 h2 h3 =>
    intro W L q R hR
    rcases hR with hR | hR
    · rcases NamesOK.set h2 hR with ⟨hs, h⟩ | h
      · injection h with h; rw [← h]; exact ⟨six_same hs W.1, W.2⟩
      · exact L q R (Or.inl h)
    · exact L q R (Or.inr (DropOne.mem h3 hR))
  | overwrite h1 h2 h3 h4 =>
    intro W L q R hR
    rcases hR with hR | hR
    · rcases NamesOK.set h3 hR with ⟨hs, h⟩ | h
      · injection h with h; rw [← h]; exact ⟨six_same hs W.1, W.2⟩
      · exact L q R (Or.inl h)
    · rw [h4] at hR; exact L q R (Or.inr hR)
  | refused => exact fun _ => id
  | @delete st1 p R0 h1 h2 h3 =>
    intro _ L q R hR
    rcases hR with hR | hR
    · rcases NamesOK.set h2 hR with ⟨_, h⟩ | h
      · cases h
      · exact L q R (Or.inl h)
    · by_cases hs : Spec.sameUpToCase p q
      · rw [(h3 q).1 hs] at hR
        have : _ ∧ _ := L p R (by
          rcases List.mem_cons.mp hR with h | h
          · subst h; exact Or.inl h1
          · exact Or.inr h)
        exact ⟨six_same (same_iff.mp hs) this.1, this.2⟩
      · rw [(h3 q).2 hs] at hR; exact L q R (Or.inr hR)
  | deleteMissing => exact fun _ => id
  | @undelete st1 p R0 rest h1 h2 h3 =>
    intro _ L q R hR
    rcases hR with hR | hR
    · rcases NamesOK.set h2 hR with ⟨hs, h⟩ | h
      · injection h with h; subst h
        have : _ ∧ _ := L p R0 (Or.inr (by rw [h1]; exact List.mem_cons_self ..))
        exact ⟨six_same hs this.1, this.2⟩
      · exact L q R (Or.inl h)
    · by_cases hs : Spec.sameUpToCase p q
      · rw [(h3 q).1 hs] at hR
        have : _ ∧ _ := L p R (Or.inr (by rw [h1]; simp [hR]))
        exact ⟨six_same (same_iff.mp hs) this.1, this.2⟩
      · rw [(h3 q).2 hs] at hR; exact L q R (Or.inr hR)
  | undeleteMissing => exact fun _ => id
  | rename h1 h2 h3 h4 h5 ih =>
    intro W L q R hR
    have L1 := ih trivial L
    rcases hR with hR | hR
    · rcases NamesOK.set h4 hR with ⟨hs, h⟩ | h
      · injection h with h; subst h
        exact ⟨six_same hs (six_renamed W.1 W.2), (L1 _ _ (Or.inl h2)).2⟩
      · rcases NamesOK.set h3 h with ⟨_, h⟩ | h
        · cases h
        · exact L1 q R (Or.inl h)
    · exact L1 q R (Or.inr (DropOne.mem h5 hR))
  | renameMissing h1 h2 ih => exact fun _ => ih trivial

theorem NamesOK.steps {st st' : Store} {ops : List Op} {ress : List Res} (h : Steps st ops ress st') :
    (∀ op ∈ ops, GoodWrite op) → NamesOK st → NamesOK st' := by
  induction h with
  | nil => exact fun _ => id
  | cons h1 _ ih => exact fun W L => ih (fun op hop => W op (by simp [hop])) (NamesOK.step h1 (W _ (by simp)) L)

end Hec
