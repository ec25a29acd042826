import Verif.Proofs.FPart
/-!
C65: F parts with tags have one normal form.
-/
namespace Hec
open _root_.Spec (splitBar pieces tagOf tagsOf textsOf ValidTag Tagged canonical)

theorem tagOf_none {p : Bytes} (h : 58 ∉ p) : tagOf p = none := by
  unfold tagOf
  split
  · exact absurd (by simp) h
  · rfl

theorem tagOf_mem {p : Bytes} {t : UInt8 × Bytes} (h : tagOf p = some t) : 58 ∈ p := by
  apply Decidable.byContradiction
  intro hn
  rw [tagOf_none hn] at h; cases h

theorem letter_of {c : UInt8} {v : Bytes} (h : ValidTag c v) : c ∈ TAG_CHARACTERS := by
  unfold TAG_CHARACTERS
  rcases h with ⟨h, _⟩ | h | ⟨h, _⟩ | ⟨h, _⟩ | ⟨h, _⟩ <;> subst h <;> decide

theorem findIdx_none {p : Bytes} (h : 58 ∉ p) : p.findIdx? (fun x => decide (x = 58)) = none := by
  rw [List.findIdx?_eq_none_iff]
  intro x hx
  simp only [decide_eq_false_iff_not]
  exact fun e => h (e ▸ hx)

theorem fToken_text {p : FParse} {tok : Bytes} (h : 58 ∉ tok) :
    fToken p tok = match p.text with
      | some _ => ({ p with status := F_MULTIPLE_UNTAGGED_PARTS }, false)
      | none => ({ p with text := some tok }, true) := by
  unfold fToken
  rw [findIdx_none h]
  obtain ⟨a, b, x⟩ := p
  cases x <;> rfl

theorem fToken_tag {p : FParse} {tok : Bytes} {t : UInt8 × Bytes} (h : tagOf tok = some t) (hv : ValidTag t.1 t.2) (hn : t.1 ∉ p.tags.map Prod.fst) :
    fToken p tok = ({ p with tags := p.tags ++ [t] }, true) := by
  unfold tagOf at h
  split at h
  · rename_i c v
    injection h with h; subst h
    have hc : c ≠ 58 := by
      intro e; subst e
      have : (58 : UInt8) ∈ TAG_CHARACTERS := by simpa using letter_of hv
      exact absurd this (by decide)
    have e0 : (c :: 58 :: v).findIdx? (fun x => decide (x = 58)) = some 1 := by
      simp [List.findIdx?_cons, hc]
    unfold fToken
    rw [e0]
    simp only [ne_eq, not_true_eq_false, if_false, List.getD_cons_zero, List.drop_succ_cons, List.drop_zero]
    have hl := letter_of hv
    simp only at hl hv hn
    have e1 : toupper c = if 97 ≤ c ∧ c ≤ 122 then c - 32 else c := rfl
    rw [e1, if_neg (by simpa using hl), if_neg, if_neg]
    · rw [(validate_iff _ _).2 hv]; simp
    · simp only [List.any_eq_true, not_exists, not_and, beq_iff_eq]
      exact fun x hx e => hn (List.mem_map.2 ⟨x, hx, e⟩)
  · cases h

theorem tagError_ne (c : UInt8) : tagError c ≠ 0 := by
  unfold tagError
  repeat' split
  all_goals decide

theorem fToken_bad {p : FParse} {tok : Bytes} (h : 58 ∈ tok) (hb : ¬ ∃ t, tagOf tok = some t ∧ ValidTag t.1 t.2 ∧ t.1 ∉ p.tags.map Prod.fst) :
    (fToken p tok).2 = false ∧ (fToken p tok).1.status ≠ 0 := by
  unfold fToken
  cases hi : tok.findIdx? (fun x => decide (x = 58)) with
  | none =>
    rw [List.findIdx?_eq_none_iff] at hi
    have := hi 58 h
    simp at this
  | some i =>
    simp only
    split
    · exact ⟨rfl, by show F_INVALID_TAG_FORMAT ≠ 0; decide⟩
    · rename_i h1
      have h1 : i = 1 := by simpa using h1
      subst h1
      split
      · exact ⟨rfl, by show F_INVALID_TAG_CHARACTER ≠ 0; decide⟩
      · rename_i h2
        split
        · exact ⟨rfl, by show F_REPEATED_TAG_CHARACTER ≠ 0; decide⟩
        · rename_i h3
          split
          · exact ⟨rfl, tagError_ne _⟩
          · rename_i h4
            exfalso
            apply hb
            obtain ⟨a, b, v, rfl⟩ : ∃ a b v, tok = a :: b :: v := by
              match tok, hi with
              | [a], hi => simp [List.findIdx?_cons] at hi
              | a :: b :: v, _ => exact ⟨a, b, v, rfl⟩
            have hab : a ≠ 58 ∧ b = 58 := by
              simp only [List.findIdx?_cons] at hi
              by_cases ha : a = 58
              · simp [ha] at hi
              · by_cases hb' : b = 58
                · exact ⟨ha, hb'⟩
                · simp [ha, hb'] at hi
            obtain ⟨_, rfl⟩ := hab
            refine ⟨(toupper a, v), rfl, ?_, ?_⟩
            · have : validateFPartTag (toupper a) v = true := by simpa using h4
              exact (validate_iff _ _).1 this
            · intro hm
              obtain ⟨x, hx, e⟩ := List.mem_map.1 hm
              apply h3
              rw [List.any_eq_true]
              exact ⟨x, hx, by simpa using e⟩

theorem fRun_spec : ∀ (ps : List Bytes) (tags : List (UInt8 × Bytes)) (text : Option Bytes), (tags.map Prod.fst).Nodup → text.toList.length ≤ 1 →
    ((fRun ps ⟨0, tags, text⟩).status = 0 ↔ (∀ p ∈ ps, 58 ∉ p ∨ ∃ t, tagOf p = some t ∧ ValidTag t.1 t.2) ∧
      ((tags ++ ps.filterMap tagOf).map Prod.fst).Nodup ∧ (text.toList ++ ps.filter fun p => !p.contains 58).length ≤ 1) ∧
    ((fRun ps ⟨0, tags, text⟩).status = 0 → (fRun ps ⟨0, tags, text⟩).tags = tags ++ ps.filterMap tagOf ∧
      (fRun ps ⟨0, tags, text⟩).text.toList = text.toList ++ ps.filter fun p => !p.contains 58)
  | [], tags, text, h1, h2 => by
    refine ⟨⟨fun _ => ⟨by simp, by simpa using h1, by simpa using h2⟩, fun _ => rfl⟩, fun _ => ⟨by simp [fRun], by simp [fRun]⟩⟩
  | tok :: ps, tags, text, h1, h2 => by
    by_cases hc : 58 ∈ tok
    · have hcf : (!tok.contains 58) = false := by simpa using hc
      by_cases hg : ∃ t, tagOf tok = some t ∧ ValidTag t.1 t.2 ∧ t.1 ∉ tags.map Prod.fst
      · obtain ⟨t, ht, hv, hn⟩ := hg
        have e : fRun (tok :: ps) ⟨0, tags, text⟩ = fRun ps ⟨0, tags ++ [t], text⟩ := by
          simp only [fRun]
          rw [fToken_tag ht hv hn]
        have hnd : ((tags ++ [t]).map Prod.fst).Nodup := by
          rw [List.map_append, List.nodup_append]
          refine ⟨h1, by simp, ?_⟩
          intro a ha b hb
          simp only [List.map_cons, List.map_nil, List.mem_singleton] at hb
          rintro rfl
          exact hn (hb ▸ ha)
        obtain ⟨k1, k2⟩ := fRun_spec ps (tags ++ [t]) text hnd h2
        rw [e, List.filterMap_cons_some ht, List.filter_cons_of_neg (by rw [hcf]; decide)]
        rw [List.append_assoc] at k1 k2
        refine ⟨?_, k2⟩
        rw [k1]
        simp only [List.mem_cons, forall_eq_or_imp]
        constructor
        · rintro ⟨a, b⟩; exact ⟨⟨Or.inr ⟨t, ht, hv⟩, a⟩, b⟩
        · rintro ⟨⟨_, a⟩, b⟩; exact ⟨a, b⟩
      · have hbad := fToken_bad (p := ⟨0, tags, text⟩) hc hg
        have e : (fRun (tok :: ps) ⟨0, tags, text⟩).status ≠ 0 := by
          simp only [fRun]
          cases hf : fToken ⟨0, tags, text⟩ tok with
          | mk p' b =>
            rw [hf] at hbad
            obtain ⟨rfl, hs⟩ := hbad
            exact hs
        refine ⟨⟨fun h => absurd h e, ?_⟩, fun h => absurd h e⟩
        rintro ⟨ha, hb, _⟩
        exfalso
        rcases ha tok (by simp) with h | ⟨t, ht, hv⟩
        · exact h hc
        · apply hg
          refine ⟨t, ht, hv, ?_⟩
          rw [List.filterMap_cons_some ht, List.map_append, List.nodup_append] at hb
          intro hm
          exact hb.2.2 _ hm _ (by simp) rfl
    · have hcf : (!tok.contains 58) = true := by simpa using hc
      rw [List.filterMap_cons_none (tagOf_none hc), List.filter_cons_of_pos (p := fun p : Bytes => !p.contains 58) hcf]
      cases text with
      | some x =>
        have e : (fRun (tok :: ps) ⟨0, tags, some x⟩).status ≠ 0 := by
          simp only [fRun]
          rw [fToken_text hc]
          show F_MULTIPLE_UNTAGGED_PARTS ≠ 0
          decide
        refine ⟨⟨fun h => absurd h e, ?_⟩, fun h => absurd h e⟩
        rintro ⟨_, _, hb⟩
        simp at hb
      | none =>
        have e : fRun (tok :: ps) ⟨0, tags, none⟩ = fRun ps ⟨0, tags, some tok⟩ := by
          simp only [fRun]
          rw [fToken_text hc]
        obtain ⟨k1, k2⟩ := fRun_spec ps tags (some tok) h1 (by simp)
        rw [e]
        simp only [Option.toList_some, Option.toList_none, List.nil_append, List.singleton_append] at k1 k2 ⊢
        refine ⟨?_, k2⟩
        rw [k1]
        simp only [List.mem_cons, forall_eq_or_imp]
        constructor
        · rintro ⟨a, b⟩; exact ⟨⟨Or.inl hc, a⟩, b⟩
        · rintro ⟨⟨_, a⟩, b⟩; exact ⟨a, b⟩

theorem toList_flatten (o : Option Bytes) : o.toList.flatten = o.getD [] := by cases o <;> simp

theorem filter_flatMap (l : List (UInt8 × Bytes)) (c : UInt8) :
    (l.flatMap fun t => if t.1 = c then t.1 :: 58 :: (t.2 ++ [124]) else []) = (l.filter fun t => t.1 = c).flatMap fun t => t.1 :: 58 :: (t.2 ++ [124]) := by
  induction l with
  | nil => rfl
  | cons t l ih =>
    rw [List.flatMap_cons, ih]
    by_cases h : t.1 = c
    · rw [if_pos h, List.filter_cons_of_pos (by simpa using h), List.flatMap_cons]
    · rw [if_neg h, List.filter_cons_of_neg (by simpa using h)]; rfl

theorem colon_tags {f : Bytes} (h : ∀ p ∈ pieces f, 58 ∉ p ∨ ∃ t, tagOf p = some t ∧ ValidTag t.1 t.2) (hc : 58 ∈ f) : tagsOf f ≠ [] := by
  have : ∃ p ∈ pieces f, 58 ∈ p := by
    clear h
    have hs : ∃ p ∈ splitBar f, 58 ∈ p := by
      induction f with
      | nil => cases hc
      | cons c f ih =>
        unfold splitBar
        by_cases h1 : c = 124
        · subst h1
          rw [if_pos rfl]
          obtain ⟨p, hp, hq⟩ := ih (by simpa using hc)
          exact ⟨p, by simp [hp], hq⟩
        · rw [if_neg h1]
          cases hsp : splitBar f with
          | nil => exact absurd hsp (split_ne f)
          | cons q qs =>
            rcases List.mem_cons.1 hc with e | e
            · exact ⟨c :: q, by simp, by simp [e]⟩
            · obtain ⟨p, hp, hq⟩ := ih e
              rw [hsp] at hp
              rcases List.mem_cons.1 hp with e2 | e2
              · exact ⟨c :: q, by simp, by subst e2; simp [hq]⟩
              · exact ⟨p, by simp [e2], hq⟩
    obtain ⟨p, hp, hq⟩ := hs
    exact ⟨p, List.mem_filter.2 ⟨hp, by cases p with | nil => cases hq | cons a b => rfl⟩, hq⟩
  obtain ⟨p, hp, hq⟩ := this
  rcases h p hp with e | ⟨t, ht, _⟩
  · exact absurd hq e
  · intro hn
    have : t ∈ tagsOf f := List.mem_filterMap.2 ⟨p, hp, ht⟩
    rw [hn] at this; cases this

theorem colon_mem {f : Bytes} (h : tagsOf f ≠ []) : 58 ∈ f := by
  obtain ⟨t, ht⟩ := List.exists_mem_of_ne_nil _ h
  obtain ⟨p, hp, he⟩ := List.mem_filterMap.1 ht
  have hm := tagOf_mem he
  have hp' := (List.mem_filter.1 hp).1
  clear hp he ht h
  have : ∀ (f : Bytes) (p : Bytes), p ∈ splitBar f → ∀ x ∈ p, x ∈ f := by
    intro f
    induction f with
    | nil => intro p hp x hx; simp [splitBar] at hp; subst hp; cases hx
    | cons c f ih =>
      intro p hp x hx
      unfold splitBar at hp
      split at hp
      · rcases List.mem_cons.1 hp with e | e
        · subst e; cases hx
        · exact List.mem_cons_of_mem _ (ih p e x hx)
      · cases hsp : splitBar f with
        | nil => exact absurd hsp (split_ne f)
        | cons q qs =>
          rw [hsp] at hp
          rcases List.mem_cons.1 hp with e | e
          · subst e
            rcases List.mem_cons.1 hx with e | e
            · simp [e]
            · exact List.mem_cons_of_mem _ (ih q (by rw [hsp]; simp) x e)
          · exact List.mem_cons_of_mem _ (ih p (by rw [hsp]; simp [e]) x hx)
  exact this f p hp' 58 hm

/-- C65.  Normalizing succeeds for exactly the F parts that are well formed, and gives the tags in the order C, N, T, R, V,
then the text. -/
theorem C65_normal_form (f g : Bytes) : normalizeFPart f = (0, some g) ↔ Tagged f ∧ g = canonical f := by
  obtain ⟨k1, k2⟩ := fRun_spec (pieces f) [] none (by simp) (by simp)
  simp only [Option.toList_none, List.nil_append] at k1 k2
  have hl := fLoop_run (f.length + 1) f ⟨F_SUCCESS, [], none⟩ (by omega)
  have hz : (⟨F_SUCCESS, [], none⟩ : FParse) = ⟨0, [], none⟩ := rfl
  rw [hz] at hl
  unfold normalizeFPart
  by_cases h0 : f = []
  · subst h0
    simp only [List.isEmpty_nil, if_true]
    constructor
    · intro h; injection h with h; exact absurd h (by decide)
    · rintro ⟨h, _⟩; exact absurd rfl h.tags
  · rw [if_neg (by simpa using h0)]
    by_cases h1 : 58 ∈ f
    · rw [if_neg (by simpa using h1)]
      simp only [hz, hl]
      by_cases hs : (fRun (pieces f) ⟨0, [], none⟩).status = 0
      · obtain ⟨e1, e2⟩ := k2 hs
        obtain ⟨a1, a2, a3⟩ := k1.1 hs
        have htag := colon_tags a1 h1
        by_cases hend : f.getLast? = some 124 ∧ (fRun (pieces f) ⟨0, [], none⟩).text.isSome
        · rw [if_pos hend]
          rw [if_pos (by show F_MULTIPLE_UNTAGGED_PARTS ≠ F_SUCCESS; decide)]
          constructor
          · intro h; injection h with _ h; cases h
          · rintro ⟨h, _⟩
            exfalso
            refine h.noEnd ?_ hend.1
            intro hn
            unfold textsOf at hn
            rw [hn] at e2
            cases ht : (fRun (pieces f) ⟨0, [], none⟩).text with
            | none => rw [ht] at hend; cases hend.2
            | some x => rw [ht] at e2; cases e2
        · rw [if_neg hend, if_neg (fun e => e hs), if_pos]
          · have hb : fBuild (fRun (pieces f) ⟨0, [], none⟩) = canonical f := by
              unfold fBuild canonical
              rw [e1, ← toList_flatten, e2]
              congr 1
              unfold TAG_CHARACTERS
              congr 1
              funext c
              exact filter_flatMap _ _
            rw [hb]
            constructor
            · intro h
              injection h with _ h; injection h with h
              refine ⟨⟨a1, a2, htag, a3, ?_⟩, h.symm⟩
              intro hne hlast
              apply hend
              refine ⟨hlast, ?_⟩
              cases ht : (fRun (pieces f) ⟨0, [], none⟩).text with
              | none =>
                rw [ht] at e2
                exact absurd e2.symm hne
              | some x => rfl
            · rintro ⟨_, h⟩; rw [h]; rfl
          · left
            rw [e1]
            exact List.length_pos_iff.2 htag
      · constructor
        · intro h
          exfalso
          by_cases hend : f.getLast? = some 124 ∧ (fRun (pieces f) ⟨0, [], none⟩).text.isSome
          · rw [if_pos hend, if_pos (by show F_MULTIPLE_UNTAGGED_PARTS ≠ F_SUCCESS; decide)] at h
            injection h with _ h; cases h
          · rw [if_neg hend, if_pos (show _ ≠ F_SUCCESS from hs)] at h
            injection h with _ h; cases h
        · rintro ⟨h, _⟩
          exact absurd (k1.2 ⟨h.each, h.once, h.text⟩) hs
    · rw [if_pos (by simpa using h1)]
      constructor
      · intro h; injection h with h; exact absurd h (by decide)
      · rintro ⟨h, _⟩; exact absurd (colon_mem h.tags) h1

/-! ### the normal form -/

theorem split_noBar : ∀ (f p : Bytes), p ∈ splitBar f → 124 ∉ p
  | [], p, h => by simp [splitBar] at h; subst h; simp
  | c :: f, p, h => by
    unfold splitBar at h
    split at h
    · rcases List.mem_cons.1 h with e | e
      · subst e; simp
      · exact split_noBar f p e
    · rename_i hc
      cases hsp : splitBar f with
      | nil => exact absurd hsp (split_ne f)
      | cons q qs =>
        rw [hsp] at h
        rcases List.mem_cons.1 h with e | e
        · subst e
          have := split_noBar f q (by rw [hsp]; simp)
          intro hm
          rcases List.mem_cons.1 hm with e | e
          · exact hc e.symm
          · exact this e
        · exact split_noBar f p (by rw [hsp]; simp [e])

theorem piece_ok {f p : Bytes} (h : p ∈ pieces f) : 124 ∉ p ∧ p ≠ [] := by
  have := List.mem_filter.1 h
  exact ⟨split_noBar f p this.1, by simpa using this.2⟩

theorem pieces_flatMap (rest : Bytes) : ∀ l : List (UInt8 × Bytes), (∀ t ∈ l, t.1 ≠ 124 ∧ 124 ∉ t.2) →
    pieces ((l.flatMap fun t => t.1 :: 58 :: (t.2 ++ [124])) ++ rest) = (l.map fun t => t.1 :: 58 :: t.2) ++ pieces rest
  | [], _ => rfl
  | t :: l, h => by
    have ht := h t (by simp)
    have e : (((t :: l).flatMap fun t => t.1 :: 58 :: (t.2 ++ [124])) ++ rest) =
        (t.1 :: 58 :: t.2) ++ 124 :: ((l.flatMap fun t => t.1 :: 58 :: (t.2 ++ [124])) ++ rest) := by simp
    rw [e, pieces_append _ _ _ (by simp), pieces_flatMap rest l (fun x hx => h x (by simp [hx]))]
    · rfl
    · simp only [List.mem_cons, not_or]
      exact ⟨fun e => ht.1 e.symm, by decide, ht.2⟩

/-- The tags in order. -/
def ordered (K : Bytes) (l : List (UInt8 × Bytes)) : List (UInt8 × Bytes) := K.flatMap fun c => l.filter fun t => t.1 = c

theorem ordered_nil : ∀ K : Bytes, ordered K [] = []
  | [] => rfl
  | c :: K => by have := ordered_nil K; unfold ordered at *; rw [List.flatMap_cons, this]; rfl

theorem ordered_cons (t : UInt8 × Bytes) (l : List (UInt8 × Bytes)) : ∀ K : Bytes, K.Nodup →
    (t.1 ∉ K → ordered K (t :: l) = ordered K l) ∧ (t.1 ∈ K → (ordered K (t :: l)).Perm (t :: ordered K l))
  | [], _ => ⟨fun _ => rfl, fun h => by cases h⟩
  | c :: K, hn => by
    obtain ⟨h1, h2⟩ := List.nodup_cons.1 hn
    obtain ⟨i1, i2⟩ := ordered_cons t l K h2
    unfold ordered at *
    rw [List.flatMap_cons, List.flatMap_cons]
    by_cases hc : t.1 = c
    · rw [List.filter_cons_of_pos (by simpa using hc)]
      refine ⟨fun h => absurd (by simp [hc]) h, fun _ => ?_⟩
      rw [i1 (by rw [hc]; exact h1)]
      exact List.Perm.refl _
    · rw [List.filter_cons_of_neg (by simpa using hc)]
      refine ⟨fun h => ?_, fun h => ?_⟩
      · rw [i1 (fun e => h (by simp [e]))]
      · have : t.1 ∈ K := by
          rcases List.mem_cons.1 h with e | e
          · exact absurd e hc
          · exact e
        exact ((i2 this).append_left _).trans List.perm_middle

theorem ordered_perm (K : Bytes) (hK : K.Nodup) : ∀ l : List (UInt8 × Bytes), (∀ t ∈ l, t.1 ∈ K) → (ordered K l).Perm l
  | [], _ => by rw [ordered_nil]
  | t :: l, h => ((ordered_cons t l K hK).2 (h t (by simp))).trans ((ordered_perm K hK l (fun x hx => h x (by simp [hx]))).cons _)

theorem filter_once {l l' : List (UInt8 × Bytes)} (hp : l.Perm l') (hn : (l.map Prod.fst).Nodup) (c : UInt8) :
    (l.filter fun t => t.1 = c) = l'.filter fun t => t.1 = c := by
  have h := hp.filter (fun t => decide (t.1 = c))
  have hl : (l.filter fun t => t.1 = c).length ≤ 1 := by
    clear h hp
    induction l with
    | nil => simp
    | cons t l ih =>
      rw [List.map_cons, List.nodup_cons] at hn
      by_cases hc : t.1 = c
      · rw [List.filter_cons_of_pos (by simpa using hc)]
        have : (l.filter fun t => t.1 = c) = [] := by
          rw [List.filter_eq_nil_iff]
          intro x hx
          simp only [decide_eq_true_eq]
          intro e
          exact hn.1 (List.mem_map.2 ⟨x, hx, by rw [e, hc]⟩)
        rw [this]; simp
      · rw [List.filter_cons_of_neg (by simpa using hc)]
        exact ih hn.2
  rcases hm : (l.filter fun t => t.1 = c) with _ | ⟨x, _ | ⟨y, z⟩⟩
  · rw [hm] at h; rw [hm]; exact (List.perm_nil.1 h.symm).symm
  · rw [hm] at h; rw [hm]; exact (List.perm_singleton.1 h.symm).symm
  · rw [hm] at hl; simp at hl

theorem canonical_congr {f f' : Bytes} (hp : (tagsOf f).Perm (tagsOf f')) (hn : ((tagsOf f).map Prod.fst).Nodup) (ht : textsOf f = textsOf f') :
    canonical f = canonical f' := by
  unfold canonical
  rw [ht]
  congr 2
  funext c
  rw [filter_once hp hn c]

theorem canonical_eq (f : Bytes) : canonical f = ((ordered TAG_CHARACTERS (tagsOf f)).flatMap fun t => t.1 :: 58 :: (t.2 ++ [124])) ++ (textsOf f).flatten := by
  unfold canonical ordered TAG_CHARACTERS
  rw [List.flatMap_assoc]

theorem tag_ok {f : Bytes} (h : Tagged f) {t : UInt8 × Bytes} (ht : t ∈ tagsOf f) : ValidTag t.1 t.2 ∧ t.1 ∈ TAG_CHARACTERS ∧ 124 ∉ t.2 := by
  obtain ⟨p, hp, he⟩ := List.mem_filterMap.1 ht
  have hv : ValidTag t.1 t.2 := by
    rcases h.each p hp with e | ⟨t', e, hv⟩
    · exact absurd (tagOf_mem he) e
    · rw [he] at e; injection e with e; subst e; exact hv
  refine ⟨hv, letter_of hv, ?_⟩
  unfold tagOf at he
  split at he
  · injection he with he; subst he
    have := (piece_ok hp).1
    simp only [List.mem_cons, not_or] at this
    exact this.2.2
  · cases he

theorem upper_letter {c : UInt8} (h : c ∈ TAG_CHARACTERS) : (if 97 ≤ c ∧ c ≤ 122 then c - 32 else c) = c := by
  revert h; revert c; decide

theorem pieces_texts {f : Bytes} (h : Tagged f) : pieces (textsOf f).flatten = textsOf f := by
  have hl := h.text
  match hm : textsOf f, hl with
  | [], _ => rfl
  | [x], _ =>
    have hx : x ∈ pieces f := (List.mem_filter.1 (show x ∈ textsOf f by rw [hm]; simp)).1
    have := piece_ok hx
    simpa using pieces_plain x this.1 this.2

theorem pieces_canonical {f : Bytes} (h : Tagged f) :
    pieces (canonical f) = ((ordered TAG_CHARACTERS (tagsOf f)).map fun t => t.1 :: 58 :: t.2) ++ textsOf f := by
  have hp := ordered_perm TAG_CHARACTERS (by decide) (tagsOf f) (fun t ht => (tag_ok h ht).2.1)
  rw [canonical_eq, pieces_flatMap _ _ ?_, pieces_texts h]
  intro t ht
  have := tag_ok h (hp.mem_iff.1 ht)
  refine ⟨?_, this.2.2⟩
  intro e
  have h2 := this.2.1
  rw [e] at h2
  exact absurd h2 (by decide)

theorem tags_canonical {f : Bytes} (h : Tagged f) : tagsOf (canonical f) = ordered TAG_CHARACTERS (tagsOf f) ∧ textsOf (canonical f) = textsOf f := by
  have hp := ordered_perm TAG_CHARACTERS (by decide) (tagsOf f) (fun t ht => (tag_ok h ht).2.1)
  have htext : ∀ p ∈ textsOf f, 58 ∉ p := by
    intro p hp
    have := (List.mem_filter.1 hp).2
    simpa using this
  constructor
  · unfold tagsOf
    rw [pieces_canonical h, List.filterMap_append]
    have e1 : (textsOf f).filterMap tagOf = [] := by
      rw [List.filterMap_eq_nil_iff]
      intro p hp
      exact tagOf_none (htext p hp)
    rw [e1, List.append_nil, List.filterMap_map]
    have : ∀ l : List (UInt8 × Bytes), (∀ t ∈ l, t.1 ∈ TAG_CHARACTERS) → l.filterMap (tagOf ∘ fun t => t.1 :: 58 :: t.2) = l := by
      intro l hl
      induction l with
      | nil => rfl
      | cons t l ih =>
        have e : (tagOf ∘ fun t : UInt8 × Bytes => t.1 :: 58 :: t.2) t = some t := by
          show some (_, _) = some t
          rw [upper_letter (hl t (by simp))]
        rw [List.filterMap_cons_some e, ih (fun x hx => hl x (by simp [hx]))]
    exact this _ (fun t ht => (tag_ok h (hp.mem_iff.1 ht)).2.1)
  · have : (pieces (canonical f)).filter (fun p => !p.contains 58) = textsOf f := by
      rw [pieces_canonical h, List.filter_append]
      have e1 : ((ordered TAG_CHARACTERS (tagsOf f)).map fun t => t.1 :: 58 :: t.2).filter (fun p => !p.contains 58) = [] := by
        rw [List.filter_eq_nil_iff]
        intro p hp
        obtain ⟨t, _, rfl⟩ := List.mem_map.1 hp
        simp
      rw [e1, List.nil_append, List.filter_eq_self]
      intro p hp
      simpa using htext p hp
    exact this

/-- C65.  Nothing is lost: the normal form has the tags of the F part, each once, and its text. -/
theorem C65_kept {f g : Bytes} (h : normalizeFPart f = (0, some g)) : (tagsOf g).Perm (tagsOf f) ∧ textsOf g = textsOf f := by
  obtain ⟨ht, rfl⟩ := (C65_normal_form f g).1 h
  rw [(tags_canonical ht).1, (tags_canonical ht).2]
  exact ⟨ordered_perm TAG_CHARACTERS (by decide) _ (fun t h => (tag_ok ht h).2.1), rfl⟩

/-- C65.  So two F parts with the same normal form have the same tags and text. -/
theorem C65_injective {f f' g : Bytes} (h : normalizeFPart f = (0, some g)) (h' : normalizeFPart f' = (0, some g)) :
    (tagsOf f).Perm (tagsOf f') ∧ textsOf f = textsOf f' := by
  obtain ⟨a, b⟩ := C65_kept h
  obtain ⟨a', b'⟩ := C65_kept h'
  exact ⟨a.symm.trans a', b.symm.trans b'⟩

/-- C65.  The order of the pieces and the case of the tag letters do not matter. -/
theorem C65_order {f f' g : Bytes} (h : normalizeFPart f = (0, some g)) (hp : (pieces f').Perm (pieces f)) (hend : f'.getLast? ≠ some 124) :
    normalizeFPart f' = (0, some g) := by
  obtain ⟨ht, rfl⟩ := (C65_normal_form f g).1 h
  have htags : (tagsOf f').Perm (tagsOf f) := hp.filterMap _
  have htexts : (textsOf f').Perm (textsOf f) := hp.filter _
  have htext : textsOf f' = textsOf f := by
    have hl := ht.text
    match hm : textsOf f, hl with
    | [], _ => rw [hm] at htexts; exact List.perm_nil.1 htexts
    | [x], _ => rw [hm] at htexts; exact List.perm_singleton.1 htexts
  have hn : ((tagsOf f').map Prod.fst).Nodup := (htags.map Prod.fst).nodup_iff.2 ht.once
  refine (C65_normal_form f' _).2 ⟨⟨fun p hm => ht.each p (hp.mem_iff.1 hm), hn, ?_, by rw [htext]; exact ht.text, fun _ => hend⟩, (canonical_congr htags hn htext).symm⟩
  intro e
  rw [e] at htags
  exact ht.tags (List.nil_perm.1 htags)

theorem C65_case {f f' g : Bytes} (h : normalizeFPart f = (0, some g)) (hp : (pieces f').map tagOf = (pieces f).map tagOf) (htext : textsOf f' = textsOf f)
    (hcolon : ∀ p ∈ pieces f', tagOf p = none → 58 ∉ p) (hend : f'.getLast? ≠ some 124) : normalizeFPart f' = (0, some g) := by
  obtain ⟨ht, rfl⟩ := (C65_normal_form f g).1 h
  have e : tagsOf f' = tagsOf f := by
    unfold tagsOf
    have : ∀ l : List Bytes, l.filterMap tagOf = (l.map tagOf).filterMap id := by intro l; rw [List.filterMap_map]; rfl
    rw [this, this, hp]
  have hn : ((tagsOf f').map Prod.fst).Nodup := by rw [e]; exact ht.once
  refine (C65_normal_form f' _).2 ⟨⟨?_, hn, by rw [e]; exact ht.tags, by rw [htext]; exact ht.text, fun _ => hend⟩, (canonical_congr (by rw [e]) hn htext).symm⟩
  intro p hm
  cases hq : tagOf p with
  | none => exact Or.inl (hcolon p hm hq)
  | some t => exact Or.inr ⟨t, rfl, (tag_ok ht (by rw [← e]; exact List.mem_filterMap.2 ⟨p, hm, hq⟩)).1⟩

/-- C65.  A normal form is its own normal form. -/
theorem C65_idempotent {f g : Bytes} (h : normalizeFPart f = (0, some g)) : normalizeFPart g = (0, some g) := by
  have hk := C65_kept h
  obtain ⟨ht, hg⟩ := (C65_normal_form f g).1 h
  have hn : ((tagsOf g).map Prod.fst).Nodup := (hk.1.map Prod.fst).nodup_iff.2 ht.once
  refine (C65_normal_form g g).2 ⟨⟨?_, hn, ?_, by rw [hk.2]; exact ht.text, ?_⟩, ?_⟩
  · intro p hp
    rw [hg, pieces_canonical ht] at hp
    rcases List.mem_append.1 hp with hp | hp
    · obtain ⟨t, hm, rfl⟩ := List.mem_map.1 hp
      have hp := ordered_perm TAG_CHARACTERS (by decide) (tagsOf f) (fun t ht' => (tag_ok ht ht').2.1)
      obtain ⟨a, b, _⟩ := tag_ok ht (hp.mem_iff.1 hm)
      right
      refine ⟨t, ?_, a⟩
      show some (_, _) = some t
      rw [upper_letter b]
    · left
      have := (List.mem_filter.1 hp).2
      simpa using this
  · intro e
    have := hk.1
    rw [e] at this
    exact ht.tags (List.nil_perm.1 this)
  · rw [hk.2]
    intro hne
    have hl := ht.text
    match hm : textsOf f, hl, hne with
    | [x], _, _ =>
      have hx : x ∈ pieces f := (List.mem_filter.1 (show x ∈ textsOf f by rw [hm]; simp)).1
      have hx := piece_ok hx
      rw [hg, canonical_eq, hm, List.getLast?_append]
      simp only [List.flatten_cons, List.flatten_nil, List.append_nil]
      rw [List.getLast?_eq_some_getLast hx.2, Option.some_or]
      intro e
      injection e with e
      exact hx.1 (e ▸ List.getLast_mem hx.2)
  · rw [hg]
    have hk' := hk
    rw [hg] at hk'
    exact (canonical_congr hk'.1 (by rw [hg] at hn; exact hn) hk'.2).symm

/-- C65.  Normalizing never reports success without a normal form (the caller would take the length of a null string). -/
theorem C65_set (f : Bytes) : normalizeFPart f ≠ (0, none) := by
  intro h
  obtain ⟨k1, k2⟩ := fRun_spec (pieces f) [] none (by simp) (by simp)
  simp only [Option.toList_none, List.nil_append] at k1 k2
  have hl := fLoop_run (f.length + 1) f ⟨F_SUCCESS, [], none⟩ (by omega)
  have hz : (⟨F_SUCCESS, [], none⟩ : FParse) = ⟨0, [], none⟩ := rfl
  rw [hz] at hl
  unfold normalizeFPart at h
  by_cases h0 : f = []
  · subst h0; exact absurd h (by decide)
  · rw [if_neg (by simpa using h0)] at h
    by_cases h1 : 58 ∈ f
    · rw [if_neg (by simpa using h1)] at h
      simp only [hz, hl] at h
      by_cases hend : f.getLast? = some 124 ∧ (fRun (pieces f) ⟨0, [], none⟩).text.isSome
      · rw [if_pos hend, if_pos (by show F_MULTIPLE_UNTAGGED_PARTS ≠ F_SUCCESS; decide)] at h
        injection h with h; exact absurd h (by show F_MULTIPLE_UNTAGGED_PARTS ≠ 0; decide)
      · rw [if_neg hend] at h
        by_cases hs : (fRun (pieces f) ⟨0, [], none⟩).status = 0
        · rw [if_neg (fun e => e hs), if_pos] at h
          · injection h with _ h; cases h
          · left
            rw [(k2 hs).1]
            exact List.length_pos_iff.2 (colon_tags (k1.1 hs).1 h1)
        · rw [if_pos (show _ ≠ F_SUCCESS from hs)] at h
          injection h with h
          exact hs h
    · rw [if_pos (by simpa using h1)] at h
      injection h with h; exact absurd h (by decide)

end Hec
