import Verif.Props.Collection
/-!
The catalog of a collection (C80) and the comparison of members (C81).
-/
namespace Hec
set_option linter.unusedSimpArgs false
set_option linter.unusedVariables false
set_option synthInstance.maxSize 1000
set_option synthInstance.maxHeartbeats 200000
open _root_.Spec (Matches join IsPart Holds six IsMember Behind Op Reachable GoodSizes create runs)
open Hec.Spec (sameUpToCase)

theorem toupper_other {x y : UInt8} (h : toupper x = y) (hy : y < 65 ∨ 90 < y) : x = y := by
  unfold toupper at h
  split at h
  · rename_i hx
    exfalso
    have e := congrArg UInt8.toNat h
    have h1 := hx.1
    have h2 := hx.2
    simp only [UInt8.le_iff_toNat_le, UInt8.lt_iff_toNat_lt] at h1 h2 hy
    rw [UInt8.toNat_sub_of_le _ _ (by rw [UInt8.le_iff_toNat_le]; exact Nat.le_trans (by decide) h1)] at e
    simp at e h1 h2 hy
    omega
  · exact h

theorem toupper_C {x : UInt8} (h : toupper x = 67) : x = 67 ∨ x = 99 := by
  unfold toupper at h
  split at h
  · rename_i hx
    right
    have e := congrArg UInt8.toNat h
    have h1 := hx.1
    simp only [UInt8.le_iff_toNat_le] at h1
    rw [UInt8.toNat_sub_of_le _ _ (by rw [UInt8.le_iff_toNat_le]; exact Nat.le_trans (by decide) h1)] at e
    apply UInt8.toNat_inj.mp
    simp at e h1 ⊢
    omega
  · exact Or.inl h

/-! ### The F part in the catalog -/

theorem xFill_member (s r : Bytes) (hs : (124 : UInt8) ∉ s) : ∀ n, s.length ≤ n → xFill n (s ++ 124 :: r) = List.replicate s.length 88 ++ 124 :: r := by
  induction s with
  | nil => intro n _; cases n <;> simp [xFill]
  | cons c s ih =>
    intro n hn
    obtain ⟨m, rfl⟩ : ∃ m, n = m + 1 := ⟨n - 1, by simp at hn; omega⟩
    have hc : ¬ c = 124 := fun e => hs (by simp [e])
    simp only [List.cons_append, xFill, hc, if_false, List.length_cons, List.replicate_succ]
    rw [ih (fun h => hs (by simp [h])) m (by simpa using hn)]

theorem fill_member {f s r : Bytes} (h : IsMember f s r) :
    ∃ c, toupper c = 67 ∧ fillSeq f.length f = c :: 58 :: (List.replicate s.length 88 ++ 124 :: r) := by
  rcases h.1 with e | e
  · refine ⟨67, by decide, ?_⟩
    subst e
    unfold fillSeq
    simp only [List.take_succ_cons, List.take_zero, List.drop_succ_cons, List.drop_zero]
    rw [xFill_member s r h.2 _ (by simp)]; rfl
  · refine ⟨99, by decide, ?_⟩
    subst e
    unfold fillSeq
    simp only [List.take_succ_cons, List.take_zero, List.drop_succ_cons, List.drop_zero]
    rw [xFill_member s r h.2 _ (by simp)]; rfl

theorem bothSeq_iff (t p : Bytes) : bothSeq true 5 t p = true ↔ 9 ≤ t.length ∧ 9 ≤ p.length ∧ (∃ s r, IsMember t s r) ∧ (∃ s r, IsMember p s r) := by
  have one : ∀ f : Bytes, 9 ≤ f.length → ((∃ s r, IsMember f s r) ↔ toupper (f.getD 0 0) = 67 ∧ f.getD 1 0 = 58 ∧ (124 : UInt8) ∈ f.drop 2) := by
    intro f hf
    match f, hf with
    | a :: b :: f', _ =>
      simp only [List.getD_cons_zero, List.getD_cons_succ, List.drop_succ_cons, List.drop_zero]
      constructor
      · rintro ⟨s, r, h, _⟩
        rcases h with h | h
        · simp only [List.cons.injEq] at h
          rw [h.1, h.2.1, h.2.2]
          exact ⟨by decide, rfl, by simp⟩
        · simp only [List.cons.injEq] at h
          rw [h.1, h.2.1, h.2.2]
          exact ⟨by decide, rfl, by simp⟩
      · rintro ⟨h1, h2, h3⟩
        obtain ⟨s, r, e, hn⟩ := first_bar f' h3
        refine ⟨s, r, ?_, hn⟩
        rw [h2, e]
        rcases toupper_C h1 with h | h
        · exact Or.inl (by rw [h])
        · exact Or.inr (by rw [h])
  unfold bothSeq
  simp only [Bool.and_eq_true, decide_eq_true_eq, beq_iff_eq, beq_self_eq_true, true_and, List.contains_iff_mem, Bool.true_and]
  constructor
  · rintro ⟨⟨⟨⟨⟨⟨⟨h1, h2⟩, h3⟩, h4⟩, h5⟩, h6⟩, h7⟩, h8⟩
    exact ⟨h1, h2, (one t h1).mpr ⟨h4, h5, h7⟩, (one p h2).mpr ⟨by rw [← h3]; exact h4, h6, h8⟩⟩
  · rintro ⟨h1, h2, h3, h4⟩
    have a := (one t h1).mp h3
    have b := (one p h2).mp h4
    exact ⟨⟨⟨⟨⟨⟨⟨h1, h2⟩, by rw [a.1, b.1]⟩, a.1⟩, a.2.1⟩, b.2.1⟩, a.2.2⟩, b.2.2⟩

theorem xs_same (a b : Nat) (r r' : Bytes) (h : List.replicate a (88 : UInt8) ++ 124 :: r = List.replicate b 88 ++ 124 :: r') : a = b ∧ r = r' := by
  induction a generalizing b with
  | zero =>
    match b with
    | 0 => simpa using h
    | b + 1 => simp [List.replicate_succ] at h
  | succ a ih =>
    match b with
    | 0 => simp [List.replicate_succ] at h
    | b + 1 =>
      simp only [List.replicate_succ, List.cons_append, List.cons.injEq, true_and] at h
      obtain ⟨e1, e2⟩ := ih b h
      exact ⟨by omega, e2⟩

theorem member_same {t p s r : Bytes} (h : IsMember t s r) (hs : Same t p) : ∃ s' r', IsMember p s' r' := by
  have key : ∃ a, toupper a = 67 ∧ t = a :: 58 :: (s ++ 124 :: r) := by
    rcases h.1 with e | e
    · exact ⟨67, by decide, e⟩
    · exact ⟨99, by decide, e⟩
  obtain ⟨a, ha, e⟩ := key
  subst e
  unfold Same at hs
  match p, hs with
  | [], hs => simp at hs
  | [x], hs => simp at hs
  | x :: y :: p, hs =>
    simp only [List.map_cons, List.cons.injEq, List.map_append] at hs
    have hy : y = 58 := toupper_other (by rw [← hs.2.1]; decide) (by decide)
    have hm : (124 : UInt8) ∈ p := by
      have : (124 : UInt8) ∈ p.map toupper := by
        rw [← hs.2.2]
        exact List.mem_append_right _ (List.mem_cons.mpr (Or.inl (by decide)))
      obtain ⟨z, hz, e⟩ := List.mem_map.mp this
      rw [← toupper_other e (by decide)]; exact hz
    obtain ⟨s', r', e, hn⟩ := first_bar p hm
    refine ⟨s', r', ?_, hn⟩
    rw [hy, e]
    rcases toupper_C (hs.1.symm.trans ha) with h | h
    · exact Or.inl (by rw [h])
    · exact Or.inr (by rw [h])

theorem pm_member {sf s r f : Bytes} (h : IsMember sf s r) (h9 : 9 ≤ sf.length) (hstar : sf.getLast? ≠ some 42) :
    pm true 5 sf f = true ↔ ∃ s' r', IsMember f s' r' ∧ s'.length = s.length ∧ sameUpToCase r r' := by
  have hplan : planned sf = ⟨1, sf.length, sf⟩ := by
    have hne : sf.head? ≠ some 42 := by rcases h.1 with e | e <;> rw [e] <;> simp
    rcases planned_cases sf with ⟨e, _⟩ | ⟨_, _, e⟩ | ⟨x, e, _, _, _⟩ | ⟨x, e, _, _, _⟩ | ⟨x, e, _⟩
    · exact absurd (by rw [e]; rfl) hne
    · exact e
    · exact absurd (by rw [e]; simp) hstar
    · exact absurd (by rw [e]; rfl) hne
    · exact absurd (by rw [e]; rfl) hne
  unfold pm
  rw [hplan]
  simp only
  obtain ⟨c, hc, hfill⟩ := fill_member h
  have hlen_of : ∀ {f s r : Bytes}, IsMember f s r → f.length = s.length + r.length + 3 := by
    intro f s r h
    rcases h.1 with e | e <;> rw [e] <;> simp <;> omega
  by_cases hb : bothSeq true 5 sf f = true
  · rw [if_pos hb]
    obtain ⟨_, hf9, _, s', r', hm⟩ := (bothSeq_iff _ _).mp hb
    obtain ⟨c', hc', hfill'⟩ := fill_member hm
    have h1 := hlen_of h
    have h2 := hlen_of hm
    have : strMatch 1 sf.length (fillSeq sf.length sf) (fillSeq f.length f) = true ↔ f.length = sf.length ∧ Same (fillSeq sf.length sf) (fillSeq f.length f) := by
      simp only [strMatch, show ¬ ((1 : Nat) = 0) by omega, if_false, if_true, Bool.and_eq_true, decide_eq_true_eq, fillSeq_length]
      constructor
      · rintro ⟨e, h⟩
        refine ⟨e, ?_⟩
        have := List.isPrefixOf_iff_prefix.mp h
        exact this.eq_of_length (by simp [fillSeq_length, e])
      · rintro ⟨e, h⟩
        refine ⟨e, ?_⟩
        rw [h]; exact List.isPrefixOf_iff_prefix.mpr (List.prefix_rfl)
    rw [this, hfill, hfill']
    constructor
    · rintro ⟨e, hs⟩
      unfold Same at hs
      simp only [List.map_cons, List.map_append, List.map_replicate, show toupper 88 = 88 from by decide, show toupper 124 = 124 from by decide, List.cons.injEq] at hs
      obtain ⟨e1, e2⟩ := xs_same _ _ _ _ hs.2.2
      exact ⟨s', r', hm, e1.symm, same_iff.mpr e2⟩
    · rintro ⟨s2, r2, hm2, e1, e2⟩
      obtain ⟨rfl, rfl⟩ := member_unique hm hm2
      have e3 := e2.1
      refine ⟨by omega, ?_⟩
      have := same_iff.mp e2
      unfold Same at this ⊢
      simp only [List.map_cons, List.map_append, List.map_replicate, hc, hc', this, e1]
  · rw [if_neg hb]
    constructor
    · intro hp
      exfalso
      apply hb
      have hs : f.length = sf.length ∧ Same sf f := by
        simp only [partMatch, hplan, show ¬ ((1 : Nat) = 0) by omega, if_false, if_true, Bool.and_eq_true, decide_eq_true_eq] at hp
        refine ⟨hp.1, ?_⟩
        have := List.isPrefixOf_iff_prefix.mp hp.2
        exact this.eq_of_length (by simp [hp.1])
      exact (bothSeq_iff _ _).mpr ⟨h9, by omega, ⟨s, r, h⟩, member_same h hs.2⟩
    · rintro ⟨s', r', hm, e1, e2⟩
      exfalso
      apply hb
      have h1 := hlen_of h
      have h2 := hlen_of hm
      have e3 := e2.1
      exact (bothSeq_iff _ _).mpr ⟨h9, by omega, ⟨s, r, h⟩, ⟨s', r', hm⟩⟩

/-- C80.  For a seed of six parts whose F part is that of a member of a collection, a pathname of six parts is
found if and only if its first five parts match those of the seed and its F part is that of a member
of the same collection: a sequence of the same length, and the same text behind it up to case.  Conditions as in C49, and
an F part of the seed of at least nine characters that does not end with a star. -/
theorem C80_found_partial (before : Int → Option UInt8) (u : UInt8) (junk : Int) (ss ps : List Bytes) (hl : ss.length = 6) (hl2 : ps.length = 6)
    (hq : ∀ q ∈ ss, IsPart q ∧ q.length ≤ 128) (hp : ∀ p ∈ ps, IsPart p ∧ p.length ≤ 128)
    (hends : ∀ (i : Nat) (q p x : Bytes), ss[i]? = some q → ps[i]? = some p → q = 42 :: x → x.getLast? ≠ some 42 → x.length ≤ p.length)
    (htwo : ∀ (i : Nat) (p : Bytes), ss[i]? = some [42, 42] → ps[i]? = some p → p ≠ [])
    (sf f sequence rest : Bytes) (h5 : ss[5]? = some sf) (hf : ps[5]? = some f) (hm : IsMember sf sequence rest) (h9 : 9 ≤ sf.length) (hstar : sf.getLast? ≠ some 42) :
    ∃ found, collFound before u junk (join ss) (join ps) = some found ∧
      (found = true ↔ (∀ (i : Nat) (q p : Bytes), i < 5 → ss[i]? = some q → ps[i]? = some p → Matches q p) ∧
        ∃ sequence' rest', IsMember f sequence' rest' ∧ sequence'.length = sequence.length ∧ sameUpToCase rest rest') := by
  have hne : ∀ l : List Bytes, ¬ (join l).length = 0 := fun l => by simp [join]
  have hzip : ∀ x ∈ ss.zip ps, ∃ i : Nat, ss[i]? = some x.1 ∧ ps[i]? = some x.2 := by
    intro x hx
    obtain ⟨i, hi, e⟩ := List.mem_iff_getElem.mp hx
    have hi' : i < ss.length ∧ i < ps.length := by rw [List.length_zip] at hi; omega
    refine ⟨i, ?_, ?_⟩
    · rw [List.getElem?_eq_getElem hi'.1, ← e, List.getElem_zip]
    · rw [List.getElem?_eq_getElem hi'.2, ← e, List.getElem_zip]
  have hact : ∀ x ∈ ss.zip ps, (planned x.1).action = 3 → (planned x.1).len ≤ x.2.length := by
    intro x hx h3
    obtain ⟨i, h1, h2⟩ := hzip x hx
    rcases planned_cases x.1 with ⟨_, hpl⟩ | ⟨_, _, hpl⟩ | ⟨_, _, _, _, hpl⟩ | ⟨y, hy, _, hlast, hpl⟩ | ⟨_, _, hpl⟩
    · rw [hpl] at h3; simp at h3
    · rw [hpl] at h3; simp at h3
    · rw [hpl] at h3; simp at h3
    · rw [hpl]
      exact hends i x.1 x.2 y h1 h2 hy hlast
    · rw [hpl] at h3; simp at h3
  have hmatch : ∀ (i : Nat) (q p : Bytes), ss[i]? = some q → ps[i]? = some p → (partMatch q p = true ↔ Matches q p) := by
    intro i q p h1 h2
    refine partMatch_iff q p (fun e => htwo i p (by rw [h1, e]) h2) (fun x hx => ?_)
    by_cases hlast : x.getLast? = some 42
    · exact Or.inr hlast
    · exact Or.inl (hends i q p x h1 h2 hx hlast)
  refine ⟨allMatch true 0 ss ps, ?_, ?_⟩
  · unfold collFound zcatParsePath
    rw [if_neg (hne ss), six_lengths ss hl (fun q h => (hq q h).1), if_neg (by omega),
      parseParts_spec ss hl (fun q h => (hq q h).1) (fun q h => (hq q h).2) junk _ (by simp) 6 0 _ rfl (by simp)]
    simp only [Option.map_some, Option.bind_some, List.drop_zero]
    unfold zcatComparePath
    rw [if_neg (hne ps), six_lengths ps hl2 (fun q h => (hp q h).1), if_neg (by omega)]
    have := compareParts_spec true before ps hl2 (fun q h => (hp q h).1) (fun q h => (hp q h).2) junk ss 0 (List.replicate 129 u) (List.replicate 129 u)
      (by omega) (by simp) (by simp) (fun q h => (hq q h).1) (fun q h => (hq q h).2) (by simpa using hact)
    simpa using this
  · match ss, hl, ps, hl2 with
    | [q0, q1, q2, q3, q4, q5], _, [p0, p1, p2, p3, p4, p5], _ =>
      simp only [List.getElem?_cons_succ, List.getElem?_cons_zero, Option.some.injEq] at h5 hf
      subst h5 hf
      simp only [allMatch, Bool.and_eq_true, Bool.and_true]
      rw [pm_other (Or.inr (by omega)), pm_other (Or.inr (by omega)), pm_other (Or.inr (by omega)), pm_other (Or.inr (by omega)), pm_other (Or.inr (by omega)),
        pm_member hm h9 hstar, hmatch 0 q0 p0 rfl rfl, hmatch 1 q1 p1 rfl rfl, hmatch 2 q2 p2 rfl rfl, hmatch 3 q3 p3 rfl rfl, hmatch 4 q4 p4 rfl rfl]
      constructor
      · rintro ⟨m0, m1, m2, m3, m4, m5⟩
        refine ⟨fun i q p hi h1 h2 => ?_, m5⟩
        match i, hi with
        | 0, _ => simp at h1 h2; subst h1 h2; exact m0
        | 1, _ => simp at h1 h2; subst h1 h2; exact m1
        | 2, _ => simp at h1 h2; subst h1 h2; exact m2
        | 3, _ => simp at h1 h2; subst h1 h2; exact m3
        | 4, _ => simp at h1 h2; subst h1 h2; exact m4
      · rintro ⟨h, m5⟩
        exact ⟨h 0 _ _ (by omega) rfl rfl, h 1 _ _ (by omega) rfl rfl, h 2 _ _ (by omega) rfl rfl, h 3 _ _ (by omega) rfl rfl, h 4 _ _ (by omega) rfl rfl, m5⟩

/-- C80.  So any member as a seed finds every other member, as made by setting sequence numbers (C79). -/
theorem C80_sequences_partial (before : Int → Option UInt8) (u : UInt8) (junk : Int) (ps : List Bytes) (hl : ps.length = 6)
    (hp : ∀ p ∈ ps, IsPart p ∧ p.length ≤ 128 ∧ p.head? ≠ some 42 ∧ p.getLast? ≠ some 42) (rest : Bytes) (hr : IsPart rest) (hrlen : rest.length ≤ 119)
    (hstar : rest.getLast? ≠ some 42) (n m : Nat) :
    collFound before u junk (join (ps.set 5 (67 :: 58 :: (six n ++ 124 :: rest)))) (join (ps.set 5 (67 :: 58 :: (six m ++ 124 :: rest)))) = some true := by
  have hlast : ∀ k, (67 :: 58 :: (six k ++ 124 :: rest)).getLast? ≠ some 42 := by
    intro k
    have : (67 :: 58 :: (six k ++ 124 :: rest)) = (67 :: 58 :: six k ++ [124]) ++ rest := by simp
    rw [this]
    cases hr0 : rest.getLast? with
    | none =>
      have : rest = [] := List.getLast?_eq_none_iff.mp hr0
      subst this
      rw [List.append_nil, List.getLast?_concat]; simp
    | some x =>
      rw [List.getLast?_append, hr0]
      rw [hr0] at hstar
      simpa using hstar
  have hnew : ∀ k, IsPart (67 :: 58 :: (six k ++ 124 :: rest)) := by
    intro k c hc
    simp only [List.mem_cons, List.mem_append] at hc
    rcases hc with e | e | e | e | e
    · rw [e]; decide
    · rw [e]; decide
    · have := six_chars k c e
      constructor
      · intro e; rw [e] at this; exact absurd this.1 (by decide)
      · intro e; rw [e] at this; exact absurd this.1 (by decide)
    · rw [e]; decide
    · exact hr c e
  have hall : ∀ k, ∀ q ∈ ps.set 5 (67 :: 58 :: (six k ++ 124 :: rest)), (IsPart q ∧ q.length ≤ 128) ∧ q.head? ≠ some 42 ∧ q.getLast? ≠ some 42 := by
    intro k q hm
    rcases List.mem_or_eq_of_mem_set hm with h | h
    · exact ⟨⟨(hp q h).1, (hp q h).2.1⟩, (hp q h).2.2⟩
    · rw [h]
      exact ⟨⟨hnew k, by simp [six_length]; omega⟩, by simp, hlast k⟩
  obtain ⟨fd, e1, e2⟩ := C80_found_partial before u junk (ps.set 5 (67 :: 58 :: (six n ++ 124 :: rest))) (ps.set 5 (67 :: 58 :: (six m ++ 124 :: rest))) (by simp [hl]) (by simp [hl])
    (fun q h => (hall n q h).1) (fun q h => (hall m q h).1)
    (fun i q p x a b e l => absurd (by rw [e]; rfl) (hall n q (List.mem_of_getElem? a)).2.1)
    (fun i p a b => absurd rfl (hall n _ (List.mem_of_getElem? a)).2.1)
    (67 :: 58 :: (six n ++ 124 :: rest)) (67 :: 58 :: (six m ++ 124 :: rest)) (six n) rest (by rw [List.getElem?_set_self (by omega)]) (by rw [List.getElem?_set_self (by omega)])
    (six_member n rest) (by simp [six_length]; omega) (hlast n)
  rw [e1, e2.mpr ⟨fun i q p hi a b => ?_, six m, rest, six_member m rest, by rw [six_length, six_length], same_iff.mpr rfl⟩]
  rw [List.getElem?_set_ne (by omega)] at a b
  have e : q = p := Option.some.inj (a.symm.trans b)
  subst e
  have := (hp q (List.mem_of_getElem? a)).2.2
  exact Matches.exact this.1 this.2 (same_iff.mpr rfl)

section
variable {hdrSize maxHash binSize : Nat} {mul : Nat → Nat}

/-- C80.  The catalog of a collection: after any history of writes, deletes, undeletes and renames (as in C48), the
rows are those of the full catalog whose pathname is that of a member of the collection of the seed. -/
theorem C80_catalog_partial (g : GoodSizes hdrSize maxHash binSize) {past : List Op} {s : Eng}
    (R : Reachable (create hdrSize maxHash binSize mul).1 (create hdrSize maxHash binSize mul).2 past s)
    (before : Int → Option UInt8) (u : UInt8) (junk : Int) (ss : List Bytes) (hl : ss.length = 6) (hq : ∀ q ∈ ss, IsPart q ∧ q.length ≤ 128)
    (hhead : ∀ q ∈ ss, q.head? = some 42 → q = [42]) (sf sequence rest : Bytes) (h5 : ss[5]? = some sf) (hm : IsMember sf sequence rest) (h9 : 9 ≤ sf.length)
    (hstar : sf.getLast? ≠ some 42) :
    ∃ rows sel, zcatalog (create hdrSize maxHash binSize mul).1 s everything = some rows ∧
      zcatalog (create hdrSize maxHash binSize mul).1 s { everything with wild := (fun p => (collFound before u junk (join ss) p).getD false) } = some sel ∧
      sel.Sublist rows ∧ ∀ r ps f, ps.length = 6 → (∀ p ∈ ps, IsPart p ∧ p.length ≤ 128) → r.path = join ps → ps[5]? = some f →
        (r ∈ sel ↔ r ∈ rows ∧ (∀ (i : Nat) (q p : Bytes), i < 5 → ss[i]? = some q → ps[i]? = some p → Matches q p) ∧
          ∃ sequence' rest', IsMember f sequence' rest' ∧ sequence'.length = sequence.length ∧ sameUpToCase rest rest') := by
  obtain ⟨rows, sel, h1, h2, _, h3, h4⟩ := C48_selection_partial g R
    { everything with wild := (fun p => (collFound before u junk (join ss) p).getD false) } rfl
  refine ⟨rows, sel, h1, h4, h2, ?_⟩
  intro r ps f hl2 hp hr hf
  obtain ⟨fd, e1, e2⟩ := C80_found_partial before u junk ss ps hl hl2 hq hp
    (fun i q p x a b e l => by
      have := hhead q (List.mem_of_getElem? a) (by rw [e]; rfl)
      rw [e] at this
      have : x = [] := by simpa using this
      rw [this]; simp)
    (fun i p a b => by
      have := hhead [42, 42] (List.mem_of_getElem? a) rfl
      simp at this) sf f sequence rest h5 hf hm h9 hstar
  rw [h3 r (Or.inl rfl)]
  simp only [hr, e1, Option.getD_some, ← e2]
  simp [everything]

end

/-! ### zpathnameCompareCollection -/

theorem loop_part (P : Bytes) : ∀ (Q a b : Bytes) (k n : Nat) (isa : Bool), IsPart P → IsPart Q → k + 1 ≠ 6 →
    compareCollLoop (P.length + (n + 1)) (P ++ 47 :: a) (Q ++ 47 :: b) k false isa =
      if P.map toupper = Q.map toupper then compareCollLoop n a b (k + 1) false isa else some false := by
  induction P with
  | nil =>
    intro Q a b k n isa hP hQ hk
    match Q with
    | [] =>
      simp only [List.length_nil, Nat.zero_add, List.nil_append, compareCollLoop]
      simp [hk]
    | y :: Q =>
      have hy : ¬ toupper 47 = toupper y := by
        intro e
        have := toupper_other (y := 47) (x := y) (by rw [← e]; decide) (by decide)
        exact (hQ y (by simp)).1 this
      simp only [List.length_nil, Nat.zero_add, List.nil_append, List.cons_append, compareCollLoop]
      simp [hy]
  | cons x P ih =>
    intro Q a b k n isa hP hQ hk
    have hx := (hP x (by simp)).1
    match Q with
    | [] =>
      have hy : ¬ toupper x = toupper 47 := by
        intro e
        exact hx (toupper_other (y := 47) (x := x) (by rw [e]; decide) (by decide))
      simp only [List.length_cons, List.nil_append, List.cons_append, show P.length + 1 + (n + 1) = (P.length + (n + 1)) + 1 by omega, compareCollLoop]
      simp [hy]
    | y :: Q =>
      simp only [List.length_cons, List.cons_append, show P.length + 1 + (n + 1) = (P.length + (n + 1)) + 1 by omega, compareCollLoop]
      by_cases h : toupper x = toupper y
      · simp only [Bool.not_false, Bool.true_and, h, bne_self_eq_false, Bool.false_eq_true, if_false, Bool.false_and, hx, List.map_cons, List.cons.injEq, true_and]
        rw [show (P.length + 1).add n = P.length + (n + 1) from (by show P.length + 1 + n = _; omega)]
        rw [ih Q a b k n isa (fun c hc => hP c (by simp [hc])) (fun c hc => hQ c (by simp [hc])) hk]
      · simp [h]

/-- The part before the sixth slash, when the F part has a colon as its second character. -/
theorem loop_fifth (P : Bytes) : ∀ (Q a b : Bytes) (c : UInt8) (n : Nat) (isa : Bool), IsPart P → IsPart Q →
    compareCollLoop (P.length + (n + 1)) (P ++ 47 :: c :: 58 :: a) (Q ++ 47 :: b) 5 false isa =
      if P.map toupper = Q.map toupper then compareCollLoop n (c :: 58 :: a) b 6 true isa else some false := by
  induction P with
  | nil =>
    intro Q a b c n isa hP hQ
    match Q with
    | [] =>
      simp only [List.length_nil, Nat.zero_add, List.nil_append, compareCollLoop]
      simp [rd]
    | y :: Q =>
      have hy : ¬ toupper 47 = toupper y := by
        intro e
        have := toupper_other (y := 47) (x := y) (by rw [← e]; decide) (by decide)
        exact (hQ y (by simp)).1 this
      simp only [List.length_nil, Nat.zero_add, List.nil_append, List.cons_append, compareCollLoop]
      simp [hy]
  | cons x P ih =>
    intro Q a b c n isa hP hQ
    have hx := (hP x (by simp)).1
    match Q with
    | [] =>
      have hy : ¬ toupper x = toupper 47 := by
        intro e
        exact hx (toupper_other (y := 47) (x := x) (by rw [e]; decide) (by decide))
      simp only [List.length_cons, List.nil_append, List.cons_append, show P.length + 1 + (n + 1) = (P.length + (n + 1)) + 1 by omega, compareCollLoop]
      simp [hy]
    | y :: Q =>
      simp only [List.length_cons, List.cons_append, show P.length + 1 + (n + 1) = (P.length + (n + 1)) + 1 by omega, compareCollLoop]
      by_cases h : toupper x = toupper y
      · simp only [Bool.not_false, Bool.true_and, h, bne_self_eq_false, Bool.false_eq_true, if_false, Bool.false_and, hx, List.map_cons, List.cons.injEq, true_and]
        rw [show (P.length + 1).add n = P.length + (n + 1) from (by show P.length + 1 + n = _; omega)]
        rw [ih Q a b c n isa (fun c hc => hP c (by simp [hc])) (fun c hc => hQ c (by simp [hc]))]
      · simp [h]

/-- The sequence is not compared. -/
theorem loop_seq (s : Bytes) : ∀ (t a b : Bytes) (n : Nat) (isa : Bool), s.length = t.length → (∀ c ∈ s, c ≠ 47 ∧ c ≠ 124) →
    compareCollLoop (s.length + (n + 1)) (s ++ 124 :: a) (t ++ 124 :: b) 6 true isa = compareCollLoop n a b 6 false true := by
  induction s with
  | nil =>
    intro t a b n isa hl _
    have : t = [] := List.eq_nil_of_length_eq_zero (by simpa using hl.symm)
    subst this
    simp only [List.length_nil, Nat.zero_add, List.nil_append, compareCollLoop]
    simp
  | cons x s ih =>
    intro t a b n isa hl hs
    match t, hl with
    | y :: t, hl =>
      have h1 := (hs x (by simp)).1
      have h2 := (hs x (by simp)).2
      simp only [List.length_cons, List.cons_append, show s.length + 1 + (n + 1) = (s.length + (n + 1)) + 1 by omega, compareCollLoop]
      simp only [Bool.not_true, Bool.false_and, Bool.false_eq_true, if_false, Bool.true_and, beq_iff_eq, h2, h1]
      rw [show (s.length + 1).add n = s.length + (n + 1) from (by show s.length + 1 + n = _; omega)]
      exact ih t a b n isa (by simpa using hl) (fun c hc => hs c (by simp [hc]))

/-- C81.  Two members of collections with sequences of the same length are found equal if and only if the first
five parts and the texts behind the sequences are the same up to case. -/
theorem C81_members_partial (ps qs : List Bytes) (hl : ps.length = 6) (hl2 : qs.length = 6) (hp : ∀ p ∈ ps, IsPart p) (hq : ∀ q ∈ qs, IsPart q)
    (f f' s s' r r' : Bytes) (hf : ps[5]? = some f) (hf' : qs[5]? = some f') (hm : IsMember f s r) (hm' : IsMember f' s' r') (hs : s.length = s'.length) :
    ∃ same, zpathnameCompareCollection (join ps) (join qs) (join ps).length = some same ∧
      (same = true ↔ (∀ (i : Nat) (p q : Bytes), i < 5 → ps[i]? = some p → qs[i]? = some q → sameUpToCase p q) ∧ sameUpToCase r r') := by
  match ps, hl, qs, hl2 with
  | [p0, p1, p2, p3, p4, p5], _, [q0, q1, q2, q3, q4, q5], _ =>
    simp only [List.getElem?_cons_succ, List.getElem?_cons_zero, Option.some.injEq] at hf hf'
    subst hf hf'
    obtain ⟨c, e⟩ : ∃ c, p5 = c :: 58 :: (s ++ 124 :: r) := by rcases hm.1 with e | e <;> exact ⟨_, e⟩
    obtain ⟨c', e'⟩ : ∃ c, q5 = c :: 58 :: (s' ++ 124 :: r') := by rcases hm'.1 with e | e <;> exact ⟨_, e⟩
    have hP : ∀ x ∈ [p0, p1, p2, p3, p4, p5], IsPart x := hp
    have hQ : ∀ x ∈ [q0, q1, q2, q3, q4, q5], IsPart x := hq
    have hp5 := hP p5 (by simp)
    have hq5 := hQ q5 (by simp)
    have hr : IsPart r := fun x hx => hp5 x (by rw [e]; simp [hx])
    have hr' : IsPart r' := fun x hx => hq5 x (by rw [e']; simp [hx])
    have hc124 : c ≠ 124 ∧ c ≠ 47 := by
      rcases hm.1 with h | h <;> rw [e] at h <;> simp only [List.cons.injEq] at h <;> rw [h.1] <;> decide
    have hsall : ∀ x ∈ c :: 58 :: s, x ≠ 47 ∧ x ≠ 124 := by
      intro x hx
      simp only [List.mem_cons] at hx
      rcases hx with h | h | h
      · rw [h]; exact ⟨hc124.2, hc124.1⟩
      · rw [h]; decide
      · exact ⟨(hp5 x (by rw [e]; simp [h])).1, fun e2 => hm.2 (e2 ▸ h)⟩
    have hval : zpathnameCompareCollection (join [p0, p1, p2, p3, p4, p5]) (join [q0, q1, q2, q3, q4, q5]) (join [p0, p1, p2, p3, p4, p5]).length =
        if p0.map toupper = q0.map toupper then if p1.map toupper = q1.map toupper then if p2.map toupper = q2.map toupper then
          if p3.map toupper = q3.map toupper then if p4.map toupper = q4.map toupper then if r.map toupper = r'.map toupper then some true
          else some false else some false else some false else some false else some false else some false := by
      unfold zpathnameCompareCollection
      have hlen : (join [p0, p1, p2, p3, p4, p5]).length =
          (p0.length + ((p1.length + ((p2.length + ((p3.length + ((p4.length + (((c :: 58 :: s).length + ((r.length + (0 + 1)) + 1)) + 1)) + 1)) + 1)) + 1)) + 1)) + 1 := by
        rw [e]; simp [join]; omega
      rw [hlen]
      have ej : join [p0, p1, p2, p3, p4, p5] ++ [0] =
          47 :: (p0 ++ 47 :: (p1 ++ 47 :: (p2 ++ 47 :: (p3 ++ 47 :: (p4 ++ 47 :: c :: 58 :: (s ++ 124 :: (r ++ 47 :: [0]))))))) := by
        rw [e]; simp [join]
      have ej' : join [q0, q1, q2, q3, q4, q5] ++ [0] =
          47 :: (q0 ++ 47 :: (q1 ++ 47 :: (q2 ++ 47 :: (q3 ++ 47 :: (q4 ++ 47 :: c' :: 58 :: (s' ++ 124 :: (r' ++ 47 :: [0]))))))) := by
        rw [e']; simp [join]
      rw [ej, ej', compareCollLoop]
      simp only [Bool.not_false, Bool.true_and, bne_self_eq_false, Bool.false_eq_true, if_false, Bool.false_and, if_true, show ¬ (0 + 1 = 6) by omega]
      rw [loop_part p0 q0 _ _ _ _ _ (hP _ (by simp)) (hQ _ (by simp)) (by omega)]
      split
      · rw [loop_part p1 q1 _ _ _ _ _ (hP _ (by simp)) (hQ _ (by simp)) (by omega)]
        split
        · rw [loop_part p2 q2 _ _ _ _ _ (hP _ (by simp)) (hQ _ (by simp)) (by omega)]
          split
          · rw [loop_part p3 q3 _ _ _ _ _ (hP _ (by simp)) (hQ _ (by simp)) (by omega)]
            split
            · rw [loop_fifth p4 q4 _ _ _ _ _ (hP _ (by simp)) (hQ _ (by simp))]
              split
              · have := loop_seq (c :: 58 :: s) (c' :: 58 :: s') (r ++ 47 :: [0]) (r' ++ 47 :: [0]) (r.length + (0 + 1)) false (by simp [hs]) hsall
                simp only [List.cons_append] at this
                rw [this, loop_part r r' _ _ _ _ _ hr hr' (by omega)]
                rfl
              · rfl
            · rfl
          · rfl
        · rfl
      · rfl
    have hsame : ∀ a b : Bytes, sameUpToCase a b ↔ a.map toupper = b.map toupper := fun a b => same_iff
    rw [hval]
    refine ⟨decide ((((((p0.map toupper = q0.map toupper ∧ p1.map toupper = q1.map toupper) ∧ p2.map toupper = q2.map toupper) ∧
      p3.map toupper = q3.map toupper) ∧ p4.map toupper = q4.map toupper) ∧ r.map toupper = r'.map toupper)), ?_, ?_⟩
    · by_cases h0 : p0.map toupper = q0.map toupper <;> by_cases h1 : p1.map toupper = q1.map toupper <;> by_cases h2 : p2.map toupper = q2.map toupper <;>
        by_cases h3 : p3.map toupper = q3.map toupper <;> by_cases h4 : p4.map toupper = q4.map toupper <;> by_cases h5 : r.map toupper = r'.map toupper <;>
        simp [h0, h1, h2, h3, h4, h5]
    · rw [decide_eq_true_eq]
      constructor
      · rintro ⟨⟨⟨⟨⟨h0, h1⟩, h2⟩, h3⟩, h4⟩, h5⟩
        refine ⟨fun i p q hi e1 e2 => ?_, (hsame _ _).mpr h5⟩
        match i, hi with
        | 0, _ => simp at e1 e2; subst e1 e2; exact (hsame _ _).mpr h0
        | 1, _ => simp at e1 e2; subst e1 e2; exact (hsame _ _).mpr h1
        | 2, _ => simp at e1 e2; subst e1 e2; exact (hsame _ _).mpr h2
        | 3, _ => simp at e1 e2; subst e1 e2; exact (hsame _ _).mpr h3
        | 4, _ => simp at e1 e2; subst e1 e2; exact (hsame _ _).mpr h4
      · rintro ⟨h, h5⟩
        exact ⟨⟨⟨⟨⟨(hsame _ _).mp (h 0 _ _ (by omega) rfl rfl), (hsame _ _).mp (h 1 _ _ (by omega) rfl rfl)⟩, (hsame _ _).mp (h 2 _ _ (by omega) rfl rfl)⟩,
          (hsame _ _).mp (h 3 _ _ (by omega) rfl rfl)⟩, (hsame _ _).mp (h 4 _ _ (by omega) rfl rfl)⟩, (hsame _ _).mp h5⟩

end Hec
