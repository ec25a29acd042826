import Verif.Proofs.IrregRetrieve
/-!
Retrieving irregular data with the flags for the previous and the next value.
-/
namespace Hec
open Spec

variable {α : Type}

theorem last_iff : ∀ {l : List (Entry α)}, Increasing l → ∀ {e : Entry α},
    (e ∈ l.getLast?.toList ↔ e ∈ l ∧ ∀ x ∈ l, x.time ≤ e.time) := by
  intro l
  induction l with
  | nil => intro _ e; simp
  | cons a l ih =>
    intro h e
    have hp := List.pairwise_cons.1 h
    cases l with
    | nil =>
      simp only [List.getLast?_singleton, Option.toList_some, List.mem_singleton]
      constructor
      · rintro rfl; exact ⟨rfl, fun x hx => by rw [hx]; exact Int.le_refl _⟩
      · exact fun h => h.1
    | cons b l =>
      rw [List.getLast?_cons_cons, ih hp.2]
      constructor
      · rintro ⟨h1, h2⟩
        refine ⟨List.mem_cons_of_mem _ h1, ?_⟩
        intro x hx
        rcases List.mem_cons.1 hx with rfl | hx
        · have := hp.1 e h1; omega
        · exact h2 x hx
      · rintro ⟨h1, h2⟩
        rcases List.mem_cons.1 h1 with rfl | h1
        · have := hp.1 b (by simp)
          have := h2 b (by simp)
          omega
        · exact ⟨h1, fun x hx => h2 x (List.mem_cons_of_mem _ hx)⟩

theorem head_iff {l : List (Entry α)} (h : Increasing l) {e : Entry α} :
    e ∈ l.head?.toList ↔ e ∈ l ∧ ∀ x ∈ l, e.time ≤ x.time := by
  cases l with
  | nil => simp
  | cons a l =>
    have hp := List.pairwise_cons.1 h
    simp only [List.head?_cons, Option.toList_some, List.mem_singleton]
    constructor
    · rintro rfl
      refine ⟨by simp, ?_⟩
      intro x hx
      rcases List.mem_cons.1 hx with rfl | hx
      · exact Int.le_refl _
      · have := hp.1 x hx; omega
    · rintro ⟨h1, h2⟩
      rcases List.mem_cons.1 h1 with rfl | h1
      · rfl
      · have := hp.1 e h1
        have := h2 a (by simp)
        omega

/-- Instants of a block. -/
def InB (jb next x : Int) : Prop := jb * 86400 < x ∧ x ≤ next * 86400

/-- The block has a value in the window. -/
def HasIn (S : Int → Option α) (jb next ws we : Int) : Prop := ∃ y, InB jb next y ∧ S y ≠ none ∧ ws ≤ y ∧ y ≤ we

def LastIn (S : Int → Option α) (jb next ws x : Int) : Prop := x < ws ∧ ∀ y, InB jb next y → S y ≠ none → y < ws → y ≤ x
def FirstIn (S : Int → Option α) (jb next we x : Int) : Prop := we < x ∧ ∀ y, InB jb next y → S y ≠ none → we < y → x ≤ y

theorem flag_block {bs a g jb next ws we : Int} {S : Int → Option α} {o : Option (IrregRec α)} {w : TimeWindow}
    (hb : BlockOK a g (unitOf bs) jb next S o)
    (h1 : 0 ≤ w.startTimeSeconds) (h2 : 0 ≤ w.endTimeSeconds) (hal : unitOf bs ∣ w.startTimeSeconds)
    (hws : ws = w.startJulian * 86400 + w.startTimeSeconds) (hwe : we = w.endJulian * 86400 + w.endTimeSeconds)
    (hle : ws ≤ we) (prev nx : Bool) :
    (blockPairs bs jb w prev nx o).Pairwise (fun p q => p.1 < q.1) ∧
    ∀ x v, (x, v) ∈ blockPairs bs jb w prev nx o ↔ (S x = some v ∧ InB jb next x ∧
      ((ws ≤ x ∧ x ≤ we) ∨ (prev = true ∧ LastIn S jb next ws x ∧ HasIn S jb next ws we) ∨
        (nx = true ∧ FirstIn S jb next we x ∧ HasIn S jb next ws we))) := by
  have hu : 1 ≤ unitOf bs := by rcases unit_cases bs with h | h <;> omega
  cases o with
  | none =>
    refine ⟨List.Pairwise.nil, ?_⟩
    intro x v
    constructor
    · intro h; simp [blockPairs, blockOut] at h
    · rintro ⟨hs, hi, _⟩
      have := hb x hi.1 hi.2
      rw [this] at hs; simp at hs
  | some r =>
    obtain ⟨hok, -, -, -⟩ := hb
    -- each entry in instants
    have hmono : ∀ s t : Int, s < t ↔ jb * 86400 + s * unitOf bs < jb * 86400 + t * unitOf bs := by
      intro s t
      constructor
      · intro h; have := Int.mul_lt_mul_of_pos_right h (show 0 < unitOf bs by omega); omega
      · intro h; exact Int.lt_of_mul_lt_mul_right (show s * unitOf bs < t * unitOf bs by omega) (by omega)
    have hin : ∀ e ∈ r.entries, InB jb next (jb * 86400 + e.time * unitOf bs) ∧ S (jb * 86400 + e.time * unitOf bs) = some e.val := by
      intro e he
      have hp := hok.pos e he
      have hp1 : 1 * unitOf bs ≤ e.time * unitOf bs := Int.mul_le_mul_of_nonneg_right (by omega) (by omega)
      rw [Int.sub_mul] at hp
      have a1 : InB jb next (jb * 86400 + e.time * unitOf bs) := ⟨by omega, by omega⟩
      exact ⟨a1, (hok.val _ _ a1.1 a1.2).2 ⟨e, he, rfl, rfl⟩⟩
    have hout : ∀ y, InB jb next y → S y ≠ none → ∃ e ∈ r.entries, jb * 86400 + e.time * unitOf bs = y := by
      intro y hy hs
      obtain ⟨v, hv⟩ := Option.ne_none_iff_exists'.1 hs
      obtain ⟨e, he, _, hx⟩ := (hok.val y v hy.1 hy.2).1 hv
      exact ⟨e, he, hx⟩
    have hwin : ∀ t, (winLo (unitOf bs) jb w ≤ t ↔ ws ≤ jb * 86400 + t * unitOf bs) ∧
        (t ≤ winHi (unitOf bs) jb w ↔ jb * 86400 + t * unitOf bs ≤ we) := by
      intro t; rw [hws, hwe]; exact window_inst h1 h2 hal
    unfold blockPairs blockOut
    simp only
    generalize hlo : winLo (unitOf bs) jb w = lo at *
    generalize hhi : winHi (unitOf bs) jb w = hi at *
    have hA : Increasing (r.entries.filter (fun e => decide (e.time < lo))) := List.Pairwise.filter _ hok.inc
    have hC : Increasing (r.entries.filter (fun e => decide (lo ≤ e.time ∧ hi < e.time))) := List.Pairwise.filter _ hok.inc
    have hB : Increasing (r.entries.filter (fun e => decide (lo ≤ e.time ∧ e.time ≤ hi))) := List.Pairwise.filter _ hok.inc
    have memA : ∀ e, e ∈ r.entries.filter (fun e => decide (e.time < lo)) ↔ e ∈ r.entries ∧ e.time < lo := by
      intro e; rw [List.mem_filter]; simp
    have memB : ∀ e, e ∈ r.entries.filter (fun e => decide (lo ≤ e.time ∧ e.time ≤ hi)) ↔ e ∈ r.entries ∧ lo ≤ e.time ∧ e.time ≤ hi := by
      intro e; rw [List.mem_filter]; simp
    have memC : ∀ e, e ∈ r.entries.filter (fun e => decide (lo ≤ e.time ∧ hi < e.time)) ↔ e ∈ r.entries ∧ lo ≤ e.time ∧ hi < e.time := by
      intro e; rw [List.mem_filter]; simp
    generalize r.entries.filter (fun e => decide (e.time < lo)) = A at *
    generalize r.entries.filter (fun e => decide (lo ≤ e.time ∧ hi < e.time)) = C at *
    generalize r.entries.filter (fun e => decide (lo ≤ e.time ∧ e.time ≤ hi)) = B at *
    have hHas : HasIn S jb next ws we ↔ B ≠ [] := by
      constructor
      · rintro ⟨y, hy, hs, h3, h4⟩ hn
        obtain ⟨e, he, hx⟩ := hout y hy hs
        have : e ∈ B := (memB e).2 ⟨he, (hwin e.time).1.2 (by omega), (hwin e.time).2.2 (by omega)⟩
        rw [hn] at this; simp at this
      · intro hn
        obtain ⟨e, he⟩ := List.exists_mem_of_ne_nil B hn
        obtain ⟨k1, k2, k3⟩ := (memB e).1 he
        exact ⟨_, (hin e k1).1, by rw [(hin e k1).2]; simp, (hwin e.time).1.1 k2, (hwin e.time).2.1 k3⟩
    have hlt : ∀ t, t < lo ↔ jb * 86400 + t * unitOf bs < ws := by
      intro t; have := (hwin t).1; omega
    have hgt : ∀ t, hi < t ↔ we < jb * 86400 + t * unitOf bs := by
      intro t; have := (hwin t).2; omega
    have memP : ∀ e, e ∈ (if prev = true then A.getLast?.toList else []) ↔
        prev = true ∧ e ∈ r.entries ∧ LastIn S jb next ws (jb * 86400 + e.time * unitOf bs) := by
      intro e
      cases prev with
      | false => simp
      | true =>
        simp only [if_true, true_and]
        rw [last_iff hA, memA]
        constructor
        · rintro ⟨⟨m1, m2⟩, m3⟩
          refine ⟨m1, (hlt _).1 m2, ?_⟩
          intro y hy hs hyw
          obtain ⟨e', he', hx⟩ := hout y hy hs
          have := m3 e' ((memA e').2 ⟨he', (hlt _).2 (by omega)⟩)
          rcases Int.lt_or_eq_of_le this with c | c
          · have := (hmono _ _).1 c; omega
          · rw [← hx, c]; omega
        · rintro ⟨m1, m2, m3⟩
          refine ⟨⟨m1, (hlt _).2 m2⟩, ?_⟩
          intro e' he'
          obtain ⟨q1, q2⟩ := (memA e').1 he'
          have := m3 _ (hin e' q1).1 (by rw [(hin e' q1).2]; simp) ((hlt _).1 q2)
          rcases Int.lt_or_le e.time e'.time with c | c
          · have := (hmono _ _).1 c; omega
          · exact c
    have memN : ∀ e, e ∈ (if nx = true then C.head?.toList else []) ↔
        nx = true ∧ e ∈ r.entries ∧ FirstIn S jb next we (jb * 86400 + e.time * unitOf bs) := by
      intro e
      cases nx with
      | false => simp
      | true =>
        simp only [if_true, true_and]
        rw [head_iff hC, memC]
        constructor
        · rintro ⟨⟨m1, m0, m2⟩, m3⟩
          refine ⟨m1, (hgt _).1 m2, ?_⟩
          intro y hy hs hyw
          obtain ⟨e', he', hx⟩ := hout y hy hs
          have := m3 e' ((memC e').2 ⟨he', (hwin _).1.2 (by omega), (hgt _).2 (by omega)⟩)
          rcases Int.lt_or_eq_of_le this with c | c
          · have := (hmono _ _).1 c; omega
          · rw [← hx, c]; omega
        · rintro ⟨m1, m2, m3⟩
          refine ⟨⟨m1, (hwin _).1.2 (by omega), (hgt _).2 m2⟩, ?_⟩
          intro e' he'
          obtain ⟨q1, q0, q2⟩ := (memC e').1 he'
          have := m3 _ (hin e' q1).1 (by rw [(hin e' q1).2]; simp) ((hgt _).1 q2)
          rcases Int.lt_or_le e'.time e.time with c | c
          · have := (hmono _ _).1 c; omega
          · exact c
    by_cases hBn : B = []
    · rw [if_pos hBn]
      refine ⟨List.Pairwise.nil, ?_⟩
      intro x v
      constructor
      · intro h; simp at h
      · rintro ⟨hs, hi', h⟩
        exfalso
        have hno : ¬ HasIn S jb next ws we := fun h => (hHas.1 h) hBn
        rcases h with ⟨h3, h4⟩ | ⟨_, _, h⟩ | ⟨_, _, h⟩
        · exact hno ⟨x, hi', by rw [hs]; simp, h3, h4⟩
        · exact hno h
        · exact hno h
    · rw [if_neg hBn]
      have hHas' := hHas.2 hBn
      constructor
      · rw [List.pairwise_map]
        have key : Increasing ((if prev = true then A.getLast?.toList else []) ++ B ++ (if nx = true then C.head?.toList else [])) := by
          refine List.pairwise_append.2 ⟨List.pairwise_append.2 ⟨?_, hB, ?_⟩, ?_, ?_⟩
          · cases prev
            · exact List.Pairwise.nil
            · simp only [if_true]; cases A.getLast? <;> simp
          · intro p hp q hq
            have hp := (memP p).1 hp
            have hq := (memB q).1 hq
            have := (hlt _).2 hp.2.2.1
            omega
          · cases nx
            · exact List.Pairwise.nil
            · simp only [if_true]; cases C.head? <;> simp
          · intro p hp q hq
            have hq := (memN q).1 hq
            have hq' := (hgt _).2 hq.2.2.1
            rcases List.mem_append.1 hp with hp | hp
            · have hp := (memP p).1 hp
              have := hp.2.2.1
              have := hq.2.2.1
              exact (hmono _ _).2 (by omega)
            · have hp := (memB p).1 hp; omega
        exact List.Pairwise.imp (fun {p q} h => (hmono p.time q.time).1 h) key
      · intro x v
        rw [List.mem_map]
        have mem3 : ∀ e, e ∈ (if prev = true then A.getLast?.toList else []) ++ B ++ (if nx = true then C.head?.toList else []) ↔
            e ∈ r.entries ∧ ((ws ≤ jb * 86400 + e.time * unitOf bs ∧ jb * 86400 + e.time * unitOf bs ≤ we) ∨
              (prev = true ∧ LastIn S jb next ws (jb * 86400 + e.time * unitOf bs)) ∨
              (nx = true ∧ FirstIn S jb next we (jb * 86400 + e.time * unitOf bs))) := by
          intro e
          rw [List.mem_append, List.mem_append, memP, memB, memN, (hwin e.time).1, (hwin e.time).2]
          constructor
          · rintro ((⟨q1, q2, q3⟩ | ⟨q1, q2⟩) | ⟨q1, q2, q3⟩)
            · exact ⟨q2, Or.inr (Or.inl ⟨q1, q3⟩)⟩
            · exact ⟨q1, Or.inl q2⟩
            · exact ⟨q2, Or.inr (Or.inr ⟨q1, q3⟩)⟩
          · rintro ⟨q, q1 | ⟨q1, q2⟩ | ⟨q1, q2⟩⟩
            · exact Or.inl (Or.inr ⟨q, q1⟩)
            · exact Or.inl (Or.inl ⟨q1, q, q2⟩)
            · exact Or.inr ⟨q1, q, q2⟩
        constructor
        · rintro ⟨e, he, heq⟩
          have ex : jb * 86400 + e.time * unitOf bs = x := congrArg Prod.fst heq
          have ev : e.val = v := congrArg Prod.snd heq
          obtain ⟨m, h⟩ := (mem3 e).1 he
          have hi' := hin e m
          rw [ex] at h hi'
          refine ⟨by rw [hi'.2, ev], hi'.1, ?_⟩
          rcases h with h | ⟨h3, h4⟩ | ⟨h3, h4⟩
          · exact Or.inl h
          · exact Or.inr (Or.inl ⟨h3, h4, hHas'⟩)
          · exact Or.inr (Or.inr ⟨h3, h4, hHas'⟩)
        · rintro ⟨hs, hi', h⟩
          obtain ⟨e, he, ev, ex⟩ := (hok.val x v hi'.1 hi'.2).1 hs
          refine ⟨e, (mem3 e).2 ⟨he, ?_⟩, by rw [ex, ev]⟩
          rw [ex]
          rcases h with h | ⟨h3, h4, _⟩ | ⟨h3, h4, _⟩
          · exact Or.inl h
          · exact Or.inr (Or.inl ⟨h3, h4⟩)
          · exact Or.inr (Or.inr ⟨h3, h4⟩)

theorem flag_all {bs a g n0 nE flag ws we : Int} {jbOf : Int → Int} (G : BlockGrid bs jbOf n0)
    {S : Int → Option α} {f : IrregFile α} (ho : FileOK a g bs jbOf n0 S f) (w : TimeWindow)
    (h1 : 0 ≤ w.startTimeSeconds) (h2 : 0 ≤ w.endTimeSeconds) (hal : unitOf bs ∣ w.startTimeSeconds)
    (hws : ws = w.startJulian * 86400 + w.startTimeSeconds) (hwe : we = w.endJulian * 86400 + w.endTimeSeconds)
    (hle : ws ≤ we) :
    ∀ (k : Nat) (n : Int) (prev : Bool), n0 ≤ n → n + k = nE + 1 →
    (allPairs f bs jbOf nE flag w k n prev).Pairwise (fun p q => p.1 < q.1) ∧
    (∀ x v, (x, v) ∈ allPairs f bs jbOf nE flag w k n prev ↔
      (S x = some v ∧ jbOf n * 86400 < x ∧ x ≤ jbOf (nE + 1) * 86400 ∧
        ((ws ≤ x ∧ x ≤ we) ∨
         (prev = true ∧ InB (jbOf n) (jbOf (n + 1)) x ∧ LastIn S (jbOf n) (jbOf (n + 1)) ws x ∧ HasIn S (jbOf n) (jbOf (n + 1)) ws we) ∨
         ((flag = 2 ∨ flag = 3) ∧ InB (jbOf nE) (jbOf (nE + 1)) x ∧ FirstIn S (jbOf nE) (jbOf (nE + 1)) we x ∧
           HasIn S (jbOf nE) (jbOf (nE + 1)) ws we)))) := by
  intro k
  induction k with
  | zero =>
    intro n prev hn hk
    have : n = nE + 1 := by simpa using hk
    subst this
    refine ⟨List.Pairwise.nil, ?_⟩
    intro x v
    constructor
    · intro h; simp [allPairs] at h
    · rintro ⟨_, h3, h4, _⟩; omega
  | succ k ih =>
    intro n prev hn hk
    obtain ⟨i1, i2⟩ := ih (n + 1) false (by omega) (by omega)
    unfold allPairs
    obtain ⟨b1, b2⟩ := flag_block (ho n hn) h1 h2 hal hws hwe hle prev
      (decide (n = nE) && (decide (flag = 2) || decide (flag = 3)))
    have hlt := G.lt n hn
    have hmono := G.mono_le (m := n + 1) (n := nE + 1) (by omega) (by omega)
    constructor
    · refine List.pairwise_append.2 ⟨b1, i1, ?_⟩
      intro p hp q hq
      have h3 := ((b2 p.1 p.2).1 hp).2.1.2
      have := (i2 q.1 q.2).1 hq
      omega
    · intro x v
      rw [List.mem_append, b2, i2]
      constructor
      · rintro (⟨s, hi, h⟩ | ⟨s, a1, a2, h⟩)
        · refine ⟨s, hi.1, by have := hi.2; omega, ?_⟩
          rcases h with h | ⟨q1, q2, q3⟩ | ⟨q1, q2, q3⟩
          · exact Or.inl h
          · exact Or.inr (Or.inl ⟨q1, hi, q2, q3⟩)
          · simp only [Bool.and_eq_true, Bool.or_eq_true, decide_eq_true_eq] at q1
            obtain ⟨rfl, q1⟩ := q1
            exact Or.inr (Or.inr ⟨q1, hi, q2, q3⟩)
        · refine ⟨s, by omega, a2, ?_⟩
          rcases h with h | ⟨q1, _⟩ | h
          · exact Or.inl h
          · simp at q1
          · exact Or.inr (Or.inr h)
      · rintro ⟨s, a1, a2, h⟩
        rcases h with h | ⟨q1, q2, q3⟩ | ⟨q1, q2, q3⟩
        · rcases Int.lt_or_le (jbOf (n + 1) * 86400) x with c | c
          · exact Or.inr ⟨s, c, a2, Or.inl h⟩
          · exact Or.inl ⟨s, ⟨a1, c⟩, Or.inl h⟩
        · exact Or.inl ⟨s, q2, Or.inr (Or.inl ⟨q1, q3⟩)⟩
        · by_cases c : n = nE
          · subst c
            refine Or.inl ⟨s, q2, Or.inr (Or.inr ⟨?_, q3⟩)⟩
            simp only [Bool.and_eq_true, Bool.or_eq_true, decide_eq_true_eq]
            exact ⟨trivial, q1⟩
          · have := G.mono_le (m := n + 1) (n := nE) (by omega) (by omega)
            exact Or.inr ⟨s, by have := q2.1; omega, a2, Or.inr (Or.inr ⟨q1, q2, q3⟩)⟩

theorem cmp_secs {j1 t1 j2 t2 : Int} (h1 : IsTime j1 t1) (h2 : IsTime j2 t2) :
    (compareTimes j1 t1 0 1 j2 t2 0 1 > 0 ↔ j2 * 86400 + t2 < j1 * 86400 + t1) ∧
    (compareTimes j1 t1 0 1 j2 t2 0 1 < 0 ↔ j1 * 86400 + t1 < j2 * 86400 + t2) := by
  have d : (1 : Int) ∣ 86400 := ⟨86400, rfl⟩
  rw [C06_compareTimes j1 t1 0 1 j2 t2 0 1 (by omega) d (by omega) d (by simpa using h1) (by simpa using h2)]
  unfold instantG cmp3
  simp only [Int.add_zero, Int.mul_one]
  by_cases c : j1 * 86400 + t1 < j2 * 86400 + t2
  · rw [if_pos c]; omega
  · rw [if_neg c]
    by_cases c' : j2 * 86400 + t2 < j1 * 86400 + t1
    · rw [if_pos c']; omega
    · rw [if_neg c']; omega

/-- The first and last time of a record. -/
theorem first_last {bs a g jb next : Int} {S : Int → Option α} {r : IrregRec α}
    (hb : BlockOK a g (unitOf bs) jb next S (some r)) :
    (let t := irregFirst bs jb r
     1 ≤ t.2 ∧ t.2 ≤ 86400 ∧ unitOf bs ∣ t.2 ∧ InB jb next (t.1 * 86400 + t.2) ∧ S (t.1 * 86400 + t.2) ≠ none ∧
      ∀ y, InB jb next y → S y ≠ none → t.1 * 86400 + t.2 ≤ y) ∧
    (let t := irregLast bs jb r
     1 ≤ t.2 ∧ t.2 ≤ 86400 ∧ unitOf bs ∣ t.2 ∧ InB jb next (t.1 * 86400 + t.2) ∧ S (t.1 * 86400 + t.2) ≠ none ∧
      ∀ y, InB jb next y → S y ≠ none → y ≤ t.1 * 86400 + t.2) := by
  obtain ⟨hok, hne, -, -⟩ := hb
  have hu : 1 ≤ unitOf bs := by rcases unit_cases bs with h | h <;> omega
  have hud : unitOf bs ∣ 86400 := by
    rcases unit_cases bs with h | h <;> rw [h.1]
    · exact ⟨86400, rfl⟩
    · exact ⟨1440, rfl⟩
  have hin : ∀ e ∈ r.entries, InB jb next (jb * 86400 + e.time * unitOf bs) ∧ S (jb * 86400 + e.time * unitOf bs) = some e.val := by
    intro e he
    have hp := hok.pos e he
    have hp1 : 1 * unitOf bs ≤ e.time * unitOf bs := Int.mul_le_mul_of_nonneg_right (by omega) (by omega)
    rw [Int.sub_mul] at hp
    have a1 : InB jb next (jb * 86400 + e.time * unitOf bs) := ⟨by omega, by omega⟩
    exact ⟨a1, (hok.val _ _ a1.1 a1.2).2 ⟨e, he, rfl, rfl⟩⟩
  have hout : ∀ y, InB jb next y → S y ≠ none → ∃ e ∈ r.entries, jb * 86400 + e.time * unitOf bs = y := by
    intro y hy hs
    obtain ⟨v, hv⟩ := Option.ne_none_iff_exists'.1 hs
    obtain ⟨e, he, _, hx⟩ := (hok.val y v hy.1 hy.2).1 hv
    exact ⟨e, he, hx⟩
  have hmul : ∀ s t : Int, s ≤ t → s * unitOf bs ≤ t * unitOf bs := fun s t h => Int.mul_le_mul_of_nonneg_right h (by omega)
  have hdiv : ∀ (p : Int × Int) (t : Int), p.1 * 86400 + p.2 = jb * 86400 + t * unitOf bs → unitOf bs ∣ p.2 := by
    intro p t h
    have : p.2 = (jb - p.1) * 86400 + t * unitOf bs := by rw [Int.sub_mul]; omega
    rw [this]
    exact Int.dvd_add (Int.dvd_trans hud (Int.dvd_mul_left _ _)) (Int.dvd_mul_left _ _)
  constructor
  · intro t
    obtain ⟨e, l, he⟩ : ∃ e l, r.entries = e :: l := by
      cases h : r.entries with
      | nil => exact absurd h hne
      | cons e l => exact ⟨e, l, rfl⟩
    have hm : e ∈ r.entries := by rw [he]; simp
    have ht : t = irregValueTime jb bs e.time := by
      show irregFirst bs jb r = _; unfold irregFirst; rw [he]; rfl
    have hv := valueTime_spec (jb := jb) (bs := bs) (hok.pos e hm).1
    rw [← ht] at hv
    simp only at hv
    have hh := (head_iff hok.inc (e := e)).1 (by rw [he]; simp)
    refine ⟨hv.2.1, hv.2.2, hdiv _ _ hv.1, ?_, ?_, ?_⟩
    · rw [hv.1]; exact (hin e hm).1
    · rw [hv.1, (hin e hm).2]; simp
    · intro y hy hs
      obtain ⟨e', he', hx⟩ := hout y hy hs
      rw [hv.1, ← hx]
      have := hmul _ _ (hh.2 e' he'); omega
  · intro t
    obtain ⟨e, he⟩ : ∃ e, r.entries.getLast? = some e := ⟨_, List.getLast?_eq_some_getLast hne⟩
    have hh := (last_iff hok.inc (e := e)).1 (by rw [he]; simp)
    have hm := hh.1
    have ht : t = irregValueTime jb bs e.time := by
      show irregLast bs jb r = _; unfold irregLast; rw [he]; rfl
    have hv := valueTime_spec (jb := jb) (bs := bs) (hok.pos e hm).1
    rw [← ht] at hv
    simp only at hv
    refine ⟨hv.2.1, hv.2.2, hdiv _ _ hv.1, ?_, ?_, ?_⟩
    · rw [hv.1]; exact (hin e hm).1
    · rw [hv.1, (hin e hm).2]; simp
    · intro y hy hs
      obtain ⟨e', he', hx⟩ := hout y hy hs
      rw [hv.1, ← hx]
      have := hmul _ _ (hh.2 e' he'); omega

/-- The block has a value. -/
def Has (S : Int → Option α) (jb next : Int) : Prop := ∃ y, InB jb next y ∧ S y ≠ none

theorem has_some {bs a g jb next : Int} {S : Int → Option α} {r : IrregRec α}
    (hb : BlockOK a g (unitOf bs) jb next S (some r)) : Has S jb next :=
  ⟨_, (first_last hb).1.2.2.2.1, (first_last hb).1.2.2.2.2.1⟩

theorem has_none {bs a g jb next : Int} {S : Int → Option α}
    (hb : BlockOK a g (unitOf bs) jb next S none) : ¬ Has S jb next := by
  rintro ⟨y, hy, hs⟩; exact hs (hb y hy.1 hy.2)

theorem undef_lt {bs n0 n j : Int} {jbOf : Int → Int} (G : BlockGrid bs jbOf n0) (h0 : UNDEFINED_TIME + 1 < jbOf n0) (hn : n0 ≤ n)
    (h : jbOf n - 1 ≤ j) : j ≠ UNDEFINED_TIME := by
  have := G.mono_le (m := n0) (n := n) (by omega) hn
  omega

/-- No next value is looked for in the following block: the last block has none, or one after the
window, or the following block has none. -/
def NoNext (S : Int → Option α) (jbOf : Int → Int) (n we : Int) : Prop :=
  ¬ Has S (jbOf n) (jbOf (n + 1)) ∨ (∃ y, InB (jbOf n) (jbOf (n + 1)) y ∧ S y ≠ none ∧ we < y) ∨
    ¬ Has S (jbOf (n + 1)) (jbOf (n + 1 + 1))

/-- The window is extended to the first value `x` of the following block. -/
structure ExtNext (S : Int → Option α) (jbOf : Int → Int) (n we x : Int) : Prop where
  has : Has S (jbOf n) (jbOf (n + 1))
  before : ∀ y, InB (jbOf n) (jbOf (n + 1)) y → S y ≠ none → y ≤ we
  inb : InB (jbOf (n + 1)) (jbOf (n + 1 + 1)) x
  val : S x ≠ none
  first : ∀ y, InB (jbOf (n + 1)) (jbOf (n + 1 + 1)) y → S y ≠ none → x ≤ y

/-- What looking for the next value does. -/
theorem subsequent_out {bs a g n0 n2 : Int} {jbOf : Int → Int} (G : BlockGrid bs jbOf n0) (h0 : UNDEFINED_TIME + 1 < jbOf n0)
    {S : Int → Option α} {f : IrregFile α} (ho : FileOK a g bs jbOf n0 S f) (s : RetrieveSetup)
    (hn : n0 ≤ n2) (hE : s.endBlock = jbOf n2)
    (ht : 1 ≤ s.w.endTimeSeconds) (hj1 : jbOf n2 ≤ s.w.endJulian) :
    (setupSubsequent f bs s = s ∧
      ((s.flag = 2 ∨ s.flag = 3) → NoNext S jbOf n2 (s.w.endJulian * 86400 + s.w.endTimeSeconds))) ∨
    (∃ ej es, setupSubsequent f bs s = ⟨⟨s.w.startJulian, s.w.startTimeSeconds, ej, es⟩, s.startBlock, jbOf (n2 + 1), if s.flag = 3 then 1 else 0, s.previous⟩ ∧
      1 ≤ es ∧ (s.flag = 2 ∨ s.flag = 3) ∧
      ExtNext S jbOf n2 (s.w.endJulian * 86400 + s.w.endTimeSeconds) (ej * 86400 + es)) := by
  unfold setupSubsequent
  by_cases c : s.flag = 2 ∨ s.flag = 3
  · rw [if_pos c, hE]
    have hB := ho n2 hn
    cases hf : f (jbOf n2) with
    | none => rw [hf] at hB; exact Or.inl ⟨rfl, fun _ => Or.inl (has_none hB)⟩
    | some r =>
      rw [hf] at hB
      obtain ⟨l1, l2, l3, l4, l5, l6⟩ := (first_last hB).2
      simp only
      generalize irregLast bs (jbOf n2) r = t at *
      have hT : IsTime t.1 t.2 := ⟨undef_lt G h0 hn (by have := l4.1; omega), by omega⟩
      have hT' : IsTime s.w.endJulian s.w.endTimeSeconds := ⟨undef_lt G h0 hn (by omega), by omega⟩
      obtain ⟨c1, -⟩ := cmp_secs hT hT'
      by_cases k : compareTimes t.1 t.2 0 1 s.w.endJulian s.w.endTimeSeconds 0 1 > 0
      · rw [if_pos k]
        exact Or.inl ⟨rfl, fun _ => Or.inr (Or.inl ⟨_, l4, l5, c1.1 k⟩)⟩
      · rw [if_neg k, G.next n2 hn]
        have hB' := ho (n2 + 1) (by omega)
        cases hf' : f (jbOf (n2 + 1)) with
        | none => rw [hf'] at hB'; exact Or.inl ⟨rfl, fun _ => Or.inr (Or.inr (has_none hB'))⟩
        | some r' =>
          rw [hf'] at hB'
          obtain ⟨m1, m2, m3, m4, m5, m6⟩ := (first_last hB').1
          refine Or.inr ⟨_, _, rfl, m1, c, has_some hB, ?_, m4, m5, m6⟩
          intro y hy hs
          have := l6 y hy hs
          have : ¬ s.w.endJulian * 86400 + s.w.endTimeSeconds < t.1 * 86400 + t.2 := fun h => k (c1.2 h)
          omega
  · rw [if_neg c]; exact Or.inl ⟨rfl, fun h => absurd h c⟩

/-- No previous value is looked for in the block before: the first block has none, or the block before
has none. -/
def NoPrev (S : Int → Option α) (jbOf : Int → Int) (n ws : Int) : Prop :=
  ¬ Has S (jbOf n) (jbOf (n + 1)) ∨
    ((∀ y, InB (jbOf n) (jbOf (n + 1)) y → S y ≠ none → ws ≤ y) ∧ ¬ Has S (jbOf (n - 1)) (jbOf n))

/-- The window is extended to the last value `x` of the block before. -/
structure ExtPrev (S : Int → Option α) (jbOf : Int → Int) (n ws x : Int) : Prop where
  has : Has S (jbOf n) (jbOf (n + 1))
  after : ∀ y, InB (jbOf n) (jbOf (n + 1)) y → S y ≠ none → ws ≤ y
  inb : InB (jbOf (n - 1)) (jbOf n) x
  val : S x ≠ none
  last : ∀ y, InB (jbOf (n - 1)) (jbOf n) y → S y ≠ none → y ≤ x

/-- What looking for the previous value does. -/
theorem previous_out {bs a g n0 n1 : Int} {jbOf : Int → Int} (G : BlockGrid bs jbOf n0) (h0 : UNDEFINED_TIME + 1 < jbOf n0)
    {S : Int → Option α} {f : IrregFile α} (ho : FileOK a g bs jbOf n0 S f) (s : RetrieveSetup)
    (hn : n0 ≤ n1 - 1) (hE : s.startBlock = jbOf n1)
    (ht : 1 ≤ s.w.startTimeSeconds) (hj1 : jbOf n1 ≤ s.w.startJulian) :
    (setupPrevious f bs s = s ∧
      ((s.flag = 1 ∨ s.flag = 3) → NoPrev S jbOf n1 (s.w.startJulian * 86400 + s.w.startTimeSeconds))) ∨
    (setupPrevious f bs s = ⟨s.w, s.startBlock, s.endBlock, s.flag, true⟩ ∧ (s.flag = 1 ∨ s.flag = 3) ∧
      (∃ y, InB (jbOf n1) (jbOf (n1 + 1)) y ∧ S y ≠ none ∧ y < s.w.startJulian * 86400 + s.w.startTimeSeconds)) ∨
    (∃ sj ss, setupPrevious f bs s = ⟨⟨sj, ss, s.w.endJulian, s.w.endTimeSeconds⟩, jbOf (n1 - 1), s.endBlock, if s.flag = 3 then 2 else 0, s.previous⟩ ∧
      1 ≤ ss ∧ unitOf bs ∣ ss ∧ (s.flag = 1 ∨ s.flag = 3) ∧
      ExtPrev S jbOf n1 (s.w.startJulian * 86400 + s.w.startTimeSeconds) (sj * 86400 + ss)) := by
  unfold setupPrevious
  by_cases c : s.flag = 1 ∨ s.flag = 3
  · rw [if_pos c, hE]
    have hB := ho n1 (by omega)
    cases hf : f (jbOf n1) with
    | none => rw [hf] at hB; exact Or.inl ⟨rfl, fun _ => Or.inl (has_none hB)⟩
    | some r =>
      rw [hf] at hB
      obtain ⟨l1, l2, l3, l4, l5, l6⟩ := (first_last hB).1
      simp only
      generalize irregFirst bs (jbOf n1) r = t at *
      have hT : IsTime t.1 t.2 := ⟨undef_lt G h0 (n := n1) (by omega) (by have := l4.1; omega), by omega⟩
      have hT' : IsTime s.w.startJulian s.w.startTimeSeconds := ⟨undef_lt G h0 (n := n1) (by omega) (by omega), by omega⟩
      obtain ⟨-, c1⟩ := cmp_secs hT hT'
      by_cases k : compareTimes t.1 t.2 0 1 s.w.startJulian s.w.startTimeSeconds 0 1 < 0
      · rw [if_pos k]
        exact Or.inr (Or.inl ⟨rfl, c, ⟨_, l4, l5, c1.1 k⟩⟩)
      · rw [if_neg k]
        have e : n1 - 1 + 1 = n1 := by omega
        have hlt := G.lt (n1 - 1) hn
        rw [e] at hlt
        rw [G.block (n1 - 1) (jbOf n1 - 1) hn (by omega) (by rw [e]; omega)]
        have hB' := ho (n1 - 1) hn
        rw [e] at hB'
        have hafter : ∀ y, InB (jbOf n1) (jbOf (n1 + 1)) y → S y ≠ none → s.w.startJulian * 86400 + s.w.startTimeSeconds ≤ y := by
          intro y hy hs
          have := l6 y hy hs
          have : ¬ t.1 * 86400 + t.2 < s.w.startJulian * 86400 + s.w.startTimeSeconds := fun h => k (c1.2 h)
          omega
        cases hf' : f (jbOf (n1 - 1)) with
        | none => rw [hf'] at hB'; exact Or.inl ⟨rfl, fun _ => Or.inr ⟨hafter, has_none hB'⟩⟩
        | some r' =>
          rw [hf'] at hB'
          obtain ⟨m1, m2, m3, m4, m5, m6⟩ := (first_last hB').2
          exact Or.inr (Or.inr ⟨_, _, rfl, m1, m3, c, has_some hB, hafter, m4, m5, m6⟩)
  · rw [if_neg c]; exact Or.inl ⟨rfl, fun h => absurd h c⟩

/-- The previous value, when the library returns it. -/
def PrevRet (S : Int → Option α) (jbOf : Int → Int) (n0 n1 ws we x : Int) : Prop :=
  x < ws ∧ (∀ y, jbOf n0 * 86400 < y → S y ≠ none → y < ws → y ≤ x) ∧
    ((InB (jbOf n1) (jbOf (n1 + 1)) x ∧ HasIn S (jbOf n1) (jbOf (n1 + 1)) ws we) ∨
     (InB (jbOf (n1 - 1)) (jbOf n1) x ∧ Has S (jbOf n1) (jbOf (n1 + 1))))

/-- The next value, when the library returns it. -/
def NextRet (S : Int → Option α) (jbOf : Int → Int) (n0 n2 ws we x : Int) : Prop :=
  we < x ∧ (∀ y, jbOf n0 * 86400 < y → S y ≠ none → we < y → x ≤ y) ∧
    ((InB (jbOf n2) (jbOf (n2 + 1)) x ∧ HasIn S (jbOf n2) (jbOf (n2 + 1)) ws we) ∨
     (InB (jbOf (n2 + 1)) (jbOf (n2 + 1 + 1)) x ∧ Has S (jbOf n2) (jbOf (n2 + 1))))

theorem end_step {bs n0 n2 nS nE flag flag' ws ws' we we' : Int} {jbOf : Int → Int} (G : BlockGrid bs jbOf n0)
    {S : Int → Option α} (hS : n0 ≤ nS) (hn : nS ≤ n2) (hwe1 : jbOf n2 * 86400 < we) (hwe2 : we ≤ jbOf (n2 + 1) * 86400)
    (hle : ws' ≤ ws) (hle' : ws ≤ we)
    (hsame : ∀ y, InB (jbOf n2) (jbOf (n2 + 1)) y → S y ≠ none → (ws' ≤ y ↔ ws ≤ y))
    (h : (nE = n2 ∧ we' = we ∧ ((flag' = 2 ∨ flag' = 3) ↔ (flag = 2 ∨ flag = 3)) ∧ ((flag = 2 ∨ flag = 3) → NoNext S jbOf n2 we)) ∨
         (nE = n2 + 1 ∧ (flag = 2 ∨ flag = 3) ∧ ¬ (flag' = 2 ∨ flag' = 3) ∧ ExtNext S jbOf n2 we we'))
    (prev : Bool) (x : Int) (v : α) :
    (S x = some v ∧ jbOf nS * 86400 < x ∧ x ≤ jbOf (nE + 1) * 86400 ∧
        ((ws' ≤ x ∧ x ≤ we') ∨
         (prev = true ∧ InB (jbOf nS) (jbOf (nS + 1)) x ∧ LastIn S (jbOf nS) (jbOf (nS + 1)) ws' x ∧ HasIn S (jbOf nS) (jbOf (nS + 1)) ws' we') ∨
         ((flag' = 2 ∨ flag' = 3) ∧ InB (jbOf nE) (jbOf (nE + 1)) x ∧ FirstIn S (jbOf nE) (jbOf (nE + 1)) we' x ∧
           HasIn S (jbOf nE) (jbOf (nE + 1)) ws' we'))) ↔
    (S x = some v ∧ jbOf nS * 86400 < x ∧
        ((ws' ≤ x ∧ x ≤ we) ∨
         (prev = true ∧ InB (jbOf nS) (jbOf (nS + 1)) x ∧ LastIn S (jbOf nS) (jbOf (nS + 1)) ws' x ∧ HasIn S (jbOf nS) (jbOf (nS + 1)) ws' we) ∨
         ((flag = 2 ∨ flag = 3) ∧ NextRet S jbOf n0 n2 ws we x))) := by
  have m0 := G.mono_le (m := n0) (n := nS) (by omega) hS
  have m1 := G.mono_le (m := nS) (n := n2) hS hn
  have m1' := G.mono_le (m := nS + 1) (n := n2 + 1) (by omega) (by omega)
  have m2 := G.lt n2 (by omega)
  have m3 := G.lt (n2 + 1) (by omega)
  constructor
  · rintro ⟨hs, a1, a2, hx⟩
    have hsn : S x ≠ none := by rw [hs]; simp
    refine ⟨hs, a1, ?_⟩
    rcases h with ⟨rfl, rfl, hfl, hno⟩ | ⟨rfl, hfl, hfl', hext⟩
    · rcases hx with hx | hx | ⟨f1, f2, f3, f4⟩
      · exact Or.inl hx
      · exact Or.inr (Or.inl hx)
      · refine Or.inr (Or.inr ⟨hfl.1 f1, f3.1, ?_, Or.inl ⟨f2, ?_⟩⟩)
        · intro y hy hys hyw
          rcases Int.lt_or_le (jbOf (nE + 1) * 86400) y with c | c
          · have := f2.2; omega
          · exact f3.2 y ⟨by omega, c⟩ hys hyw
        · obtain ⟨y, y1, y2, y3, y4⟩ := f4
          exact ⟨y, y1, y2, (hsame y y1 y2).1 y3, y4⟩
    · have hclip : ∀ y, S y ≠ none → y ≤ jbOf (n2 + 1) * 86400 → y ≤ we := by
        intro y hys hy
        rcases Int.lt_or_le (jbOf n2 * 86400) y with c | c
        · exact hext.before y ⟨c, hy⟩ hys
        · omega
      rcases hx with ⟨b1, b2⟩ | ⟨p1, p2, p3, p4⟩ | ⟨f1, _⟩
      · rcases Int.lt_or_le (jbOf (n2 + 1) * 86400) x with c | c
        · refine Or.inr (Or.inr ⟨hfl, by omega, ?_, Or.inr ⟨⟨c, a2⟩, hext.has⟩⟩)
          intro y hy hys hyw
          rcases Int.lt_or_le (jbOf (n2 + 1) * 86400) y with c' | c'
          · rcases Int.lt_or_le (jbOf (n2 + 1 + 1) * 86400) y with c2 | c2
            · omega
            · have := hext.first y ⟨c', c2⟩ hys; omega
          · have := hclip y hys c'; omega
        · exact Or.inl ⟨b1, hclip x hsn c⟩
      · refine Or.inr (Or.inl ⟨p1, p2, p3, ?_⟩)
        obtain ⟨y, y1, y2, y3, y4⟩ := p4
        exact ⟨y, y1, y2, y3, hclip y y2 (by have := y1.2; omega)⟩
      · exact absurd f1 hfl'
  · rintro ⟨hs, a1, hx⟩
    have hsn : S x ≠ none := by rw [hs]; simp
    refine ⟨hs, a1, ?_⟩
    rcases h with ⟨rfl, rfl, hfl, hno⟩ | ⟨rfl, hfl, hfl', hext⟩
    · rcases hx with hx | hx | ⟨f1, f2, f3, f4⟩
      · exact ⟨by omega, Or.inl hx⟩
      · exact ⟨by have := hx.2.1.2; omega, Or.inr (Or.inl hx)⟩
      · rcases f4 with ⟨g1, g2⟩ | ⟨g1, g2⟩
        · refine ⟨g1.2, Or.inr (Or.inr ⟨hfl.2 f1, g1, ⟨f2, ?_⟩, ?_⟩)⟩
          · intro y hy hys hyw
            exact f3 y (by have := hy.1; omega) hys hyw
          · obtain ⟨y, y1, y2, y3, y4⟩ := g2
            exact ⟨y, y1, y2, (hsame y y1 y2).2 y3, y4⟩
        · exfalso
          rcases hno f1 with k | ⟨y, y1, y2, y3⟩ | k
          · exact k g2
          · have := f3 y (by have := y1.1; omega) y2 y3
            have := y1.2
            have := g1.1
            omega
          · exact k ⟨x, g1, hsn⟩
    · have i1 := hext.inb.1
      have i2 := hext.inb.2
      rcases hx with ⟨b1, b2⟩ | ⟨p1, p2, p3, p4⟩ | ⟨f1, f2, f3, f4⟩
      · exact ⟨by omega, Or.inl ⟨b1, by omega⟩⟩
      · refine ⟨by have := p2.2; omega, Or.inr (Or.inl ⟨p1, p2, p3, ?_⟩)⟩
        obtain ⟨y, y1, y2, y3, y4⟩ := p4
        exact ⟨y, y1, y2, y3, by omega⟩
      · rcases f4 with ⟨g1, g2⟩ | ⟨g1, g2⟩
        · have := hext.before x g1 hsn; omega
        · have := f3 we' (by omega) hext.val (by omega)
          exact ⟨g1.2, Or.inl ⟨by omega, by omega⟩⟩

theorem start_step {bs n0 n1 nS flag ws ws' we : Int} {jbOf : Int → Int} (G : BlockGrid bs jbOf n0)
    {S : Int → Option α} (hn0 : n0 ≤ n1) (hws1 : jbOf n1 * 86400 < ws) (hws2 : ws ≤ jbOf (n1 + 1) * 86400) (hle : ws ≤ we)
    (prev : Bool)
    (h : (nS = n1 ∧ ws' = ws ∧ prev = false ∧ ((flag = 1 ∨ flag = 3) → NoPrev S jbOf n1 ws)) ∨
         (nS = n1 ∧ ws' = ws ∧ prev = true ∧ (flag = 1 ∨ flag = 3) ∧
           (∃ y, InB (jbOf n1) (jbOf (n1 + 1)) y ∧ S y ≠ none ∧ y < ws)) ∨
         (nS = n1 - 1 ∧ n0 ≤ n1 - 1 ∧ (flag = 1 ∨ flag = 3) ∧ prev = false ∧ ExtPrev S jbOf n1 ws ws'))
    (Q : Prop) (x : Int) (v : α) (hQ : Q → we < x) :
    (S x = some v ∧ jbOf nS * 86400 < x ∧
        ((ws' ≤ x ∧ x ≤ we) ∨
         (prev = true ∧ InB (jbOf nS) (jbOf (nS + 1)) x ∧ LastIn S (jbOf nS) (jbOf (nS + 1)) ws' x ∧ HasIn S (jbOf nS) (jbOf (nS + 1)) ws' we) ∨ Q)) ↔
    (S x = some v ∧ ((ws ≤ x ∧ x ≤ we) ∨ ((flag = 1 ∨ flag = 3) ∧ PrevRet S jbOf n0 n1 ws we x) ∨ Q)) := by
  have m0 := G.mono_le (m := n0) (n := n1) (by omega) hn0
  constructor
  · rintro ⟨hs, a1, hx⟩
    have hsn : S x ≠ none := by rw [hs]; simp
    refine ⟨hs, ?_⟩
    rcases h with ⟨rfl, rfl, hp, hno⟩ | ⟨rfl, rfl, hp, hfl, hy0⟩ | ⟨rfl, hn1, hfl, hp, hext⟩
    · rcases hx with hx | ⟨q, _⟩ | hx
      · exact Or.inl hx
      · rw [hp] at q; simp at q
      · exact Or.inr (Or.inr hx)
    · rcases hx with hx | ⟨q1, q2, q3, q4⟩ | hx
      · exact Or.inl hx
      · refine Or.inr (Or.inl ⟨hfl, q3.1, ?_, Or.inl ⟨q2, q4⟩⟩)
        intro y hy hys hyw
        rcases Int.lt_or_le (jbOf nS * 86400) y with c | c
        · exact q3.2 y ⟨c, by omega⟩ hys hyw
        · have := q2.1; omega
      · exact Or.inr (Or.inr hx)
    · have e : n1 - 1 + 1 = n1 := by omega
      have i1 := hext.inb.1
      have i2 := hext.inb.2
      have mm := G.mono_le (m := n0) (n := n1 - 1) (by omega) hn1
      have hclip : ∀ y, S y ≠ none → jbOf n1 * 86400 < y → ws ≤ y := by
        intro y hys hy
        rcases Int.lt_or_le (jbOf (n1 + 1) * 86400) y with c | c
        · omega
        · exact hext.after y ⟨hy, c⟩ hys
      rcases hx with ⟨b1, b2⟩ | ⟨q, _⟩ | hx
      · rcases Int.lt_or_le (jbOf n1 * 86400) x with c | c
        · exact Or.inl ⟨hclip x hsn c, b2⟩
        · refine Or.inr (Or.inl ⟨hfl, by omega, ?_, Or.inr ⟨⟨a1, c⟩, hext.has⟩⟩)
          intro y hy hys hyw
          rcases Int.lt_or_le (jbOf n1 * 86400) y with c' | c'
          · have := hclip y hys c'; omega
          · rcases Int.lt_or_le (jbOf (n1 - 1) * 86400) y with c2 | c2
            · have := hext.last y ⟨c2, c'⟩ hys; omega
            · omega
      · rw [hp] at q; simp at q
      · exact Or.inr (Or.inr hx)
  · rintro ⟨hs, hx⟩
    have hsn : S x ≠ none := by rw [hs]; simp
    refine ⟨hs, ?_⟩
    rcases h with ⟨rfl, rfl, hp, hno⟩ | ⟨rfl, rfl, hp, hfl, hy0⟩ | ⟨rfl, hn1, hfl, hp, hext⟩
    · rcases hx with hx | ⟨f1, f2, f3, f4⟩ | hx
      · exact ⟨by omega, Or.inl hx⟩
      · exfalso
        rcases hno f1 with k | ⟨k1, k2⟩
        · rcases f4 with ⟨g1, g2⟩ | ⟨g1, g2⟩
          · exact k ⟨x, g1, hsn⟩
          · exact k g2
        · rcases f4 with ⟨g1, g2⟩ | ⟨g1, g2⟩
          · have := k1 x g1 hsn; omega
          · exact k2 ⟨x, g1, hsn⟩
      · exact ⟨by have := hQ hx; omega, Or.inr (Or.inr hx)⟩
    · rcases hx with hx | ⟨f1, f2, f3, f4⟩ | hx
      · exact ⟨by omega, Or.inl hx⟩
      · rcases f4 with ⟨g1, g2⟩ | ⟨g1, g2⟩
        · refine ⟨g1.1, Or.inr (Or.inl ⟨hp, g1, ⟨f2, ?_⟩, g2⟩)⟩
          intro y hy hys hyw
          exact f3 y (by have := hy.1; omega) hys hyw
        · exfalso
          obtain ⟨y, y1, y2, y3⟩ := hy0
          have := f3 y (by have := y1.1; omega) y2 y3
          have := y1.1
          have := g1.2
          omega
      · exact ⟨by have := hQ hx; omega, Or.inr (Or.inr hx)⟩
    · have i1 := hext.inb.1
      have i2 := hext.inb.2
      have mm := G.mono_le (m := n0) (n := n1 - 1) (by omega) hn1
      rcases hx with hx | ⟨f1, f2, f3, f4⟩ | hx
      · exact ⟨by omega, Or.inl ⟨by omega, hx.2⟩⟩
      · rcases f4 with ⟨g1, g2⟩ | ⟨g1, g2⟩
        · have := hext.after x g1 hsn; omega
        · have := f3 ws' (by omega) hext.val (by omega)
          exact ⟨g1.1, Or.inl ⟨by omega, by omega⟩⟩
      · exact ⟨by have := hQ hx; omega, Or.inr (Or.inr hx)⟩

/-- Retrieval of a window with the flags. -/
theorem retrieve_flags {bs a g n0 n1 n2 : Int} {jbOf : Int → Int} (G : BlockGrid bs jbOf n0) (K : Kind bs a g)
    (h0 : UNDEFINED_TIME + 1 < jbOf n0) {S : Int → Option α} {f : IrregFile α} (ho : FileOK a g bs jbOf n0 S f)
    (w : TimeWindow) (base gran flag : Int) (hflag : 0 ≤ flag ∧ flag ≤ 3)
    (s1 : 1 ≤ w.startTimeSeconds) (s2 : w.startTimeSeconds ≤ 86400) (e1 : 1 ≤ w.endTimeSeconds) (e2 : w.endTimeSeconds ≤ 86400)
    (hse : w.startJulian * 86400 + w.startTimeSeconds ≤ w.endJulian * 86400 + w.endTimeSeconds)
    (hn1 : n0 ≤ n1) (a1 : jbOf n1 ≤ w.startJulian) (b1 : w.startJulian < jbOf (n1 + 1))
    (hn2 : n0 ≤ n2) (a2 : jbOf n2 ≤ w.endJulian) (b2 : w.endJulian < jbOf (n2 + 1))
    (hprev : (flag = 1 ∨ flag = 3) → n0 ≤ n1 - 1)
    (hal : unitOf bs ∣ w.startTimeSeconds) :
    ∃ r, ztsRetrieveIrreg f bs w base gran flag = some r ∧ Increasing r.entries ∧
      ∀ x v, (∃ e ∈ r.entries, r.base * 86400 + e.time * r.gran = x ∧ e.val = v) ↔
        (S x = some v ∧
          ((w.startJulian * 86400 + w.startTimeSeconds ≤ x ∧ x ≤ w.endJulian * 86400 + w.endTimeSeconds) ∨
           ((flag = 1 ∨ flag = 3) ∧ PrevRet S jbOf n0 n1 (w.startJulian * 86400 + w.startTimeSeconds) (w.endJulian * 86400 + w.endTimeSeconds) x) ∨
           ((flag = 2 ∨ flag = 3) ∧ NextRet S jbOf n0 n2 (w.startJulian * 86400 + w.startTimeSeconds) (w.endJulian * 86400 + w.endTimeSeconds) x))) := by
  have hn12 : n1 ≤ n2 := by
    rcases Int.lt_or_le n2 n1 with c | c
    · have := G.mono_le (m := n2 + 1) (n := n1) (by omega) (by omega)
      omega
    · exact c
  have hT : IsTime w.startJulian w.startTimeSeconds := ⟨undef_lt G h0 hn1 (by omega), by omega⟩
  have hT' : IsTime w.endJulian w.endTimeSeconds := ⟨undef_lt G h0 hn2 (by omega), by omega⟩
  have c1 : cleanTime w.startJulian w.startTimeSeconds 1 = (w.startJulian, w.startTimeSeconds) := by
    unfold cleanTime
    rw [if_neg hT.1, if_neg hT.2, if_neg (by omega), if_pos ⟨rfl, by omega, by unfold SECS_IN_1_DAY; omega⟩]
  have c2 : cleanTime w.endJulian w.endTimeSeconds 1 = (w.endJulian, w.endTimeSeconds) := by
    unfold cleanTime
    rw [if_neg hT'.1, if_neg hT'.2, if_neg (by omega), if_pos ⟨rfl, by omega, by unfold SECS_IN_1_DAY; omega⟩]
  unfold ztsRetrieveIrreg
  simp only
  rw [c1, c2]
  have d1 : (if base = 0 then (w.startJulian, w.startTimeSeconds) else (w.startJulian, w.startTimeSeconds)) = (w.startJulian, w.startTimeSeconds) := by
    by_cases c : base = 0 <;> simp [c]
  have d2 : (if base = 0 then (w.endJulian, w.endTimeSeconds) else (w.endJulian, w.endTimeSeconds)) = (w.endJulian, w.endTimeSeconds) := by
    by_cases c : base = 0 <;> simp [c]
  rw [d1, d2]
  simp only
  rw [G.block n1 _ hn1 a1 b1, G.block n2 _ hn2 a2 b2]
  obtain ⟨sj, ss, hsj⟩ : ∃ sj ss, w.startJulian = sj ∧ w.startTimeSeconds = ss := ⟨_, _, rfl, rfl⟩
  obtain ⟨ej, es, hej⟩ : ∃ ej es, w.endJulian = ej ∧ w.endTimeSeconds = es := ⟨_, _, rfl, rfl⟩
  rw [hsj.1] at hse a1 b1 ⊢
  rw [hsj.2] at hse s1 s2 hal ⊢
  rw [hej.1] at hse a2 b2 ⊢
  rw [hej.2] at hse e1 e2 ⊢
  -- the end
  obtain ⟨ej', es', nE, flag1, q1, q2, q3⟩ : ∃ ej' es' nE flag1,
      setupSubsequent f bs ⟨⟨sj, ss, ej, es⟩, jbOf n1, jbOf n2, flag, false⟩ = ⟨⟨sj, ss, ej', es'⟩, jbOf n1, jbOf nE, flag1, false⟩ ∧ 1 ≤ es' ∧
      ((nE = n2 ∧ ej' = ej ∧ es' = es ∧ flag1 = flag ∧ ((flag = 2 ∨ flag = 3) → NoNext S jbOf n2 (ej * 86400 + es))) ∨
       (nE = n2 + 1 ∧ (flag = 2 ∨ flag = 3) ∧ flag1 = (if flag = 3 then 1 else 0) ∧ ExtNext S jbOf n2 (ej * 86400 + es) (ej' * 86400 + es'))) := by
    rcases subsequent_out G h0 ho ⟨⟨sj, ss, ej, es⟩, jbOf n1, jbOf n2, flag, false⟩ hn2 rfl e1 a2 with ⟨k1, k2⟩ | ⟨ej', es', k1, k2, k3, k4⟩
    · exact ⟨ej, es, n2, flag, k1, e1, Or.inl ⟨rfl, rfl, rfl, rfl, k2⟩⟩
    · exact ⟨ej', es', n2 + 1, _, k1, k2, Or.inr ⟨rfl, k3, rfl, k4⟩⟩
  rw [q1]
  have hflag1 : (flag1 = 1 ∨ flag1 = 3) ↔ (flag = 1 ∨ flag = 3) := by
    rcases q3 with ⟨_, _, _, h, _⟩ | ⟨_, h1, h, _⟩
    · rw [h]
    · by_cases c : flag = 3
      · rw [if_pos c] at h; omega
      · rw [if_neg c] at h; omega
  -- the start
  obtain ⟨sj', ss', nS, flag2, prev, p1, p2, p3, p4, p5⟩ : ∃ sj' ss' nS flag2 prev,
      setupPrevious f bs ⟨⟨sj, ss, ej', es'⟩, jbOf n1, jbOf nE, flag1, false⟩ = ⟨⟨sj', ss', ej', es'⟩, jbOf nS, jbOf nE, flag2, prev⟩ ∧ 1 ≤ ss' ∧
      unitOf bs ∣ ss' ∧ (flag2 = flag1 ∨ ((flag = 1 ∨ flag = 3) ∧ flag2 = (if flag1 = 3 then 2 else 0))) ∧
      ((nS = n1 ∧ sj' = sj ∧ ss' = ss ∧ prev = false ∧ ((flag = 1 ∨ flag = 3) → NoPrev S jbOf n1 (sj * 86400 + ss))) ∨
       (nS = n1 ∧ sj' = sj ∧ ss' = ss ∧ prev = true ∧ (flag = 1 ∨ flag = 3) ∧
         (∃ y, InB (jbOf n1) (jbOf (n1 + 1)) y ∧ S y ≠ none ∧ y < sj * 86400 + ss)) ∨
       (nS = n1 - 1 ∧ n0 ≤ n1 - 1 ∧ (flag = 1 ∨ flag = 3) ∧ prev = false ∧ ExtPrev S jbOf n1 (sj * 86400 + ss) (sj' * 86400 + ss'))) := by
    by_cases c : flag = 1 ∨ flag = 3
    · rcases previous_out G h0 ho ⟨⟨sj, ss, ej', es'⟩, jbOf n1, jbOf nE, flag1, false⟩ (hprev c) rfl s1 a1 with
        ⟨k1, k2⟩ | ⟨k1, k2, k3⟩ | ⟨sj', ss', k1, k2, k3, k4, k5⟩
      · exact ⟨sj, ss, n1, flag1, false, k1, s1, hal, Or.inl rfl, Or.inl ⟨rfl, rfl, rfl, rfl, fun h => k2 (hflag1.2 h)⟩⟩
      · exact ⟨sj, ss, n1, flag1, true, k1, s1, hal, Or.inl rfl, Or.inr (Or.inl ⟨rfl, rfl, rfl, rfl, c, k3⟩)⟩
      · exact ⟨sj', ss', n1 - 1, _, false, k1, k2, k3, Or.inr ⟨c, rfl⟩, Or.inr (Or.inr ⟨rfl, hprev c, c, rfl, k5⟩)⟩
    · refine ⟨sj, ss, n1, flag1, false, ?_, s1, hal, Or.inl rfl, Or.inl ⟨rfl, rfl, rfl, rfl, fun h => absurd h c⟩⟩
      unfold setupPrevious
      rw [if_neg (fun h => c (hflag1.1 h))]
  rw [p1]
  simp only
  have hnS : n0 ≤ nS ∧ nS ≤ n1 := by
    rcases p5 with ⟨h, _⟩ | ⟨h, _⟩ | ⟨h, h', _⟩ <;> omega
  have hnE : n2 ≤ nE := by rcases q3 with ⟨h, _⟩ | ⟨h, _⟩ <;> omega
  have hdist := G.dist (m := nS) (n := nE) hnS.1 (by omega)
  obtain ⟨k, hk⟩ : ∃ k : Nat, nE + 1 - nS = k := ⟨(nE + 1 - nS).toNat, by omega⟩
  rw [sizes_run G f (by omega) k _ nS hnS.1 hk (by omega)]
  simp only [Option.bind]
  generalize hbase : retrieveBase base (retrieveGran gran sj ej) sj ej (jbOf n1) = base'
  obtain ⟨r, r1, r2, r3, _⟩ := retrieveLoop_ok G K ho (nE := nE) (by omega) ⟨sj', ss', ej', es'⟩ k ((jbOf nE - jbOf nS).toNat + 1) nS (sizes f jbOf k nS) false
    base' (retrieveGran gran sj ej) prev hnS.1 hk (by omega) (Int.le_refl _) (by simp) (flag := flag2)
  have mS := G.mono_le (m := nS) (n := n1) hnS.1 hnS.2
  have m12 := G.mono_le (m := n1) (n := n2) hn1 hn12
  have hws' : sj' * 86400 + ss' ≤ sj * 86400 + ss := by
    rcases p5 with ⟨_, h, h', _⟩ | ⟨_, h, h', _⟩ | ⟨_, _, _, _, h⟩
    · rw [h, h']; exact Int.le_refl _
    · rw [h, h']; exact Int.le_refl _
    · have := h.inb.2; omega
  have hwe' : ej * 86400 + es ≤ ej' * 86400 + es' := by
    rcases q3 with ⟨_, h, h', _⟩ | ⟨_, _, _, h⟩
    · rw [h, h']; exact Int.le_refl _
    · have := h.inb.1; omega
  obtain ⟨u1, u2⟩ := flag_all G ho ⟨sj', ss', ej', es'⟩ (show 0 ≤ ss' by omega) (show 0 ≤ es' by omega) p3 rfl rfl (by simp only; omega)
    k nS prev hnS.1 (by omega) (flag := flag2) (nE := nE)
  refine ⟨r, r1, ?_, ?_⟩
  · rcases r3 with h | h
    · rw [← r2, List.pairwise_map] at u1
      refine List.Pairwise.imp ?_ u1
      intro x y hxy
      simp only at hxy
      rw [h] at hxy
      have hg := K.gpos
      exact Int.lt_of_mul_lt_mul_right (show x.time * g < y.time * g by omega) (by omega)
    · rw [h]; exact List.Pairwise.nil
  · intro x v
    have hmem : (∃ e ∈ r.entries, r.base * 86400 + e.time * r.gran = x ∧ e.val = v) ↔ (x, v) ∈ allPairs f bs jbOf nE flag2 ⟨sj', ss', ej', es'⟩ k nS prev := by
      rw [← r2, List.mem_map]
      constructor
      · rintro ⟨e, he, h3, h4⟩; exact ⟨e, he, by rw [h3, h4]⟩
      · rintro ⟨e, he, h3⟩; exact ⟨e, he, congrArg Prod.fst h3, congrArg Prod.snd h3⟩
    rw [hmem, u2]
    simp only
    have hsame : ∀ y, InB (jbOf n2) (jbOf (n2 + 1)) y → S y ≠ none → (sj' * 86400 + ss' ≤ y ↔ sj * 86400 + ss ≤ y) := by
      intro y hy hys
      rcases p5 with ⟨_, h, h', _⟩ | ⟨_, h, h', _⟩ | ⟨_, _, _, _, h⟩
      · rw [h, h']
      · rw [h, h']
      · have h1 : sj * 86400 + ss ≤ y := by
          rcases Int.lt_or_eq_of_le hn12 with c | c
          · have := G.mono_le (m := n1 + 1) (n := n2) (by omega) (by omega)
            have := hy.1
            omega
          · subst c; exact h.after y hy hys
        constructor <;> intro _ <;> omega
    rw [end_step G hnS.1 (by omega) (by omega) (by omega) hws' hse hsame (we := ej * 86400 + es) (ws := sj * 86400 + ss) (flag := flag) (n2 := n2) ?_ prev x v]
    · exact start_step G hn1 (by omega) (by omega) hse prev (by
        rcases p5 with ⟨k1, k2, k3, k4⟩ | ⟨k1, k2, k3, k4⟩ | k
        · exact Or.inl ⟨k1, by rw [k2, k3], k4⟩
        · exact Or.inr (Or.inl ⟨k1, by rw [k2, k3], k4⟩)
        · exact Or.inr (Or.inr k)) _ x v (fun h => h.2.1)
    · rcases q3 with ⟨k1, k2, k3, k4, k5⟩ | ⟨k1, k2, k3, k4⟩
      · refine Or.inl ⟨k1, by rw [k2, k3], ?_, k5⟩
        rcases p4 with h | h
        · rw [h, k4]
        · obtain ⟨h', h⟩ := h
          rw [k4] at h
          by_cases c : flag = 3
          · rw [if_pos c] at h; omega
          · rw [if_neg c] at h; omega
      · refine Or.inr ⟨k1, k2, ?_, k4⟩
        rcases p4 with h | h
        · rw [h, k3]
          by_cases c : flag = 3
          · rw [if_pos c]; omega
          · rw [if_neg c]; omega
        · obtain ⟨h', h⟩ := h
          have : flag1 ≠ 3 := by
            by_cases c : flag = 3
            · rw [if_pos c] at k3; omega
            · rw [if_neg c] at k3; omega
          rw [if_neg this] at h
          omega

end Hec
