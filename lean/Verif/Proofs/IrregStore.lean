import Verif.Proofs.IrregRead
import Verif.Proofs.Irreg
import Verif.Proofs.IrregGrid
/-!
Storing irregular data: the blocks hold the series.
-/
namespace Hec
open Spec

variable {α : Type}

theorem perDay_mul {g : Int} (hg : g = 1 ∨ g = 60 ∨ g = 3600 ∨ g = 86400) : unitsPerDay g * g = 86400 := by
  rcases hg with h | h | h | h <;> subst h <;> decide

theorem unit_cases (bs : Int) : (unitOf bs = 1 ∧ bs < 5) ∨ (unitOf bs = 60 ∧ 5 ≤ bs) := by
  unfold unitOf
  by_cases c : bs < 5
  · rw [if_pos c]; exact Or.inl ⟨rfl, c⟩
  · rw [if_neg c]; exact Or.inr ⟨rfl, by omega⟩

/-- The series with the values of `vals` put in. -/
def over (g base : Int) (vals : List (Entry α)) (S : Int → Option α) : Int → Option α :=
  IrregStore.apply ⟨g, base, vals⟩ S

theorem over_some {g base : Int} {vals : List (Entry α)} {S : Int → Option α} (hg : 1 ≤ g) (hi : Increasing vals) (t : Int) (v : α) :
    over g base vals S t = some v ↔
      (∃ e ∈ vals, base * 86400 + e.time * g = t ∧ e.val = v) ∨
      ((∀ e ∈ vals, base * 86400 + e.time * g ≠ t) ∧ S t = some v) := by
  unfold over IrregStore.apply IrregStore.at
  simp only
  cases hf : vals.find? (fun e => decide (base * 86400 + e.time * g = t)) with
  | none =>
    have h := List.find?_eq_none.1 hf
    simp only
    constructor
    · intro hs
      exact Or.inr ⟨fun e he hc => h e he (by simpa using hc), hs⟩
    · rintro (⟨e, he, h1, _⟩ | ⟨_, hs⟩)
      · exact absurd (by simpa using h1) (h e he)
      · exact hs
  | some e =>
    have h1 := List.find?_some hf
    have h2 := List.mem_of_find?_eq_some hf
    simp only [decide_eq_true_eq] at h1
    simp only [Option.some.injEq]
    constructor
    · intro hv; exact Or.inl ⟨e, h2, h1, hv⟩
    · rintro (⟨e', he', h1', hv⟩ | ⟨h, _⟩)
      · have ht : e'.time = e.time := by
          have : e'.time * g = e.time * g := by omega
          exact Int.eq_of_mul_eq_mul_right (by omega) this
        have : e' = e := by
          rcases inc_eq_or hi he' h2 with h | h | h
          · exact h
          · omega
          · omega
        rw [← this]; exact hv
      · exact absurd h1 (h e h2)
where
  inc_eq_or {l : List (Entry α)} (hi : Increasing l) {a b : Entry α} (ha : a ∈ l) (hb : b ∈ l) :
      a = b ∨ a.time < b.time ∨ b.time < a.time := by
    induction l with
    | nil => simp at ha
    | cons x l ih =>
      have h := List.pairwise_cons.1 hi
      rcases List.mem_cons.1 ha with h1 | h1 <;> rcases List.mem_cons.1 hb with h2 | h2
      · left; rw [h1, h2]
      · right; left; rw [h1]; exact h.1 b h2
      · right; right; rw [h2]; exact h.1 a h1
      · exact ih h.2 h1 h2

/-- The entries of a block are the series there. -/
structure EntriesOK (a g u jb next : Int) (S : Int → Option α) (l : List (Entry α)) : Prop where
  inc : Increasing l
  pos : ∀ e ∈ l, 0 < e.time ∧ e.time * u ≤ (next - jb) * 86400
  al : ∀ e ∈ l, a ∣ e.time * u ∧ g ∣ e.time * u
  val : ∀ x v, jb * 86400 < x → x ≤ next * 86400 →
    (S x = some v ↔ ∃ e ∈ l, e.val = v ∧ jb * 86400 + e.time * u = x)

/-- A block is the series there. -/
def BlockOK (a g u jb next : Int) (S : Int → Option α) : Option (IrregRec α) → Prop
  | none => ∀ x, jb * 86400 < x → x ≤ next * 86400 → S x = none
  | some r => EntriesOK a g u jb next S r.entries ∧ r.entries ≠ [] ∧ r.gran = g ∧ (r.entries.length : Int) ≤ r.logical ∧
      r.logical ≤ (next - jb + 1) * (if next - jb + 1 < 370 then 86400 else 1440)

theorem BlockOK.entries_none {a g u jb next : Int} {S : Int → Option α} (h : BlockOK a g u jb next S none) :
    EntriesOK a g u jb next S [] := by
  refine ⟨List.Pairwise.nil, by simp, by simp, ?_⟩
  intro x v h1 h2
  rw [h x h1 h2]; simp

theorem BlockOK.congr {a g u jb next : Int} {S T : Int → Option α} {o : Option (IrregRec α)} (h : BlockOK a g u jb next S o)
    (e : ∀ x, jb * 86400 < x → x ≤ next * 86400 → T x = S x) : BlockOK a g u jb next T o := by
  cases o with
  | none => intro x h1 h2; rw [e x h1 h2]; exact h x h1 h2
  | some r =>
    obtain ⟨k, k1, k2⟩ := h
    exact ⟨⟨k.inc, k.pos, k.al, fun x v h1 h2 => by rw [e x h1 h2]; exact k.val x v h1 h2⟩, k1, k2⟩

/-! ### The logical number of values -/

theorem valueTime_spec {jb bs t : Int} (ht : 0 < t) :
    let r := irregValueTime jb bs t
    r.1 * 86400 + r.2 = jb * 86400 + t * unitOf bs ∧ 1 ≤ r.2 ∧ r.2 ≤ 86400 := by
  intro r
  have hr : r = irregValueTime jb bs t := rfl
  unfold irregValueTime SECS_IN_1_DAY MINS_IN_1_DAY SECS_IN_1_MINUTE at hr
  rcases unit_cases bs with ⟨hu, hb⟩ | ⟨hu, hb⟩
  · simp only [if_pos hb] at hr
    rw [cdiv_nonneg_eq (by omega)] at hr
    rw [hu]
    by_cases c : t - t / 86400 * 86400 < 1
    · rw [if_pos c] at hr; rw [hr]; simp only; omega
    · rw [if_neg c] at hr; rw [hr]; simp only; omega
  · have hb' : ¬ bs < 5 := by omega
    simp only [if_neg hb'] at hr
    rw [cdiv_nonneg_eq (by omega)] at hr
    rw [hu]
    by_cases c : (t - t / 1440 * 1440) * 60 < 1
    · rw [if_pos c] at hr; rw [hr]; simp only; omega
    · rw [if_neg c] at hr; rw [hr]; simp only; omega

/-- Values `s` apart. -/
theorem spaced {s : Int} (hs : 1 ≤ s) : ∀ (l : List (Entry α)) (e : Entry α), Increasing (e :: l) →
    (∀ x ∈ e :: l, s ∣ x.time) → (l.length : Int) * s ≤ ((e :: l).getLast?.getD e).time - e.time := by
  intro l
  induction l with
  | nil => intro e _ _; simp
  | cons y l ih =>
    intro e hi hd
    have h := List.pairwise_cons.1 hi
    have k := ih y h.2 (fun x hx => hd x (by simp [hx]))
    have h1 := h.1 y (by simp)
    obtain ⟨p, hp⟩ := hd e (by simp)
    obtain ⟨q, hq⟩ := hd y (by simp)
    have hpq : p < q := by
      rw [hp, hq] at h1
      exact Int.lt_of_mul_lt_mul_left h1 (by omega)
    have h2 : s ≤ y.time - e.time := by
      rw [hp, hq]
      have : s * (p + 1) ≤ s * q := Int.mul_le_mul_of_nonneg_left (by omega) (by omega)
      rw [Int.mul_add] at this; omega
    have h3 : ((e :: y :: l).getLast?.getD e) = ((y :: l).getLast?.getD y) := by
      rw [List.getLast?_eq_some_getLast (by simp), List.getLast?_eq_some_getLast (by simp)]
      simp [List.getLast_cons]
    rw [h3]
    have e1 : (((y :: l).length : Nat) : Int) * s = (l.length : Int) * s + s := by
      simp [Int.add_mul]
    rw [e1]
    omega

theorem average_bound {span days total : Int} (ht : 1 ≤ total) (h1 : total ≤ span) (h2 : span ≤ days) :
    total ≤ (if cdiv span total > 0 then cdiv days (cdiv span total) else 1) := by
  have ha : 0 < span / total := Int.ediv_pos_of_pos_of_dvd' h1 ht
  rw [cdiv_nonneg_eq (by omega), if_pos ha, cdiv_nonneg_eq (by omega)]
  rw [Int.le_ediv_iff_mul_le ha]
  have := Int.ediv_mul_le span (show total ≠ 0 by omega)
  rw [Int.mul_comm] at this
  omega
where
  Int.ediv_pos_of_pos_of_dvd' {a b : Int} (h : b ≤ a) (hb : 1 ≤ b) : 0 < a / b := by
    have : 1 ≤ a / b := by rw [Int.le_ediv_iff_mul_le (by omega)]; omega
    omega

theorem logical_ok {jb next bs a : Int} {e : Entry α} {l : List (Entry α)} (hi : Increasing (e :: l))
    (hp : ∀ x ∈ e :: l, 0 < x.time ∧ x.time * unitOf bs ≤ (next - jb) * 86400)
    (ha : next - jb + 1 < 370 ∨ a = 60) (hal : ∀ x ∈ e :: l, a ∣ x.time * unitOf bs) :
    ((e :: l).length : Int) ≤ logicalNumber jb next (irregValueTime jb bs e.time)
      (irregValueTime jb bs ((e :: l).getLast?.getD e).time) (e :: l).length := by
  have hlast : (e :: l).getLast?.getD e ∈ e :: l := by
    rw [List.getLast?_eq_some_getLast (by simp)]
    exact List.getLast_mem (by simp)
  have v1 := valueTime_spec (jb := jb) (bs := bs) (hp e (by simp)).1
  have v2 := valueTime_spec (jb := jb) (bs := bs) (hp _ hlast).1
  have p1 := hp e (by simp)
  have p2 := hp _ hlast
  have s1 := spaced (s := 1) (by omega) l e hi (fun x _ => ⟨x.time, by omega⟩)
  have hlen : ((e :: l).length : Int) = l.length + 1 := by simp
  have al1 := hal e (by simp)
  have al2 := hal _ hlast
  have s60 : a = 60 → unitOf bs = 1 → (l.length : Int) * 60 ≤ ((e :: l).getLast?.getD e).time - e.time := by
    intro h1 h2
    refine spaced (by omega) l e hi ?_
    intro x hx
    have := hal x hx
    rw [h1, h2] at this
    simpa using this
  rw [hlen]
  have hn0 : (0 : Int) ≤ (l.length : Int) := by omega
  generalize hL : (e :: l).getLast?.getD e = L at *
  generalize irregValueTime jb bs e.time = F at *
  generalize irregValueTime jb bs L.time = G at *
  generalize (l.length : Int) = n at *
  simp only at v1 v2
  obtain ⟨v1, v1a, v1b⟩ := v1
  obtain ⟨v2, v2a, v2b⟩ := v2
  unfold logicalNumber SECS_IN_1_DAY MINS_IN_1_DAY SECS_IN_1_MINUTE
  simp only
  rcases unit_cases bs with ⟨hu, hb⟩ | ⟨hu, hb⟩
  · rw [hu] at v1 v2 p1 p2 al1 al2
    by_cases c : next - jb + 1 < 370
    · rw [if_pos c]
      apply average_bound <;> omega
    · rw [if_neg c]
      have ha : a = 60 := by omega
      have s := s60 ha hu
      rw [ha] at al1 al2
      have hd : cdiv (G.2 - F.2) 60 * 60 = G.2 - F.2 := by
        rw [cdiv_eq]
        by_cases c0 : 0 ≤ G.2 - F.2
        · rw [if_pos c0]; omega
        · rw [if_neg c0]; omega
      apply average_bound <;> omega
  · rw [hu] at v1 v2 p1 p2
    by_cases c : next - jb + 1 < 370
    · rw [if_pos c]
      apply average_bound <;> omega
    · rw [if_neg c]
      have hd : cdiv (G.2 - F.2) 60 * 60 = G.2 - F.2 := by
        rw [cdiv_eq]
        by_cases c0 : 0 ≤ G.2 - F.2
        · rw [if_pos c0]; omega
        · rw [if_neg c0]; omega
      apply average_bound <;> omega

theorem cdiv_le_self {x y : Int} (hx : 0 ≤ x) (hy : 0 < y) : cdiv x y ≤ x := by
  unfold cdiv
  rw [Int.tdiv_eq_ediv_of_nonneg hx]
  exact Int.ediv_le_self _ hx

theorem logical_le {jb next : Int} (h : jb < next) (first last : Int × Int) (total : Int) :
    logicalNumber jb next first last total ≤ (next - jb + 1) * (if next - jb + 1 < 370 then 86400 else 1440) := by
  unfold logicalNumber SECS_IN_1_DAY MINS_IN_1_DAY SECS_IN_1_MINUTE
  simp only
  split
  · split
    · exact cdiv_le_self (by omega) (by assumption)
    · omega
  · split
    · exact cdiv_le_self (by omega) (by assumption)
    · omega

/-! ### Merging into a block -/

theorem merge_mem (new stored : List (Entry α)) (hn : Increasing new) (hs : Increasing stored) :
    let m := (mergeBlocks new none stored none).map Prod.fst
    Increasing m ∧ ∀ e, e ∈ m ↔ e ∈ new ∨ (e ∈ stored ∧ NoTime new e.time) := by
  intro m
  obtain ⟨m1, i1⟩ := merge_spec _ new none stored none (Nat.le_refl _) hn hs trivial trivial
  refine ⟨i1, ?_⟩
  intro e
  constructor
  · intro h
    obtain ⟨x, hx, rfl⟩ := List.mem_map.1 h
    rcases (m1 x).1 hx with h | ⟨h, h'⟩
    · left
      obtain ⟨y, hy, rfl⟩ := List.mem_map.1 h
      exact hy
    · right
      obtain ⟨y, hy, rfl⟩ := List.mem_map.1 h
      exact ⟨hy, h'⟩
  · rintro (h | ⟨h, h'⟩)
    · exact List.mem_map.2 ⟨(e, ""), (m1 _).2 (Or.inl (List.mem_map.2 ⟨e, h, rfl⟩)), rfl⟩
    · exact List.mem_map.2 ⟨(e, ""), (m1 _).2 (Or.inr ⟨List.mem_map.2 ⟨e, h, rfl⟩, h'⟩), rfl⟩

/-- The entries written for the values of a block. -/
def convTimes (bs g base jb : Int) (vals : List (Entry α)) : List (Entry α) :=
  vals.map (fun e => (⟨if bs = 5 then cdiv ((e.time - (jb - base) * unitsPerDay g) * g) SECS_IN_1_MINUTE else (e.time - (jb - base) * unitsPerDay g) * g, e.val⟩ : Entry α))

/-- Hypotheses on the kind of block: sizes 1 to 5, alignment. -/
structure Kind (bs a g : Int) : Prop where
  bs1 : 1 ≤ bs
  bs5 : bs ≤ 5
  g : g = 1 ∨ g = 60 ∨ g = 3600 ∨ g = 86400
  a : a = if bs < 4 then 1 else 60

theorem Kind.gpos {bs a g : Int} (K : Kind bs a g) : 1 ≤ g := by have := K.g; omega

theorem conv_time {bs a g base jb : Int} (K : Kind bs a g) {e : Entry α} {c : Int} (hpos : jb * 86400 < base * 86400 + e.time * g)
    (hal : a ∣ base * 86400 + e.time * g)
    (hc : c = if bs = 5 then cdiv ((e.time - (jb - base) * unitsPerDay g) * g) SECS_IN_1_MINUTE else (e.time - (jb - base) * unitsPerDay g) * g) :
    jb * 86400 + c * unitOf bs = base * 86400 + e.time * g ∧ 0 < c := by
  have hP := perDay_mul K.g
  have e1 : (e.time - (jb - base) * unitsPerDay g) * g = base * 86400 + e.time * g - jb * 86400 := by
    have : (e.time - (jb - base) * unitsPerDay g) * g = e.time * g - (jb - base) * (unitsPerDay g * g) := by
      rw [Int.sub_mul, Int.mul_assoc]
    rw [this, hP, Int.sub_mul]; omega
  rw [e1] at hc
  have h5 := K.bs5
  have ha := K.a
  generalize base * 86400 + e.time * g = X at *
  by_cases c5 : bs = 5
  · rw [if_pos c5] at hc
    rw [if_neg (by omega)] at ha
    unfold SECS_IN_1_MINUTE at hc
    rw [cdiv_nonneg_eq (by omega)] at hc
    have hu : unitOf bs = 60 := by rw [c5]; rfl
    rw [hu, hc]
    rw [ha] at hal
    omega
  · rw [if_neg c5] at hc
    have hu : unitOf bs = 1 := by unfold unitOf; rw [if_pos (by omega)]
    rw [hu, hc]
    omega

theorem conv_ok {bs a g base jb next : Int} (K : Kind bs a g) {vals : List (Entry α)} (hi : Increasing vals)
    (hpos : ∀ e ∈ vals, jb * 86400 < base * 86400 + e.time * g ∧ base * 86400 + e.time * g ≤ next * 86400 ∧ a ∣ base * 86400 + e.time * g) :
    Increasing (convTimes bs g base jb vals) ∧
    (∀ c ∈ convTimes bs g base jb vals, ∃ e ∈ vals, c.val = e.val ∧ 0 < c.time ∧ jb * 86400 + c.time * unitOf bs = base * 86400 + e.time * g) ∧
    (∀ e ∈ vals, ∃ c ∈ convTimes bs g base jb vals, c.val = e.val ∧ 0 < c.time ∧ jb * 86400 + c.time * unitOf bs = base * 86400 + e.time * g) := by
  have hu : 1 ≤ unitOf bs := by rcases unit_cases bs with h | h <;> omega
  refine ⟨?_, ?_, ?_⟩
  · unfold Increasing convTimes
    rw [List.pairwise_map]
    refine List.Pairwise.imp_of_mem ?_ hi
    intro x y hx hy hxy
    have k1 := conv_time K (e := x) (hpos x hx).1 (hpos x hx).2.2 rfl
    have k2 := conv_time K (e := y) (hpos y hy).1 (hpos y hy).2.2 rfl
    have hg := K.gpos
    have h1 : x.time * g < y.time * g := Int.mul_lt_mul_of_pos_right hxy (by omega)
    simp only at k1 k2 ⊢
    have h2 := k1.1
    have h3 := k2.1
    generalize (if bs = 5 then cdiv ((x.time - (jb - base) * unitsPerDay g) * g) SECS_IN_1_MINUTE else (x.time - (jb - base) * unitsPerDay g) * g) = p at *
    generalize (if bs = 5 then cdiv ((y.time - (jb - base) * unitsPerDay g) * g) SECS_IN_1_MINUTE else (y.time - (jb - base) * unitsPerDay g) * g) = q at *
    have h4 : p * unitOf bs < q * unitOf bs := by omega
    exact Int.lt_of_mul_lt_mul_right h4 (by omega)
  · intro c hc
    obtain ⟨e, he, rfl⟩ := List.mem_map.1 hc
    have k := conv_time K (e := e) (hpos e he).1 (hpos e he).2.2 rfl
    exact ⟨e, he, rfl, k.2, k.1⟩
  · intro e he
    have k := conv_time K (e := e) (hpos e he).1 (hpos e he).2.2 rfl
    exact ⟨_, List.mem_map.2 ⟨e, he, rfl⟩, rfl, k.2, k.1⟩

theorem dvd86400 {bs a g : Int} (K : Kind bs a g) : a ∣ 86400 ∧ g ∣ 86400 := by
  constructor
  · have := K.a
    by_cases c : bs < 4
    · rw [if_pos c] at this; rw [this]; exact ⟨86400, rfl⟩
    · rw [if_neg c] at this; rw [this]; exact ⟨1440, rfl⟩
  · exact ⟨unitsPerDay g, by rw [Int.mul_comm]; exact (perDay_mul K.g).symm⟩

theorem combined_ok {bs a g base jb next : Int} (K : Kind bs a g) {S : Int → Option α} {old vals : List (Entry α)}
    (ho : EntriesOK a g (unitOf bs) jb next S old) (hi : Increasing vals)
    (hpos : ∀ e ∈ vals, jb * 86400 < base * 86400 + e.time * g ∧ base * 86400 + e.time * g ≤ next * 86400 ∧ a ∣ base * 86400 + e.time * g) :
    EntriesOK a g (unitOf bs) jb next (over g base vals S) ((mergeBlocks (convTimes bs g base jb vals) none old none).map Prod.fst) := by
  obtain ⟨c1, c2, c3⟩ := conv_ok K hi hpos
  obtain ⟨m1, m2⟩ := merge_mem _ old c1 ho.inc
  have hu : 1 ≤ unitOf bs := by rcases unit_cases bs with h | h <;> omega
  obtain ⟨d1, d2⟩ := dvd86400 K
  refine ⟨m1, ?_, ?_, ?_⟩
  · intro e he
    rcases (m2 e).1 he with h | ⟨h, _⟩
    · obtain ⟨x, hx, _, hp, hq⟩ := c2 e h
      have := hpos x hx
      rw [Int.sub_mul]
      exact ⟨hp, by omega⟩
    · exact ho.pos e h
  · intro e he
    rcases (m2 e).1 he with h | ⟨h, _⟩
    · obtain ⟨x, hx, _, hp, hq⟩ := c2 e h
      have h1 : e.time * unitOf bs = base * 86400 + x.time * g - jb * 86400 := by omega
      rw [h1]
      constructor
      · exact Int.dvd_sub (hpos x hx).2.2 (Int.dvd_trans d1 (Int.dvd_mul_left _ _))
      · exact Int.dvd_sub (Int.dvd_add (Int.dvd_trans d2 (Int.dvd_mul_left _ _)) (Int.dvd_mul_left _ _)) (Int.dvd_trans d2 (Int.dvd_mul_left _ _))
    · exact ho.al e h
  · intro x v h1 h2
    rw [over_some K.gpos hi]
    constructor
    · rintro (⟨e, he, ht, hv⟩ | ⟨hno, hs⟩)
      · obtain ⟨c, hc, hcv, _, hct⟩ := c3 e he
        exact ⟨c, (m2 c).2 (Or.inl hc), by rw [hcv]; exact hv, by omega⟩
      · obtain ⟨e, he, hv, ht⟩ := (ho.val x v h1 h2).1 hs
        refine ⟨e, (m2 e).2 (Or.inr ⟨he, ?_⟩), hv, ht⟩
        intro c hc hct
        obtain ⟨y, hy, _, _, hq⟩ := c2 c hc
        apply hno y hy
        rw [hct] at hq; omega
    · rintro ⟨e, he, hv, ht⟩
      rcases (m2 e).1 he with h | ⟨h, hno⟩
      · obtain ⟨y, hy, hyv, _, hq⟩ := c2 e h
        exact Or.inl ⟨y, hy, by omega, by rw [← hyv]; exact hv⟩
      · refine Or.inr ⟨?_, (ho.val x v h1 h2).2 ⟨e, h, hv, ht⟩⟩
        intro y hy hyt
        obtain ⟨c, hc, _, _, hct⟩ := c3 y hy
        apply hno c hc
        have : c.time * unitOf bs = e.time * unitOf bs := by omega
        exact Int.eq_of_mul_eq_mul_right (by omega) this

/-- Reading the existing record: the whole block. -/
theorem read_existing {bs a g jb next : Int} (K : Kind bs a g) {S : Int → Option α} {r : IrregRec α}
    (h : EntriesOK a g (unitOf bs) jb next S r.entries) (hl : (r.entries.length : Int) ≤ r.logical) :
    irregReadBlock r bs jb ⟨jb, 0, next, 0⟩ r.logical false false = r.entries := by
  rw [readBlock_plain _ _ _ _ _ h.inc hl, List.filter_eq_self]
  intro e he
  have hp := h.pos e he
  have e1 : winLo (unitOf bs) jb ⟨jb, 0, next, 0⟩ = 0 := by
    unfold winLo
    have : cdiv 0 (if unitOf bs < 1 then 60 else unitOf bs) = 0 := by unfold cdiv; simp
    simp only
    rw [this]; simp
  have e2 : winHi (unitOf bs) jb ⟨jb, 0, next, 0⟩ * unitOf bs = (next - jb) * 86400 := by
    unfold winHi
    have : cdiv 0 (if unitOf bs < 1 then 60 else unitOf bs) = 0 := by unfold cdiv; simp
    simp only
    rw [this, Int.add_zero, Int.mul_assoc]
    congr 1
    rcases unit_cases bs with ⟨h, _⟩ | ⟨h, _⟩ <;> rw [h] <;> decide
  have hu : 1 ≤ unitOf bs := by rcases unit_cases bs with h | h <;> omega
  have h2 : e.time ≤ winHi (unitOf bs) jb ⟨jb, 0, next, 0⟩ := by
    apply Int.le_of_mul_le_mul_right (a := unitOf bs) _ (by omega)
    rw [e2]; exact hp.2
  rw [e1]
  simp only [decide_eq_true_eq]
  omega

theorem write_ok {bs a g jb next : Int} (K : Kind bs a g) (hd : bs < 4 → next - jb + 1 < 370) {S : Int → Option α}
    {l : List (Entry α)} (h : EntriesOK a g (unitOf bs) jb next S l) (hl : l ≠ []) :
    BlockOK a g (unitOf bs) jb next S (irregWrite bs jb next g l) := by
  cases l with
  | nil => exact absurd rfl hl
  | cons e l =>
    unfold irregWrite
    simp only
    refine ⟨h, hl, rfl, ?_, ?_⟩
    · apply logical_ok h.inc h.pos (a := a) _ (fun x hx => (h.al x hx).1)
      have := K.a
      by_cases c : bs < 4
      · exact Or.inl (hd c)
      · rw [if_neg c] at this; exact Or.inr this
    · have hp := h.pos e (by simp)
      have hu : 1 ≤ unitOf bs := by rcases unit_cases bs with h | h <;> omega
      have h1 : 1 * 1 ≤ e.time * unitOf bs := Int.mul_le_mul (by omega) hu (by decide) (by omega)
      exact logical_le (by omega) _ _ _

theorem merge_nil (l : List (Entry α)) : (mergeBlocks l none [] none).map Prod.fst = l := by
  unfold mergeBlocks
  have h : ∀ (l : List (Entry α)) n, l.length ≤ n → (mergeLoop n l none [] none).map Prod.fst = l := by
    intro l
    induction l with
    | nil => intro n _; cases n <;> rfl
    | cons x l ih =>
      intro n hn
      obtain ⟨n, rfl⟩ : ∃ m, n = m + 1 := ⟨n - 1, by simp at hn; omega⟩
      show x :: (mergeLoop n l none [] none).map Prod.fst = x :: l
      rw [ih n (by simpa using hn)]
  exact h l _ (by simp)

theorem storeBlock_ok {bs a g base jb next : Int} (K : Kind bs a g) (hd : bs < 4 → next - jb + 1 < 370)
    {S : Int → Option α} {f : IrregFile α} {vals : List (Entry α)}
    (ho : BlockOK a g (unitOf bs) jb next S (f jb)) (hi : Increasing vals) (hv : vals ≠ [])
    (hpos : ∀ e ∈ vals, jb * 86400 < base * 86400 + e.time * g ∧ base * 86400 + e.time * g ≤ next * 86400 ∧ a ∣ base * 86400 + e.time * g) :
    BlockOK a g (unitOf bs) jb next (over g base vals S) (irregStoreBlock f bs jb next g (convTimes bs g base jb vals) jb) := by
  unfold irregStoreBlock
  simp only
  rw [if_pos trivial]
  obtain ⟨c1, c2, c3⟩ := conv_ok K hi hpos
  cases ho' : f jb with
  | none =>
    rw [ho'] at ho
    have k := combined_ok K ho.entries_none hi hpos
    have e : ((mergeBlocks (convTimes bs g base jb vals) none [] none).map Prod.fst) = convTimes bs g base jb vals := merge_nil _
    rw [e] at k
    exact write_ok K hd k (by intro h; rw [convTimes, List.map_eq_nil_iff] at h; exact hv h)
  | some r =>
    rw [ho'] at ho
    obtain ⟨h1, h2, h3, h4, _⟩ := ho
    have hlen : 1 ≤ r.logical := by
      have : 1 ≤ r.entries.length := by
        cases hh : r.entries with
        | nil => exact absurd hh h2
        | cons x l => simp
      omega
    simp only
    rw [if_neg (by omega), read_existing K h1 h4]
    have k := combined_ok K h1 hi hpos
    refine write_ok K hd k ?_
    intro hnil
    obtain ⟨m1, m2⟩ := merge_mem _ r.entries c1 h1.inc
    cases hh : vals with
    | nil => exact hv hh
    | cons x l =>
      obtain ⟨c, hc, _⟩ := c3 x (by rw [hh]; simp)
      have := (m2 c).2 (Or.inl hc)
      rw [hnil] at this
      simp at this

/-! ### The loop over the blocks -/

/-- Every block is the series there. -/
def FileOK (a g bs : Int) (jbOf : Int → Int) (n0 : Int) (S : Int → Option α) (f : IrregFile α) : Prop :=
  ∀ n, n0 ≤ n → BlockOK a g (unitOf bs) (jbOf n) (jbOf (n + 1)) S (f (jbOf n))

theorem over_none {g base : Int} {vals : List (Entry α)} {S : Int → Option α} {t : Int}
    (h : ∀ e ∈ vals, base * 86400 + e.time * g ≠ t) : over g base vals S t = S t := by
  unfold over IrregStore.apply IrregStore.at
  simp only
  rw [List.find?_eq_none.2 (fun e he => by simpa using h e he)]

theorem over_append_left {g base : Int} {p q : List (Entry α)} {S : Int → Option α} {t : Int}
    (h : ∀ e ∈ q, base * 86400 + e.time * g ≠ t) : over g base (p ++ q) S t = over g base p S t := by
  unfold over IrregStore.apply IrregStore.at
  simp only
  have hq : q.find? (fun e => decide (base * 86400 + e.time * g = t)) = none :=
    List.find?_eq_none.2 (fun e he => by simpa using h e he)
  rw [List.find?_append, hq, Option.or_none]

theorem over_append_right {g base : Int} {p q : List (Entry α)} {S : Int → Option α} {t : Int}
    (h : ∀ e ∈ p, base * 86400 + e.time * g ≠ t) : over g base (p ++ q) S t = over g base q S t := by
  unfold over IrregStore.apply IrregStore.at
  simp only
  rw [List.find?_append, List.find?_eq_none.2 (fun e he => by simpa using h e he), Option.none_or]

theorem storeLoop_ok {bs a g base n0 : Int} {jbOf : Int → Int} (G : BlockGrid bs jbOf n0) (K : Kind bs a g)
    (hd : ∀ n, n0 ≤ n → bs < 4 → jbOf (n + 1) - jbOf n + 1 < 370) (nE : Int) (hE : n0 ≤ nE) (S : Int → Option α) :
    ∀ (fuel : Nat) (n : Int) (vals : List (Entry α)) (f : IrregFile α), n0 ≤ n → nE - n < fuel →
    Increasing vals →
    (∀ e ∈ vals, jbOf n * 86400 < base * 86400 + e.time * g ∧ base * 86400 + e.time * g ≤ jbOf (nE + 1) * 86400 ∧ a ∣ base * 86400 + e.time * g) →
    (∀ m, n ≤ m → BlockOK a g (unitOf bs) (jbOf m) (jbOf (m + 1)) S (f (jbOf m))) →
    ∃ f', irregStoreLoop bs g base (jbOf nE) fuel (jbOf n) vals f = some f' ∧
      (∀ m, n0 ≤ m → m < n → f' (jbOf m) = f (jbOf m)) ∧
      (∀ m, n ≤ m → BlockOK a g (unitOf bs) (jbOf m) (jbOf (m + 1)) (over g base vals S) (f' (jbOf m))) := by
  have hg := K.gpos
  have empty : ∀ (n : Int) (vals : List (Entry α)) (f : IrregFile α), n0 ≤ n → nE < n →
      (∀ e ∈ vals, jbOf n * 86400 < base * 86400 + e.time * g ∧ base * 86400 + e.time * g ≤ jbOf (nE + 1) * 86400 ∧ a ∣ base * 86400 + e.time * g) →
      (∀ m, n ≤ m → BlockOK a g (unitOf bs) (jbOf m) (jbOf (m + 1)) S (f (jbOf m))) →
      ∀ m, n ≤ m → BlockOK a g (unitOf bs) (jbOf m) (jbOf (m + 1)) (over g base vals S) (f (jbOf m)) := by
    intro n vals f hn hne hv ho m hm
    have : vals = [] := by
      cases vals with
      | nil => rfl
      | cons x l =>
        have := hv x (by simp)
        have := G.mono_le (m := nE + 1) (n := n) (by omega) (by omega)
        omega
    rw [this]
    exact (ho m hm).congr (fun x _ _ => over_none (by simp))
  intro fuel
  induction fuel with
  | zero =>
    intro n vals f hn hf hi hv ho
    have hlt := G.mono (m := nE) (n := n) hE (by omega)
    refine ⟨f, ?_, fun _ _ _ => rfl, empty n vals f hn (by omega) hv ho⟩
    unfold irregStoreLoop
    rw [if_neg (by omega)]
  | succ fuel ih =>
    intro n vals f hn hf hi hv ho
    unfold irregStoreLoop
    by_cases c : jbOf n ≤ jbOf nE
    · rw [if_pos c]
      have hnE : n ≤ nE := (G.le_iff hn hE).1 c
      simp only
      rw [G.next n hn]
      have hpred : ∀ e : Entry α, (e.time - (jbOf n - base) * unitsPerDay g ≤ (jbOf (n + 1) - jbOf n) * unitsPerDay g) ↔
          base * 86400 + e.time * g ≤ jbOf (n + 1) * 86400 := by
        intro e
        have hP := perDay_mul K.g
        have e1 : (e.time - (jbOf n - base) * unitsPerDay g) * g = base * 86400 + e.time * g - jbOf n * 86400 := by
          rw [Int.sub_mul, Int.mul_assoc, hP, Int.sub_mul]; omega
        have e2 : (jbOf (n + 1) - jbOf n) * unitsPerDay g * g = jbOf (n + 1) * 86400 - jbOf n * 86400 := by
          rw [Int.mul_assoc, hP, Int.sub_mul]
        constructor
        · intro h
          have := Int.mul_le_mul_of_nonneg_right h (show 0 ≤ g by omega)
          omega
        · intro h
          apply Int.le_of_mul_le_mul_right (a := g) _ (by omega)
          omega
      generalize hnow : vals.takeWhile (fun e => decide (e.time - (jbOf n - base) * unitsPerDay g ≤ (jbOf (n + 1) - jbOf n) * unitsPerDay g)) = now
      have hdrop : vals = now ++ vals.drop now.length := by
        have h1 : now = vals.take now.length := by
          have h := List.takeWhile_append_dropWhile (p := fun e : Entry α => decide (e.time - (jbOf n - base) * unitsPerDay g ≤ (jbOf (n + 1) - jbOf n) * unitsPerDay g)) (l := vals)
          rw [hnow] at h
          have h2 := congrArg (List.take now.length) h
          rw [List.take_left] at h2
          exact h2
        exact (List.take_append_drop now.length vals).symm.trans (by rw [← h1])
      generalize hrest : vals.drop now.length = rest at hdrop
      have hrest' : rest = vals.dropWhile (fun e => decide (e.time - (jbOf n - base) * unitsPerDay g ≤ (jbOf (n + 1) - jbOf n) * unitsPerDay g)) := by
        have h := List.takeWhile_append_dropWhile (p := fun e : Entry α => decide (e.time - (jbOf n - base) * unitsPerDay g ≤ (jbOf (n + 1) - jbOf n) * unitsPerDay g)) (l := vals)
        rw [hnow] at h
        have h2 : now ++ rest = now ++ vals.dropWhile (fun e => decide (e.time - (jbOf n - base) * unitsPerDay g ≤ (jbOf (n + 1) - jbOf n) * unitsPerDay g)) := by
          rw [h, ← hdrop]
        exact List.append_cancel_left h2
      have hin : ∀ e ∈ now, base * 86400 + e.time * g ≤ jbOf (n + 1) * 86400 := by
        intro e he
        rw [← hnow] at he
        have := List.all_eq_true.1 (List.all_takeWhile (p := fun e : Entry α => decide (e.time - (jbOf n - base) * unitsPerDay g ≤ (jbOf (n + 1) - jbOf n) * unitsPerDay g)) (l := vals)) e he
        exact (hpred e).1 (by simpa using this)
      have hinc := hi
      rw [hdrop] at hinc
      unfold Increasing at hinc
      obtain ⟨i1, i2, i3⟩ := List.pairwise_append.1 hinc
      have hout : ∀ e ∈ rest, jbOf (n + 1) * 86400 < base * 86400 + e.time * g := by
        cases hr : rest with
        | nil => simp
        | cons y rest' =>
          have hy : ¬ (y.time - (jbOf n - base) * unitsPerDay g ≤ (jbOf (n + 1) - jbOf n) * unitsPerDay g) := by
            have := List.head?_dropWhile_not (p := fun e : Entry α => decide (e.time - (jbOf n - base) * unitsPerDay g ≤ (jbOf (n + 1) - jbOf n) * unitsPerDay g)) (l := vals)
            rw [← hrest', hr] at this
            simpa using this
          have hy' : jbOf (n + 1) * 86400 < base * 86400 + y.time * g := by
            have := (not_congr (hpred y)).1 hy; omega
          intro e he
          rcases List.mem_cons.1 he with h | h
          · rw [h]; exact hy'
          · rw [hr] at i2
            have := (List.pairwise_cons.1 i2).1 e h
            have := Int.mul_lt_mul_of_pos_right this (show 0 < g by omega)
            omega
      have hvn : ∀ e ∈ now, e ∈ vals := by intro e he; rw [hdrop]; simp [he]
      have hvr : ∀ e ∈ rest, e ∈ vals := by intro e he; rw [hdrop]; simp [he]
      -- the file after this block
      generalize hf' : (if now.length > 0 then irregStoreBlock f bs (jbOf n) (jbOf (n + 1)) g
        (now.map (fun e => (⟨if bs = 5 then cdiv ((e.time - (jbOf n - base) * unitsPerDay g) * g) SECS_IN_1_MINUTE else (e.time - (jbOf n - base) * unitsPerDay g) * g, e.val⟩ : Entry α))) else f) = f1
      have hother : ∀ m, n0 ≤ m → m ≠ n → f1 (jbOf m) = f (jbOf m) := by
        intro m hm hne
        rw [← hf']
        by_cases cl : now.length > 0
        · rw [if_pos cl]
          unfold irregStoreBlock
          exact if_neg (fun h => hne (G.inj hm hn h))
        · rw [if_neg cl]
      have hthis : BlockOK a g (unitOf bs) (jbOf n) (jbOf (n + 1)) (over g base now S) (f1 (jbOf n)) := by
        rw [← hf']
        by_cases cl : now.length > 0
        · rw [if_pos cl]
          have hne : now ≠ [] := by intro h; rw [h] at cl; simp at cl
          exact storeBlock_ok K (hd n hn) (ho n (by omega)) i1 hne
            (fun e he => ⟨(hv e (hvn e he)).1, hin e he, (hv e (hvn e he)).2.2⟩)
        · rw [if_neg cl]
          have hne : now = [] := List.length_eq_zero_iff.1 (by omega)
          rw [hne]
          exact (ho n (by omega)).congr (fun x _ _ => over_none (by simp))
      have hlt := G.lt n hn
      obtain ⟨f', hrun, hk, hok⟩ := ih (n + 1) rest f1 (by omega) (by omega) i2
        (fun e he => ⟨hout e he, (hv e (hvr e he)).2⟩)
        (fun m hm => by rw [hother m (by omega) (by omega)]; exact ho m (by omega))
      refine ⟨f', hrun, ?_, ?_⟩
      · intro m h1 h2
        rw [hk m h1 (by omega), hother m h1 (by omega)]
      · intro m hm
        rw [hdrop]
        rcases Int.lt_or_eq_of_le hm with h | h
        · refine (hok m (by omega)).congr ?_
          intro x h1 h2
          apply over_append_right
          intro e he
          have := hin e he
          have := G.mono_le (m := n + 1) (n := m) (by omega) (by omega)
          omega
        · subst h
          rw [hk n hn (by omega)]
          refine hthis.congr ?_
          intro x h1 h2
          apply over_append_left
          intro e he
          have := hout e he
          omega
    · rw [if_neg c]
      have hne : nE < n := by
        rcases Int.lt_or_le nE n with h | h
        · exact h
        · exact absurd (G.mono_le hn h) c
      exact ⟨f, rfl, fun _ _ _ => rfl, empty n vals f hn hne hv ho⟩

/-- Storing one set. -/
theorem store_ok {bs a g base n0 : Int} {jbOf : Int → Int} (G : BlockGrid bs jbOf n0) (K : Kind bs a g)
    (hd : ∀ n, n0 ≤ n → bs < 4 → jbOf (n + 1) - jbOf n + 1 < 370) (S : Int → Option α) (f : IrregFile α)
    (vals : List (Entry α)) (hi : Increasing vals)
    (hv : ∀ e ∈ vals, jbOf n0 * 86400 < base * 86400 + e.time * g ∧ a ∣ base * 86400 + e.time * g)
    (ht : ∀ e ∈ vals, IsTime base e.time) (ho : FileOK a g bs jbOf n0 S f) :
    ∃ f', ztsStoreIrreg f bs g base vals = some f' ∧ FileOK a g bs jbOf n0 (over g base vals S) f' := by
  cases hvals : vals with
  | nil =>
    refine ⟨f, rfl, ?_⟩
    intro n hn
    exact (ho n hn).congr (fun x _ _ => over_none (by simp))
  | cons e l =>
    rw [← hvals]
    have he : e ∈ vals := by rw [hvals]; simp
    have hlast : vals.getLast?.getD e ∈ vals := by
      rw [hvals, List.getLast?_eq_some_getLast (by simp)]
      exact List.getLast_mem (by simp)
    have hle : ∀ x ∈ vals, e.time ≤ x.time ∧ x.time ≤ (vals.getLast?.getD e).time := by
      intro x hx
      constructor
      · rw [hvals] at hx hi
        rcases List.mem_cons.1 hx with h | h
        · rw [h]; exact Int.le_refl _
        · have := (List.pairwise_cons.1 hi).1 x h; omega
      · have hne : vals ≠ [] := by rw [hvals]; simp
        have h1 := List.dropLast_concat_getLast hne
        rw [List.getLast?_eq_some_getLast hne]
        simp only [Option.getD]
        rw [← h1] at hx hi
        rcases List.mem_append.1 hx with h | h
        · have := (List.pairwise_append.1 hi).2.2 x h (vals.getLast hne) (by simp); omega
        · rw [List.mem_singleton.1 h]; exact Int.le_refl _
    have hL : dayLengthOf g = unitsPerDay g := by
      rcases K.g with h | h | h | h <;> subst h <;> decide
    have hL1 : 1 ≤ dayLengthOf g := by
      rcases K.g with h | h | h | h <;> subst h <;> decide
    have hP := perDay_mul K.g
    have hg := K.gpos
    have day : ∀ x ∈ vals, (cleanTime base x.time g).1 * 86400 < base * 86400 + x.time * g ∧
        base * 86400 + x.time * g ≤ ((cleanTime base x.time g).1 + 1) * 86400 := by
      intro x hx
      have hc := cleanTime_spec (ht x hx) hL1
      simp only at hc
      rw [hL] at hc
      generalize cleanTime base x.time g = q at hc
      obtain ⟨h1, h2, h3⟩ := hc
      have h4 := congrArg (· * g) h3
      simp only [Int.add_mul] at h4
      rw [Int.mul_assoc, Int.mul_assoc, hP] at h4
      have h5 : 1 * g ≤ q.2 * g := Int.mul_le_mul_of_nonneg_right h1 (by omega)
      have h6 : q.2 * g ≤ unitsPerDay g * g := Int.mul_le_mul_of_nonneg_right h2 (by omega)
      rw [hP] at h6
      omega
    have d1 := day e he
    have d2 := day _ hlast
    have v1 := hv e he
    have v2 := hv _ hlast
    obtain ⟨n1, hn1, a1, b1⟩ := G.onto (j := (cleanTime base e.time g).1) (by omega)
    obtain ⟨n2, hn2, a2, b2⟩ := G.onto (j := (cleanTime base (vals.getLast?.getD e).time g).1) (by omega)
    have hinst : base * 86400 + e.time * g ≤ base * 86400 + (vals.getLast?.getD e).time * g := by
      have := Int.mul_le_mul_of_nonneg_right (hle e he).2 (show 0 ≤ g by omega)
      omega
    have hn12 : n1 ≤ n2 := by
      rcases Int.lt_or_le n2 n1 with c | c
      · have := G.mono_le (m := n2 + 1) (n := n1) (by omega) (by omega)
        omega
      · exact c
    have e1 : ztsIrregGetBlockStart (cleanTime base e.time g).1 bs = jbOf n1 := G.block n1 _ hn1 a1 b1
    have e2 : ztsIrregGetBlockStart (cleanTime base (vals.getLast?.getD e).time g).1 bs = jbOf n2 := G.block n2 _ hn2 a2 b2
    have hdist := G.dist hn1 hn12
    obtain ⟨f', hrun, hk, hok⟩ := storeLoop_ok G K hd n2 hn2 S ((jbOf n2 - jbOf n1).toNat + 1) n1 vals f hn1 (by omega) hi
      (fun x hx => by
        have h1 := Int.mul_le_mul_of_nonneg_right (hle x hx).1 (show 0 ≤ g by omega)
        have h2 := Int.mul_le_mul_of_nonneg_right (hle x hx).2 (show 0 ≤ g by omega)
        exact ⟨by omega, by omega, (hv x hx).2⟩)
      (fun m hm => ho m (by omega))
    refine ⟨f', ?_, ?_⟩
    · rw [hvals] at e2 hrun ⊢
      unfold ztsStoreIrreg
      simp only
      rw [e1, e2]
      exact hrun
    · intro m hm
      rcases Int.lt_or_le m n1 with c | c
      · rw [hk m hm c]
        refine (ho m hm).congr ?_
        intro x h1 h2
        apply over_none
        intro y hy
        have := G.mono_le (m := m + 1) (n := n1) (by omega) (by omega)
        have h1 := Int.mul_le_mul_of_nonneg_right (hle y hy).1 (show 0 ≤ g by omega)
        omega
      · exact hok m c

end Hec
