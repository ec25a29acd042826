import Verif.Model.Wild
import Verif.Proofs.Strings
import Verif.Proofs.EngineAbs
import Verif.Spec.Wild
/-! Comparison of pathnames with wild characters. -/
namespace Hec
set_option linter.unusedSimpArgs false
set_option linter.unusedVariables false
open _root_.Spec (Matches join IsPart Holds)

theorem toupper_zero {x : UInt8} (h : toupper x = toupper 0) : x = 0 := by
  have := (toupper_eq_iff x 0).mp h
  rcases this with h | ⟨h1, h2, h3⟩ | ⟨h1, _, _⟩
  · exact h
  · exfalso
    have e := congrArg UInt8.toNat h3
    simp only [UInt8.le_iff_toNat_le] at h1 h2
    simp at e h1 h2
    omega
  · exact absurd h1 (by decide)

theorem holds_drop {b s : Bytes} (h : Holds b s) (k : Nat) (hk : k ≤ s.length) : ∃ r, b.drop k = s.drop k ++ 0 :: r := by
  obtain ⟨r, rfl⟩ := h
  exact ⟨r, by rw [List.drop_append_of_le_length hk]⟩

theorem get_drop {b s r : Bytes} {k : Nat} (h : b.drop k = s ++ 0 :: r) : b[k]? = (s ++ [0])[0]? := by
  have : (b.drop k)[0]? = b[k]? := by rw [List.getElem?_drop]; simp
  rw [← this, h]
  cases s <;> simp

theorem drop_succ {b : Bytes} {x : UInt8} {s r : Bytes} {k : Nat} (h : b.drop k = (x :: s) ++ 0 :: r) : b.drop (k + 1) = s ++ 0 :: r := by
  have : (b.drop k).drop 1 = b.drop (k + 1) := by rw [List.drop_drop]
  rw [← this, h]; rfl

/-- The comparison of arrays that hold strings. -/
theorem compareAt_spec (before : Int → Option UInt8) (a b : Bytes) (t : Bytes) : ∀ (s r1 r2 : Bytes) (k j : Nat), (∀ c ∈ t, c ≠ 0) →
    a.drop k = s ++ 0 :: r1 → b.drop j = t ++ 0 :: r2 →
    compareAt before a b k j t.length = some ((t.map toupper).isPrefixOf (s.map toupper)) := by
  induction t with
  | nil => intro s r1 r2 k j _ _ _; simp [compareAt]
  | cons y t ih =>
    intro s r1 r2 k j hz ha hb
    have hra : rdB before a (k : Int) = a[k]? := by
      unfold rdB; rw [if_pos (by omega)]; simp
    have hrb : rd b (j : Int) = b[j]? := rd_eq
    simp only [List.length_cons, compareAt, hra, hrb, get_drop ha, get_drop hb]
    cases s with
    | nil =>
      simp only [List.nil_append, List.cons_append, List.getElem?_cons_zero, Option.bind_some]
      rw [if_pos]
      · rfl
      · intro h
        exact hz y (by simp) (toupper_zero h.symm)
    | cons x s =>
      simp only [List.nil_append, List.cons_append, List.getElem?_cons_zero, Option.bind_some, List.map_cons, List.isPrefixOf]
      by_cases h : toupper x = toupper y
      · rw [if_neg (by simpa using h)]
        have := ih s r1 r2 (k + 1) (j + 1) (fun c hc => hz c (by simp [hc])) (drop_succ ha) (drop_succ hb)
        rw [show ((k : Int) + 1) = ((k + 1 : Nat) : Int) by omega, this]
        simp [h]
      · rw [if_pos h]
        have : ¬ toupper y = toupper x := fun e => h e.symm
        simp [this]

theorem findInner_spec (full find : Bytes) (i : Nat) (t : Bytes) : ∀ (s r1 r2 : Bytes) (j pos : Nat), (∀ c ∈ t, c ≠ 0) →
    full.drop (i + j) = s ++ 0 :: r1 → find.drop j = t ++ 0 :: r2 →
    ∃ k, findInner full find i j t.length pos = some k ∧ k ≤ pos + t.length ∧
      (k = pos + t.length ↔ (t.map toupper).isPrefixOf (s.map toupper) = true) := by
  induction t with
  | nil => intro s r1 r2 j pos _ _ _; exact ⟨pos, by simp [findInner], by simp, by simp⟩
  | cons y t ih =>
    intro s r1 r2 j pos hz ha hb
    have hra : rd full ((i + j : Nat) : Int) = full[i + j]? := rd_eq
    have hrb : rd find (j : Int) = find[j]? := rd_eq
    simp only [List.length_cons, findInner, hra, hrb, get_drop ha, get_drop hb]
    cases s with
    | nil =>
      simp only [List.nil_append, List.cons_append, List.getElem?_cons_zero, Option.bind_some]
      rw [if_pos (fun h => hz y (by simp) (toupper_zero h.symm))]
      refine ⟨pos, rfl, by omega, ?_⟩
      simp [List.isPrefixOf]
    | cons x s =>
      simp only [List.nil_append, List.cons_append, List.getElem?_cons_zero, Option.bind_some, List.map_cons, List.isPrefixOf]
      by_cases h : toupper x = toupper y
      · rw [if_neg (by simpa using h)]
        obtain ⟨k, h1, h2, h3⟩ := ih s r1 r2 (j + 1) (pos + 1) (fun c hc => hz c (by simp [hc])) (by rw [← Nat.add_assoc]; exact drop_succ ha) (drop_succ hb)
        refine ⟨k, h1, by omega, ?_⟩
        rw [h]
        simp only [BEq.rfl, Bool.true_and, ← h3]
        omega
      · rw [if_pos h]
        refine ⟨pos, rfl, by omega, ?_⟩
        have : ¬ toupper y = toupper x := fun e => h e.symm
        simp [this]

/-- Somewhere in `s`, at a character, a text starts that begins with `t`. -/
def foundIn (t : Bytes) : Bytes → Bool
  | [] => false
  | x :: s => (t.map toupper).isPrefixOf ((x :: s).map toupper) || foundIn t s

theorem findOuter_spec (full find : Bytes) (t : Bytes) (hz : ∀ c ∈ t, c ≠ 0) {r2 : Bytes} (hb : find = t ++ 0 :: r2) (s : Bytes) :
    ∀ (r1 : Bytes) (i : Nat), full.drop i = s ++ 0 :: r1 →
    ∃ k, findOuter full find t.length i s.length = some k ∧ (¬ k < 0 ↔ foundIn t s = true) := by
  induction s with
  | nil => intro r1 i ha; exact ⟨-1, rfl, by simp [foundIn]⟩
  | cons x s ih =>
    intro r1 i ha
    obtain ⟨k, h1, h2, h3⟩ := findInner_spec full find i t (x :: s) r1 r2 0 0 hz ha (by simpa using hb)
    simp only [List.length_cons, findOuter, h1, Option.bind_some]
    by_cases h : k = t.length
    · rw [if_pos h]
      refine ⟨i, rfl, ?_⟩
      rw [foundIn, h3.mp (by omega)]
      simp
    · rw [if_neg h]
      obtain ⟨k', h1', h2'⟩ := ih r1 (i + 1) (drop_succ ha)
      refine ⟨k', h1', ?_⟩
      rw [h2', foundIn]
      have : (t.map toupper).isPrefixOf ((x :: s).map toupper) = false := by
        cases hh : (t.map toupper).isPrefixOf ((x :: s).map toupper) with
        | false => rfl
        | true => exact absurd (h3.mpr hh) (by omega)
      rw [this, Bool.false_or]

/-! ### One part -/

/-- What zcatParsePath keeps of a part. -/
def planned (q : Bytes) : PatPart :=
  let pl := partPlan q
  if pl.1 = 0 then ⟨0, 0, []⟩ else ⟨pl.1, pl.2.2, (q.drop pl.2.1).take pl.2.2⟩

/-- The comparison of one part, on strings. -/
def partMatch (q : Bytes) (p : Bytes) : Bool :=
  let pl := planned q
  if pl.action = 0 then true
  else if pl.action = 1 then decide (p.length = pl.len) && (pl.text.map toupper).isPrefixOf (p.map toupper)
  else if pl.action = 2 then (pl.text.map toupper).isPrefixOf (p.map toupper)
  else if pl.action = 3 then (pl.text.map toupper).isPrefixOf ((p.drop (p.length - pl.len)).map toupper)
  else decide (pl.len ≤ p.length) && foundIn pl.text p

theorem partPlan_len (q : Bytes) : (partPlan q).2.1 + (partPlan q).2.2 ≤ q.length := by
  unfold partPlan
  simp only
  repeat' split
  all_goals simp only
  all_goals omega

theorem partPlan_action (q : Bytes) : (partPlan q).1 ≤ 4 := by
  unfold partPlan
  simp only
  repeat' split
  all_goals simp only
  all_goals omega

theorem stringCopy_spec0 (dst src : Bytes) (n : Nat) (h1 : n ≤ src.length) (h2 : n < dst.length) :
    ∃ d, stringCopy dst src n = some (d, n) ∧ d.length = dst.length ∧ Holds d (src.take n) := by
  by_cases hn : 0 < n
  · exact stringCopy_spec dst src n hn h1 h2
  · have hn : n = 0 := by omega
    subst hn
    unfold stringCopy
    rw [if_pos rfl, if_pos (by omega), show (0 : Int) = ((0 : Nat) : Int) from rfl, wr_eq (by omega)]
    refine ⟨_, rfl, by simp, ?_⟩
    rw [holds_iff]
    refine ⟨by simp; omega, by simp, List.getElem?_set_self (by omega)⟩

theorem wr_length {b b' : Bytes} {i : Int} {c : UInt8} (h : wr b i c = some b') : b'.length = b.length := by
  unfold wr at h
  split at h
  · injection h with h; rw [← h]; simp
  · cases h

theorem copyIn_length (src : Bytes) : ∀ {b b' : Bytes} {i : Int}, copyIn b i src = some b' → b'.length = b.length := by
  induction src with
  | nil => intro b b' i h; simp [copyIn] at h; rw [h]
  | cons c cs ih =>
    intro b b' i h
    simp only [copyIn, Option.bind_eq_some_iff] at h
    obtain ⟨b1, h1, h2⟩ := h
    rw [ih h2, wr_length h1]

theorem stringCopy_length {dst src d : Bytes} {n m : Nat} (h : stringCopy dst src n = some (d, m)) : d.length = dst.length := by
  unfold stringCopy at h
  split at h
  · split at h
    · simp only [Option.map_eq_some_iff] at h
      obtain ⟨x, h1, h2⟩ := h
      injection h2 with h2 _
      rw [← h2, wr_length h1]
    · injection h with h; injection h with h _; rw [h]
  · split at h
    · injection h with h; injection h with h _; rw [h]
    · simp only [Option.bind_eq_some_iff, Option.map_eq_some_iff] at h
      obtain ⟨x, h1, y, h2, h3⟩ := h
      injection h3 with h3 _
      rw [← h3, wr_length h2, copyIn_length _ h1]

theorem getPart_length {path part b : Bytes} {i junk n : Int} (h : zpathnameGetPart path i part junk = some (b, n)) : b.length = part.length := by
  unfold zpathnameGetPart at h
  split at h
  · simp only [Option.map_eq_some_iff] at h
    obtain ⟨x, h1, h2⟩ := h
    injection h2 with h2 _
    rw [← h2, wr_length h1]
  · simp only at h
    split at h
    · simp only [Option.map_eq_some_iff] at h
      obtain ⟨x, h1, h2⟩ := h
      injection h2 with h2 _
      rw [← h2, wr_length h1]
    · split at h
      · simp only [Option.map_eq_some_iff] at h
        obtain ⟨x, h1, h2⟩ := h
        injection h2 with h2 _
        rw [← h2, stringCopy_length h1]
      · cases h

/-- A part of at most 128 characters in an array of 129. -/
theorem getPart_short (ps : List Bytes) (hl : ps.length = 6) (hp : ∀ p ∈ ps, IsPart p) (h128 : ∀ p ∈ ps, p.length ≤ 128) (i : Nat) (hi : i < 6)
    (buf : Bytes) (hb : buf.length = 129) (junk : Int) :
    ∃ b', zpathnameGetPart (join ps) (i + 1) buf junk = some (b', ((ps[i]'(by omega)).length : Int)) ∧ b'.length = 129 ∧
      Holds b' (ps[i]'(by omega)) := by
  obtain ⟨b', h1, h2⟩ := getPart_spec ps hl hp i hi buf (by omega) junk
  have hle := h128 _ (List.getElem_mem (by omega : i < ps.length))
  rw [Nat.min_eq_left hle] at h1
  rw [List.take_of_length_le hle] at h2
  exact ⟨b', h1, by rw [getPart_length h1, hb], h2⟩

theorem parseParts_spec (pats : List Bytes) (hl : pats.length = 6) (hp : ∀ p ∈ pats, IsPart p) (h128 : ∀ p ∈ pats, p.length ≤ 128)
    (junk : Int) (dst : Bytes) (hd : dst.length = 129) : ∀ (n i : Nat) (part : Bytes), i + n = 6 → part.length = 129 →
    parseParts (join pats) junk dst i n part = some ((pats.drop i).map planned) := by
  intro n
  induction n with
  | zero =>
    intro i part hi _
    rw [List.drop_of_length_le (by omega)]; rfl
  | succ n ih =>
    intro i part hi hpl
    obtain ⟨b', h1, h2, h3⟩ := getPart_short pats hl hp h128 i (by omega) part hpl junk
    have hil : i < pats.length := by omega
    have hq := hp _ (List.getElem_mem hil)
    have hc : cstr b' = pats[i] := cstr_holds h3 (fun c hc => (hq c hc).2)
    have hrest := ih (i + 1) b' (by omega) h2
    unfold parseParts
    rw [h1, Option.bind_some]
    simp only [hc, hrest]
    rw [List.drop_eq_getElem_cons hil, List.map_cons]
    by_cases h0 : (partPlan pats[i]).1 = 0
    · rw [if_pos h0]; simp [planned, h0]
    · rw [if_neg h0]
      have hlen := partPlan_len pats[i]
      have h128' := h128 _ (List.getElem_mem hil)
      obtain ⟨d, e1, e2, e3⟩ := stringCopy_spec0 dst (pats[i].drop (partPlan pats[i]).2.1) (partPlan pats[i]).2.2
        (by rw [List.length_drop]; omega) (by omega)
      rw [e1, Option.bind_some]
      have hc2 : cstr d = (pats[i].drop (partPlan pats[i]).2.1).take (partPlan pats[i]).2.2 := by
        refine cstr_holds e3 (fun c hc => ?_)
        exact (hq c (List.mem_of_mem_drop (List.mem_of_mem_take hc))).2
      simp [planned, h0, hc2]

theorem planned_text_length (q : Bytes) : (planned q).text.length = (planned q).len := by
  unfold planned
  simp only
  split
  · rfl
  · have := partPlan_len q
    simp only [List.length_take, List.length_drop]; omega

theorem planned_text_mem (q : Bytes) : ∀ c ∈ (planned q).text, c ∈ q := by
  unfold planned
  simp only
  split
  · simp
  · intro c hc; exact List.mem_of_mem_drop (List.mem_of_mem_take hc)

theorem xFill_append (n : Nat) : ∀ (s r : Bytes), n ≤ s.length → xFill n (s ++ r) = xFill n s ++ r := by
  induction n with
  | zero => intro s r _; simp [xFill]
  | succ n ih =>
    intro s r h
    match s with
    | [] => simp at h
    | c :: s =>
      simp only [List.cons_append, xFill]
      split
      · rfl
      · rw [ih s r (by simpa using h)]; rfl

theorem xFill_length (n : Nat) : ∀ (s : Bytes), (xFill n s).length = s.length := by
  induction n with
  | zero => intro s; simp [xFill]
  | succ n ih =>
    intro s
    match s with
    | [] => simp [xFill]
    | c :: s =>
      simp only [xFill]
      split
      · rfl
      · simp [ih s]

theorem xFill_mem (n : Nat) : ∀ (s : Bytes), ∀ c ∈ xFill n s, c = 88 ∨ c ∈ s := by
  induction n with
  | zero => intro s c h; exact Or.inr (by simpa [xFill] using h)
  | succ n ih =>
    intro s
    match s with
    | [] => simp [xFill]
    | x :: s =>
      intro c h
      simp only [xFill] at h
      split at h
      · exact Or.inr h
      · rcases List.mem_cons.mp h with h | h
        · exact Or.inl h
        · rcases ih s c h with h | h
          · exact Or.inl h
          · exact Or.inr (List.mem_cons_of_mem _ h)

theorem fillSeq_length (n : Nat) (s : Bytes) : (fillSeq n s).length = s.length := by
  simp only [fillSeq, List.length_append, List.length_take, xFill_length, List.length_drop]; omega

theorem fillSeq_append (s r : Bytes) (n : Nat) (hn : n ≤ s.length) (h : 2 ≤ s.length) : fillSeq n (s ++ r) = fillSeq n s ++ r := by
  unfold fillSeq
  rw [List.take_append_of_le_length h, List.drop_append_of_le_length h, xFill_append _ _ _ (by rw [List.length_drop]; omega), List.append_assoc]

theorem fillSeq_nonzero (n : Nat) (s : Bytes) (h : ∀ c ∈ s, c ≠ 0) : ∀ c ∈ fillSeq n s, c ≠ 0 := by
  intro c hc
  rcases List.mem_append.mp hc with hc | hc
  · exact h c (List.mem_of_mem_take hc)
  · rcases xFill_mem _ _ c hc with hc | hc
    · rw [hc]; decide
    · exact h c (List.mem_of_mem_drop hc)

/-- The comparison of one part for a plan, on strings. -/
def strMatch (action len : Nat) (t p : Bytes) : Bool :=
  if action = 0 then true
  else if action = 1 then decide (p.length = len) && (t.map toupper).isPrefixOf (p.map toupper)
  else if action = 2 then (t.map toupper).isPrefixOf (p.map toupper)
  else if action = 3 then (t.map toupper).isPrefixOf ((p.drop (p.length - len)).map toupper)
  else decide (len ≤ p.length) && foundIn t p

/-- `bothCollections` on strings. -/
def bothSeq (coll : Bool) (i : Nat) (t p : Bytes) : Bool :=
  coll && i == 5 && decide (9 ≤ t.length) && decide (9 ≤ p.length) && (toupper (t.getD 0 0) == toupper (p.getD 0 0)) && (toupper (t.getD 0 0) == 67) &&
    (t.getD 1 0 == 58) && (p.getD 1 0 == 58) && (t.drop 2).contains 124 && (p.drop 2).contains 124

def pm (coll : Bool) (i : Nat) (q p : Bytes) : Bool :=
  if bothSeq coll i (planned q).text p then
    strMatch (planned q).action (planned q).len (fillSeq (planned q).len (planned q).text) (fillSeq p.length p)
  else partMatch q p

def allMatch (coll : Bool) : Nat → List Bytes → List Bytes → Bool
  | i, q :: qs, p :: ps => pm coll i q p && allMatch coll (i + 1) qs ps
  | _, _, _ => true

theorem pm_other {coll : Bool} {i : Nat} (h : coll = false ∨ i ≠ 5) (q p : Bytes) : pm coll i q p = partMatch q p := by
  unfold pm
  rw [if_neg]
  unfold bothSeq
  rcases h with h | h <;> simp [h]

theorem allMatch_false (pats : List Bytes) : ∀ (i : Nat) (ps : List Bytes), allMatch false i pats ps = (pats.zip ps).all fun x => partMatch x.1 x.2 := by
  induction pats with
  | nil => intro i ps; simp [allMatch]
  | cons q pats ih =>
    intro i ps
    match ps with
    | [] => simp [allMatch]
    | p :: ps => simp [allMatch, pm_other (Or.inl rfl), ih]

theorem getD_append_left (s r : Bytes) (i : Nat) (h : i < s.length) : (s ++ r).getD i 0 = s.getD i 0 := by
  rw [List.getD_eq_getElem?_getD, List.getD_eq_getElem?_getD, List.getElem?_append_left h]

theorem bothCollections_eq (coll : Bool) (i : Nat) (t p r1 r2 : Bytes) (hz : ∀ c ∈ p, c ≠ 0) :
    bothCollections coll i t.length (p ++ 0 :: r1) (t ++ 0 :: r2) = bothSeq coll i t p := by
  have hc : cstr (p ++ 0 :: r1) = p := cstr_holds ⟨r1, rfl⟩ hz
  unfold bothCollections bothSeq
  rw [hc]
  by_cases h1 : 9 ≤ t.length
  · by_cases h2 : 9 ≤ p.length
    · rw [getD_append_left t _ 0 (by omega), getD_append_left t _ 1 (by omega), getD_append_left p _ 0 (by omega), getD_append_left p _ 1 (by omega)]
      simp
    · simp [h2]
  · simp [h1]

theorem bothSeq_long {coll : Bool} {i : Nat} {t p : Bytes} (h : bothSeq coll i t p = true) : 9 ≤ t.length ∧ 9 ≤ p.length := by
  unfold bothSeq at h
  simp only [Bool.and_eq_true, decide_eq_true_eq] at h
  exact ⟨h.1.1.1.1.1.1.1.2, h.1.1.1.1.1.1.2⟩

theorem collStep_eq (coll : Bool) (i : Nat) (t p r1 r2 : Bytes) (hz : ∀ c ∈ p, c ≠ 0) :
    collStep coll i t.length (p ++ 0 :: r1) (t ++ 0 :: r2) =
      if bothSeq coll i t p then (fillSeq p.length p ++ 0 :: r1, fillSeq t.length t ++ 0 :: r2) else (p ++ 0 :: r1, t ++ 0 :: r2) := by
  have hc : cstr (p ++ 0 :: r1) = p := cstr_holds ⟨r1, rfl⟩ hz
  unfold collStep
  rw [bothCollections_eq coll i t p r1 r2 hz, hc]
  split
  · rename_i h
    have := bothSeq_long h
    rw [fillSeq_append p _ _ (Nat.le_refl _) (by omega), fillSeq_append t _ _ (Nat.le_refl _) (by omega)]
  · rfl

theorem compareParts_spec (coll : Bool) (before : Int → Option UInt8) (ps : List Bytes) (hl : ps.length = 6) (hp : ∀ p ∈ ps, IsPart p)
    (h128 : ∀ p ∈ ps, p.length ≤ 128) (junk : Int) (pats : List Bytes) : ∀ (i : Nat) (b1 b2 : Bytes), i + pats.length = 6 →
    b1.length = 129 → b2.length = 129 → (∀ q ∈ pats, IsPart q) → (∀ q ∈ pats, q.length ≤ 128) →
    (∀ x ∈ pats.zip (ps.drop i), (planned x.1).action = 3 → (planned x.1).len ≤ x.2.length) →
    compareParts coll before (join ps) junk i (pats.map planned) b1 b2 = some (allMatch coll i pats (ps.drop i)) := by
  induction pats with
  | nil => intro i b1 b2 _ _ _ _ _ _; simp [compareParts, allMatch]
  | cons q pats ih =>
    intro i b1 b2 hi hb1 hb2 hq hq2 hends
    simp only [List.length_cons] at hi
    have hil : i < ps.length := by omega
    have hdrop : ps.drop i = ps[i] :: ps.drop (i + 1) := List.drop_eq_getElem_cons hil
    rw [hdrop] at hends
    rw [hdrop, List.map_cons]
    simp only [allMatch]
    have hq' : ∀ q ∈ pats, IsPart q := fun x hx => hq x (by simp [hx])
    have hq2' : ∀ q ∈ pats, q.length ≤ 128 := fun x hx => hq2 x (by simp [hx])
    have hends' : ∀ x ∈ pats.zip (ps.drop (i + 1)), (planned x.1).action = 3 → (planned x.1).len ≤ x.2.length :=
      fun x hx => hends x (by rw [List.zip_cons_cons]; simp [hx])
    unfold compareParts
    by_cases h0 : (planned q).action = 0
    · rw [if_pos h0, ih (i + 1) b1 b2 (by omega) hb1 hb2 hq' hq2' hends']
      have : pm coll i q ps[i] = true := by unfold pm; split <;> simp [partMatch, strMatch, h0]
      simp [this]
    · rw [if_neg h0]
      obtain ⟨b', h1, h2, h3⟩ := getPart_short ps hl hp h128 i (by omega) b1 hb1 junk
      rw [h1, Option.bind_some]
      simp only
      have hpz : ∀ c ∈ ps[i], c ≠ 0 := fun c hc => (hp _ (List.getElem_mem hil) c hc).2
      have hle := h128 _ (List.getElem_mem hil)
      have htl := planned_text_length q
      have hqlen : (planned q).len ≤ 128 := by
        have h5 := hq2 q (by simp)
        have h6 := partPlan_len q
        unfold planned
        simp only
        split
        · simp
        · simp only; omega
      have htz : ∀ c ∈ (planned q).text, c ≠ 0 := fun c hc => (hq q (by simp) c (planned_text_mem q c hc)).2
      obtain ⟨f, e1, e2, e3⟩ := stringCopy_spec0 b2 (planned q).text (planned q).len (by omega) (by omega)
      rw [List.take_of_length_le (by omega)] at e3
      have hact : (planned q).action ≤ 4 := by
        unfold planned; simp only
        split
        · simp
        · exact partPlan_action q
      obtain ⟨r1, hr1⟩ := h3
      obtain ⟨r2, hr2⟩ := e3
      have hpm : ∃ t s : Bytes, collStep coll i (planned q).len b' f = (s ++ 0 :: r1, t ++ 0 :: r2) ∧
          pm coll i q ps[i] = strMatch (planned q).action (planned q).len t s ∧ t.length = (planned q).len ∧ s.length = (ps[i]).length ∧
          (∀ c ∈ t, c ≠ 0) := by
        have hstep := collStep_eq coll i (planned q).text ps[i] r1 r2 hpz
        rw [htl, ← hr1, ← hr2] at hstep
        unfold pm
        rw [hstep]
        split
        · exact ⟨_, _, rfl, rfl, by rw [fillSeq_length, htl], fillSeq_length _ _, fillSeq_nonzero _ _ htz⟩
        · exact ⟨_, _, by rw [hr1, hr2], rfl, htl, rfl, htz⟩
      obtain ⟨t, s, hstep, hpm, htl', hsl, htz'⟩ := hpm
      have hfin : ∀ (res : Option Bool) (m : Bool), res = some m → m = pm coll i q ps[i] →
          (res.bind fun ok => if ok then compareParts coll before (join ps) junk (i + 1) (pats.map planned) (s ++ 0 :: r1) (t ++ 0 :: r2) else some false) =
            some (pm coll i q ps[i] && allMatch coll (i + 1) pats (ps.drop (i + 1))) := by
        intro res m hr hm
        rw [hr, Option.bind_some, hm]
        cases hpm' : pm coll i q ps[i] with
        | false => simp
        | true =>
          rw [if_pos rfl, ih (i + 1) _ _ (by omega) (by rw [List.length_append, hsl, ← List.length_append, ← hr1]; exact h2)
            (by rw [List.length_append, htl', ← htl, ← List.length_append, ← hr2, e2, hb2]) hq' hq2' hends']
          simp
      by_cases hA1 : (planned q).action = 1
      · by_cases hlen : ((ps[i]).length : Int) ≠ (planned q).len
        · rw [if_pos ⟨hA1, hlen⟩]
          have : ¬ s.length = (planned q).len := by omega
          simp [hpm, strMatch, hA1, this]
        · rw [if_neg (fun h => hlen h.2), e1, Option.bind_some]
          simp only [hstep]
          apply hfin _ _ _ rfl
          rw [if_pos (Or.inl hA1), ← htl']
          have := compareAt_spec before (s ++ 0 :: r1) (t ++ 0 :: r2) t s r1 r2 0 0 htz' (by simp) (by simp)
          rw [show (0 : Int) = ((0 : Nat) : Int) from rfl, this]
          have hl2 : s.length = (planned q).len := by omega
          simp [hpm, strMatch, hA1, hl2]
      · rw [if_neg (fun h => hA1 h.1), e1, Option.bind_some]
        simp only [hstep]
        apply hfin _ _ _ rfl
        by_cases hA2 : (planned q).action = 2
        · rw [if_pos (Or.inr hA2), ← htl']
          have := compareAt_spec before (s ++ 0 :: r1) (t ++ 0 :: r2) t s r1 r2 0 0 htz' (by simp) (by simp)
          rw [show (0 : Int) = ((0 : Nat) : Int) from rfl, this]
          simp [hpm, strMatch, hA2]
        · rw [if_neg (by omega)]
          by_cases hA3 : (planned q).action = 3
          · rw [if_pos hA3]
            have hge : (planned q).len ≤ (ps[i]).length := hends (q, ps[i]) (by rw [List.zip_cons_cons]; simp) hA3
            obtain ⟨r3, hr3⟩ := holds_drop (b := s ++ 0 :: r1) ⟨r1, rfl⟩ (s.length - (planned q).len) (by omega)
            have := compareAt_spec before (s ++ 0 :: r1) (t ++ 0 :: r2) t _ r3 r2 _ 0 htz' hr3 (by simp)
            rw [show (((ps[i]).length : Int) - ((planned q).len : Int)) = ((s.length - (planned q).len : Nat) : Int) by omega]
            rw [htl'] at this
            rw [this]
            simp [hpm, strMatch, hA3]
          · have hA4 : (planned q).action = 4 := by omega
            rw [if_neg hA3, if_pos hA4]
            unfold zfindString
            rw [show ((ps[i]).length : Int).toNat = s.length by omega]
            by_cases hgt : (planned q).len > s.length
            · rw [if_pos hgt]
              have : ¬ (planned q).len ≤ s.length := by omega
              simp [hpm, strMatch, hA4, this]
            · rw [if_neg hgt, ← htl']
              obtain ⟨k, hk1, hk2⟩ := findOuter_spec (s ++ 0 :: r1) (t ++ 0 :: r2) t htz' rfl s r1 0 (by simp)
              rw [hk1]
              have : t.length ≤ s.length := by omega
              simp only [Option.map_some, hpm, strMatch, hA4, ← htl', this, decide_true, Bool.true_and]
              congr 1
              rw [Bool.eq_iff_iff, decide_eq_true_eq]
              simp only [show ¬ ((4 : Nat) = 0) by omega, show ¬ ((4 : Nat) = 1) by omega, show ¬ ((4 : Nat) = 2) by omega, show ¬ ((4 : Nat) = 3) by omega, if_false]
              rw [hk2]

/-! ### What the comparison of a part means -/

theorem prefix_iff (t s : Bytes) : (t.map toupper).isPrefixOf (s.map toupper) = true ↔ ∃ a b, s = a ++ b ∧ Same t a := by
  rw [List.isPrefixOf_iff_prefix]
  constructor
  · rintro ⟨r, hr⟩
    rw [eq_comm, List.map_eq_append_iff] at hr
    obtain ⟨a, b, h1, h2, _⟩ := hr
    exact ⟨a, b, h1, h2.symm⟩
  · rintro ⟨a, b, rfl, h⟩
    exact ⟨b.map toupper, by rw [h, List.map_append]⟩

theorem foundIn_iff (t : Bytes) (s : Bytes) (h : t ≠ [] ∨ s ≠ []) : foundIn t s = true ↔ ∃ a m b, s = a ++ m ++ b ∧ Same t m := by
  induction s with
  | nil =>
    have ht : t ≠ [] := by simpa using h
    simp only [foundIn, Bool.false_eq_true, false_iff]
    rintro ⟨a, m, b, h1, h2⟩
    have : m = [] := by
      have := congrArg List.length h1
      simp at this
      exact List.eq_nil_of_length_eq_zero (by omega)
    subst this
    have := h2.length
    exact ht (List.eq_nil_of_length_eq_zero (by simpa using this))
  | cons x s ih =>
    rw [foundIn, Bool.or_eq_true, prefix_iff]
    constructor
    · rintro (⟨a, b, h1, h2⟩ | h1)
      · exact ⟨[], a, b, by simpa using h1, h2⟩
      · by_cases hts : t ≠ [] ∨ s ≠ []
        · obtain ⟨a, m, b, h2, h3⟩ := (ih hts).mp h1
          exact ⟨x :: a, m, b, by rw [h2]; rfl, h3⟩
        · have : s = [] := by
            apply Decidable.byContradiction
            intro hs; exact hts (Or.inr hs)
          rw [this] at h1
          simp [foundIn] at h1
    · rintro ⟨a, m, b, h1, h2⟩
      cases a with
      | nil => exact Or.inl ⟨m, b, by simpa using h1, h2⟩
      | cons y a =>
        simp only [List.cons_append, List.cons.injEq] at h1
        by_cases hts : t ≠ [] ∨ s ≠ []
        · exact Or.inr ((ih hts).mpr ⟨a, m, b, h1.2, h2⟩)
        · have ht : t = [] := by
            apply Decidable.byContradiction
            intro hs; exact hts (Or.inl hs)
          exact Or.inl ⟨[], x :: s, rfl, by rw [ht]; rfl⟩

theorem ends_iff (t p : Bytes) (h : t.length ≤ p.length) :
    (t.map toupper).isPrefixOf ((p.drop (p.length - t.length)).map toupper) = true ↔ ∃ a b, p = a ++ b ∧ Same t b := by
  rw [prefix_iff]
  constructor
  · rintro ⟨a, b, h1, h2⟩
    have hl := congrArg List.length h1
    have := h2.length
    simp only [List.length_drop, List.length_append] at hl
    have hb : b = [] := List.eq_nil_of_length_eq_zero (by omega)
    rw [hb, List.append_nil] at h1
    exact ⟨p.take (p.length - t.length), a, by rw [← h1, List.take_append_drop], h2⟩
  · rintro ⟨a, b, rfl, h2⟩
    have := h2.length
    refine ⟨b, [], ?_, h2⟩
    rw [List.length_append, show a.length + b.length - t.length = a.length by omega]
    simp

/-- The five forms of a pattern. -/
theorem planned_cases (q : Bytes) :
    (q = [42] ∧ planned q = ⟨0, 0, []⟩) ∨
    (q.head? ≠ some 42 ∧ q.getLast? ≠ some 42 ∧ planned q = ⟨1, q.length, q⟩) ∨
    (∃ x, q = x ++ [42] ∧ x ≠ [] ∧ x.head? ≠ some 42 ∧ planned q = ⟨2, x.length, x⟩) ∨
    (∃ x, q = 42 :: x ∧ x ≠ [] ∧ x.getLast? ≠ some 42 ∧ planned q = ⟨3, x.length, x⟩) ∨
    (∃ x, q = 42 :: (x ++ [42]) ∧ planned q = ⟨4, x.length, x⟩) := by
  match q with
  | [] => right; left; exact ⟨by simp, by simp, rfl⟩
  | [x] =>
    by_cases h : x = 42
    · left; subst h; exact ⟨rfl, rfl⟩
    · right; left
      refine ⟨by simpa using h, by simpa using h, ?_⟩
      simp [planned, partPlan, STAR, h]
  | x :: y :: l =>
    obtain ⟨m, z, hm⟩ : ∃ m z, y :: l = m ++ [z] := ⟨(y :: l).dropLast, (y :: l).getLast (by simp), (List.dropLast_concat_getLast (by simp)).symm⟩
    rw [hm]
    have hlen : (x :: (m ++ [z])).length = m.length + 2 := by simp
    have hlast : (x :: (m ++ [z]))[m.length + 2 - 1]? = some z := by
      rw [show m.length + 2 - 1 = m.length + 1 by omega, List.getElem?_cons_succ]; simp
    have hplan : partPlan (x :: (m ++ [z])) =
        if z = 42 then (if x = 42 then (4, 1, m.length) else (2, 0, m.length + 1)) else if x = 42 then (3, 1, m.length + 1) else (1, 0, m.length + 2) := by
      unfold partPlan STAR
      simp only [hlen, hlast, List.getElem?_cons_zero, Option.some.injEq]
      rw [if_neg (by omega), if_neg (by omega)]
      simp only [show m.length + 2 - 2 = m.length by omega, show m.length + 2 - 1 = m.length + 1 by omega]
    unfold planned
    simp only [hplan]
    by_cases hz : z = 42
    · by_cases hx : x = 42
      · right; right; right; right
        refine ⟨m, by rw [hz, hx], ?_⟩
        simp [hz, hx]
      · right; right; left
        refine ⟨x :: m, by simp [hz], by simp, by simpa using hx, ?_⟩
        simp [hz, hx]
    · by_cases hx : x = 42
      · right; right; right; left
        refine ⟨m ++ [z], by simp [hx], by simp, by simpa using hz, ?_⟩
        simp [hz, hx]
        apply List.take_of_length_le
        simp
      · right; left
        refine ⟨by simpa using hx, ?_, ?_⟩
        · rw [show x :: (m ++ [z]) = (x :: m) ++ [z] by rfl, List.getLast?_concat]; simpa using hz
        · simp [hz, hx]
          apply List.take_of_length_le
          simp

theorem partMatch_iff (q p : Bytes) (h2 : q = [42, 42] → p ≠ []) (h3 : ∀ x, q = 42 :: x → x.length ≤ p.length ∨ x.getLast? = some 42) :
    partMatch q p = true ↔ Matches q p := by
  unfold partMatch
  rcases planned_cases q with ⟨rfl, hp⟩ | ⟨ha, hb, hp⟩ | ⟨x, rfl, hx, hh, hp⟩ | ⟨x, rfl, hx, hh, hp⟩ | ⟨x, rfl, hp⟩
  · simp only [hp, if_true, true_iff]
    exact .all
  · simp only [hp, Nat.succ_ne_zero, if_false, if_true, Bool.and_eq_true, decide_eq_true_eq, prefix_iff, Nat.one_ne_zero]
    constructor
    · rintro ⟨h, a, b, h4, h5⟩
      have := h5.length
      have hl := congrArg List.length h4
      rw [List.length_append] at hl
      have hb' : b = [] := List.eq_nil_of_length_eq_zero (by omega)
      rw [hb', List.append_nil] at h4
      exact .exact ha hb (same_iff.mpr (by rw [h4]; exact h5))
    · intro h
      generalize hq : q = q' at h
      cases h with
      | all => rw [hq] at ha; simp at ha
      | exact _ _ hs =>
        have hs := same_iff.mp hs
        exact ⟨by rw [← hs.length], p, [], by simp, hs⟩
      | startsWith _ _ _ => rw [hq] at hb; simp at hb
      | endsWith _ _ _ => rw [hq] at ha; simp at ha
      | contains _ => rw [hq] at ha; simp at ha
  · have hh1 : (x ++ [42]).head? = x.head? := by cases x with | nil => exact absurd rfl hx | cons a l => rfl
    simp only [hp, if_true, prefix_iff, show ¬ (2 : Nat) = 0 by omega, show ¬ (2 : Nat) = 1 by omega, if_false]
    constructor
    · rintro ⟨a, b, rfl, h5⟩
      exact .startsWith hx hh (same_iff.mpr h5)
    · intro h
      generalize hq : x ++ [42] = q' at h
      cases h with
      | all => rw [← hh1, hq] at hh; simp at hh
      | exact _ h1 _ => rw [← hq] at h1; simp at h1
      | startsWith _ _ hs =>
        have := List.append_inj_left' hq rfl
        rw [this]
        exact ⟨_, _, rfl, same_iff.mp hs⟩
      | endsWith _ _ _ => rw [← hh1, hq] at hh; simp at hh
      | contains _ => rw [← hh1, hq] at hh; simp at hh
  · simp only [hp, if_true, show ¬ (3 : Nat) = 0 by omega, show ¬ (3 : Nat) = 1 by omega, show ¬ (3 : Nat) = 2 by omega, if_false]
    have hle : x.length ≤ p.length := by
      rcases h3 x rfl with h | h
      · exact h
      · exact absurd h hh
    rw [ends_iff x p hle]
    have hlast : (42 :: x).getLast? = x.getLast? := by
      cases x with | nil => exact absurd rfl hx | cons a l => simp [List.getLast?_cons_cons]
    constructor
    · rintro ⟨a, b, rfl, h5⟩
      exact .endsWith hx hh (same_iff.mpr h5)
    · intro h
      generalize hq : 42 :: x = q' at h
      cases h with
      | all => simp at hq; exact absurd hq hx
      | exact h1 _ _ => rw [← hq] at h1; simp at h1
      | startsWith _ _ _ => rw [← hlast, hq] at hh; simp at hh
      | endsWith _ _ hs =>
        simp only [List.cons.injEq, true_and] at hq
        rw [hq]
        exact ⟨_, _, rfl, same_iff.mp hs⟩
      | contains _ =>
        rw [← hlast, hq, ← List.cons_append, List.getLast?_concat] at hh
        exact absurd rfl hh
  · simp only [hp, show ¬ (4 : Nat) = 0 by omega, show ¬ (4 : Nat) = 1 by omega, show ¬ (4 : Nat) = 2 by omega, show ¬ (4 : Nat) = 3 by omega,
      if_false, Bool.and_eq_true, decide_eq_true_eq]
    have hne : x ≠ [] ∨ p ≠ [] := by
      by_cases hx : x = []
      · right; exact h2 (by rw [hx]; rfl)
      · exact Or.inl hx
    rw [foundIn_iff x p hne]
    constructor
    · rintro ⟨_, a, m, b, rfl, h5⟩
      exact .contains (same_iff.mpr h5)
    · intro h
      generalize hq : 42 :: (x ++ [42]) = q' at h
      have fin : ∀ a m b : Bytes, Same x m → p = a ++ m ++ b → x.length ≤ p.length ∧ ∃ a m b, p = a ++ m ++ b ∧ Same x m := by
        intro a m b hs hp
        refine ⟨?_, a, m, b, hp, hs⟩
        rw [hp, hs.length]; simp; omega
      cases h with
      | all => simp at hq
      | exact h1 _ _ => rw [← hq] at h1; simp at h1
      | @startsWith y a b h1 h2' _ =>
        have hy : y.head? = some 42 := by
          have : (y ++ [42]).head? = y.head? := by cases y with | nil => exact absurd rfl h1 | cons a l => rfl
          rw [← this, ← hq]; rfl
        exact absurd hy h2'
      | endsWith _ h1 _ =>
        simp only [List.cons.injEq, true_and] at hq
        rw [← hq] at h1; simp at h1
      | contains hs =>
        simp only [List.cons.injEq, true_and] at hq
        have := List.append_inj_left' hq rfl
        rw [← this] at hs
        exact fin _ _ _ (same_iff.mp hs) rfl

end Hec
