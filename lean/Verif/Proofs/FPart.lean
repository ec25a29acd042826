import Verif.Model.FPart
import Verif.Spec.FPart
/-! Lemmas about normalizeFPart. -/
namespace Hec
open _root_.Spec (splitBar pieces tagOf tagsOf textsOf IsDigit IsAlnum twoDigits TagTime RunId ValidTag Tagged canonical monthLen leap)

theorem split_bar (s : Bytes) : splitBar (124 :: s) = [] :: splitBar s := by simp [splitBar]

theorem split_ne (s : Bytes) : splitBar s ≠ [] := by
  cases s with
  | nil => simp [splitBar]
  | cons c s =>
    unfold splitBar
    split
    · simp
    · split <;> simp

theorem split_plain : ∀ a : Bytes, 124 ∉ a → splitBar a = [a]
  | [], _ => rfl
  | c :: a, h => by
    have h1 : c ≠ 124 := fun e => h (by simp [e])
    have h2 : 124 ∉ a := fun e => h (by simp [e])
    unfold splitBar
    rw [if_neg h1, split_plain a h2]

theorem split_append : ∀ (a b : Bytes), 124 ∉ a → splitBar (a ++ 124 :: b) = a :: splitBar b
  | [], b, _ => split_bar b
  | c :: a, b, h => by
    have h1 : c ≠ 124 := fun e => h (by simp [e])
    have h2 : 124 ∉ a := fun e => h (by simp [e])
    simp only [List.cons_append, splitBar, if_neg h1, split_append a b h2]

theorem pieces_bar (s : Bytes) : pieces (124 :: s) = pieces s := by
  unfold pieces; rw [split_bar]; rfl

theorem pieces_drop : ∀ s : Bytes, pieces (s.dropWhile (· = 124)) = pieces s
  | [] => rfl
  | c :: s => by
    by_cases h : c = 124
    · subst h
      rw [pieces_bar, List.dropWhile_cons_of_pos (by simp)]
      exact pieces_drop s
    · rw [List.dropWhile_cons_of_neg (by simpa using h)]

theorem pieces_append (a b : Bytes) (h : 124 ∉ a) (hn : a ≠ []) : pieces (a ++ 124 :: b) = a :: pieces b := by
  unfold pieces
  rw [split_append a b h, List.filter_cons_of_pos (by simpa using hn)]

theorem pieces_plain (a : Bytes) (h : 124 ∉ a) (hn : a ≠ []) : pieces a = [a] := by
  unfold pieces
  rw [split_plain a h, List.filter_cons_of_pos (by simpa using hn)]
  rfl

theorem strtok_spec (s : Bytes) :
    (strtok s = none ∧ pieces s = []) ∨ ∃ tok rest, strtok s = some (tok, rest) ∧ pieces s = tok :: pieces rest ∧ rest.length < s.length := by
  unfold strtok
  simp only
  have hl : (s.dropWhile (· = 124)).length ≤ s.length := (List.dropWhile_sublist _).length_le
  rw [← pieces_drop s]
  cases ht : s.dropWhile (· = 124) with
  | nil => left; simp [pieces, splitBar]
  | cons c t =>
    right
    have hc : c ≠ 124 := by
      have := List.head?_dropWhile_not (p := fun x : UInt8 => decide (x = 124)) (l := s)
      rw [ht] at this
      simpa using this
    rw [ht] at hl
    refine ⟨_, _, rfl, ?_, ?_⟩
    · have h0 : 124 ∉ (c :: t).takeWhile (· ≠ 124) := by
        intro h
        have := List.all_takeWhile (l := c :: t) (p := fun x : UInt8 => decide (x ≠ 124))
        rw [List.all_eq_true] at this
        simpa using this _ h
      have hne : (c :: t).takeWhile (· ≠ 124) ≠ [] := by
        rw [List.takeWhile_cons_of_pos (by simpa using hc)]; simp
      have e := List.takeWhile_append_dropWhile (p := fun x : UInt8 => decide (x ≠ 124)) (l := c :: t)
      cases hd : (c :: t).dropWhile (· ≠ 124) with
      | nil =>
        rw [hd, List.append_nil] at e
        rw [List.drop_nil]
        conv => lhs; rw [← e]
        rw [pieces_plain _ h0 hne]
        rfl
      | cons b r =>
        have hb : b = 124 := by
          have := List.head?_dropWhile_not (p := fun x : UInt8 => decide (x ≠ 124)) (l := c :: t)
          rw [hd] at this
          simpa using this
        subst hb
        rw [hd] at e
        conv => lhs; rw [← e]
        rw [pieces_append _ _ h0 hne]
        rfl
    · have := (List.dropWhile_sublist (l := c :: t) (fun x : UInt8 => decide (x ≠ 124))).length_le
      rw [List.length_drop]
      have h3 : 0 < (c :: t).length := by simp
      omega

/-- The loop over a list of tokens. -/
def fRun : List Bytes → FParse → FParse
  | [], p => p
  | tok :: ts, p =>
    match fToken p tok with
    | (p, true) => fRun ts p
    | (p, false) => p

theorem fLoop_run : ∀ (n : Nat) (s : Bytes) (p : FParse), s.length < n → fLoop n s p = fRun (pieces s) p
  | 0, s, p, h => by omega
  | n + 1, s, p, h => by
    unfold fLoop
    rcases strtok_spec s with ⟨h1, h2⟩ | ⟨tok, rest, h1, h2, h3⟩
    · rw [h1, h2]; rfl
    · rw [h1, h2]
      simp only [fRun]
      cases fToken p tok with
      | mk p' b =>
        cases b
        · rfl
        · exact fLoop_run n rest p' (by omega)

/-! ### values -/

theorem isDigit_iff (c : UInt8) : isDigit c = true ↔ IsDigit c := by simp [isDigit, IsDigit]
theorem isAlnum_iff (c : UInt8) : isAlnum c = true ↔ IsAlnum c := by
  simp [isAlnum, IsAlnum, isDigit, IsDigit, or_assoc]

theorem runPairs_iff : ∀ v : Bytes, runPairs v = true ↔ RunId v
  | [] => ⟨fun _ => .nil, fun _ => rfl⟩
  | [a] => ⟨fun h => by simp [runPairs] at h, fun h => by cases h⟩
  | a :: b :: v => by
    unfold runPairs
    constructor
    · intro h
      split at h
      · rename_i ha
        split at h
        · cases h
        · rename_i hb
          have hb : b = 45 := by simpa using hb
          rw [ha, hb]
          exact .none v ((runPairs_iff v).1 h)
      · split at h
        · cases h
        · split at h
          · cases h
          · rename_i h1 h2
            exact .run a b v ((isAlnum_iff a).1 (by simpa using h1)) ((isDigit_iff b).1 (by simpa using h2)) ((runPairs_iff v).1 h)
    · intro h
      cases h with
      | none _ h => simpa using (runPairs_iff v).2 h
      | run _ _ _ ha hb h =>
        rw [if_neg, (isAlnum_iff a).2 ha, (isDigit_iff b).2 hb]
        · simpa using (runPairs_iff v).2 h
        · intro e
          subst e
          revert ha
          unfold IsAlnum IsDigit
          decide

theorem runId_even {v : Bytes} (h : RunId v) : v.length % 2 = 0 := by
  induction h with
  | nil => rfl
  | none v _ ih => simp only [List.length_cons]; omega
  | run a b v _ _ _ ih => simp only [List.length_cons]; omega

theorem digit_of {a : UInt8} (h : isDigit a = true) : ∃ k : Nat, k < 10 ∧ a = UInt8.ofNat (48 + k) ∧ ((a.toNat : Int) - 48 = k) := by
  have h := (isDigit_iff a).1 h
  unfold IsDigit at h
  have h1 : 48 ≤ a.toNat := by have := UInt8.le_iff_toNat_le.1 h.1; simpa using this
  have h2 : a.toNat ≤ 57 := by have := UInt8.le_iff_toNat_le.1 h.2; simpa using this
  refine ⟨a.toNat - 48, by omega, ?_, by omega⟩
  rw [show 48 + (a.toNat - 48) = a.toNat by omega]
  simp

theorem digit_val {k : Nat} (h : k < 10) : isDigit (UInt8.ofNat (48 + k)) = true ∧ (((UInt8.ofNat (48 + k)).toNat : Int) - 48 = k) := by
  have : (UInt8.ofNat (48 + k)).toNat = 48 + k := by
    simp only [UInt8.toNat_ofNat']; omega
  constructor
  · rw [isDigit_iff]
    unfold IsDigit
    rw [UInt8.le_iff_toNat_le, UInt8.le_iff_toNat_le, this]
    simp; omega
  · rw [this]; omega

theorem monthLen_cases (y m : Int) (h1 : 1 ≤ m) (h2 : m ≤ 12) (hy : 0 ≤ y) (d : Int) :
    (if m = 1 ∨ m = 3 ∨ m = 5 ∨ m = 7 ∨ m = 8 ∨ m = 10 ∨ m = 12 then decide (d ≤ 31)
      else if m = 4 ∨ m = 6 ∨ m = 9 ∨ m = 11 then decide (d ≤ 30)
      else if m = 2 then
        (if y.tmod 4 = 0 ∧ (y.tmod 100 ≠ 0 ∨ y.tmod 400 = 0) then decide (d ≤ 29) else decide (d ≤ 28))
      else false) = decide (d ≤ monthLen y m) := by
  have e1 : Int.tmod y 4 = y % 4 := Int.tmod_eq_emod_of_nonneg hy
  have e2 : Int.tmod y 100 = y % 100 := Int.tmod_eq_emod_of_nonneg hy
  have e3 : Int.tmod y 400 = y % 400 := Int.tmod_eq_emod_of_nonneg hy
  have hm : m = 1 ∨ m = 2 ∨ m = 3 ∨ m = 4 ∨ m = 5 ∨ m = 6 ∨ m = 7 ∨ m = 8 ∨ m = 9 ∨ m = 10 ∨ m = 11 ∨ m = 12 := by omega
  unfold monthLen leap
  rw [e1, e2, e3]
  rcases hm with h | h | h | h | h | h | h | h | h | h | h | h <;> subst h <;> simp
  split <;> simp [*]

/-- The value of the 13 or 15 characters. -/
theorem tagTime_of (y m d h mi s : Nat) (seconds : Bool) (hy : y < 10000) (hm1 : 1 ≤ m) (hm : m ≤ 12) (hd : d < 100) (hh : h < 100) (hmi : mi < 100) (hs : s < 100) :
    validateTagTime (twoDigits (y / 100) ++ twoDigits y ++ twoDigits m ++ twoDigits d ++ [45] ++ twoDigits h ++ twoDigits mi ++ (if seconds then twoDigits s else [])) seconds =
      decide ((d : Int) ≤ monthLen y m ∧ (h < 24 ∧ mi < 60 ∨ h = 24 ∧ mi = 0) ∧ (seconds = true → s < 60)) := by
  have D : ∀ n : Nat, isDigit (UInt8.ofNat (48 + n % 10)) = true := fun n => (digit_val (by omega)).1
  have D2 : ∀ n : Nat, isDigit (48 + UInt8.ofNat (n % 10)) = true := fun n => by have := D n; simpa using this
  have V : ∀ n : Nat, ((UInt8.ofNat (48 + n % 10)).toNat : Int) - 48 = (n % 10 : Nat) := fun n => (digit_val (by omega)).2
  have ey : (((y % 10 : Nat) : Int) + 10 * ((y / 10 % 10 : Nat) : Int) + 100 * ((y / 100 % 10 : Nat) : Int) + 1000 * ((y / 100 / 10 % 10 : Nat) : Int)) = (y : Int) := by omega
  have em : ((m % 10 : Nat) : Int) + 10 * ((m / 10 % 10 : Nat) : Int) = (m : Int) := by omega
  have ed : ((d % 10 : Nat) : Int) + 10 * ((d / 10 % 10 : Nat) : Int) = (d : Int) := by omega
  have eh : ((h % 10 : Nat) : Int) + 10 * ((h / 10 % 10 : Nat) : Int) = (h : Int) := by omega
  have emi : ((mi % 10 : Nat) : Int) + 10 * ((mi / 10 % 10 : Nat) : Int) = (mi : Int) := by omega
  have es : ((s % 10 : Nat) : Int) + 10 * ((s / 10 % 10 : Nat) : Int) = (s : Int) := by omega
  unfold validateTagTime
  cases seconds
  · simp only [twoDigits, List.cons_append, List.nil_append, Bool.false_eq_true, if_false, List.length_cons, List.length_nil, digitAt]
    rw [if_neg (by simp), if_neg (by simp [List.range, List.range.loop, D2])]
    simp only [List.getD_cons_zero, List.getD_cons_succ, V]
    rw [ey, em, ed, eh, emi, monthLen_cases _ _ (by omega) (by omega) (by omega)]
    by_cases c1 : (d : Int) ≤ monthLen y m
    · by_cases c2 : (h : Int) > 24 ∨ ((h : Int) = 24 ∧ (mi : Int) > 0)
      · rw [if_neg (by simpa using c1), if_pos c2]; simp; omega
      · rw [if_neg (by simpa using c1), if_neg c2]
        by_cases c3 : (mi : Int) > 59
        · rw [if_pos c3]; simp; omega
        · rw [if_neg c3]; simp; omega
    · rw [if_pos (by simpa using c1)]; simp; omega
  · simp only [twoDigits, List.cons_append, List.nil_append, if_true, List.length_cons, List.length_nil, digitAt]
    rw [if_neg (by simp), if_neg (by simp [List.range, List.range.loop, D2])]
    simp only [List.getD_cons_zero, List.getD_cons_succ, V]
    rw [ey, em, ed, eh, emi, es, monthLen_cases _ _ (by omega) (by omega) (by omega)]
    by_cases c1 : (d : Int) ≤ monthLen y m
    · by_cases c2 : (h : Int) > 24 ∨ ((h : Int) = 24 ∧ (mi : Int) > 0)
      · rw [if_neg (by simpa using c1), if_pos c2]; simp; omega
      · rw [if_neg (by simpa using c1), if_neg c2]
        by_cases c3 : (mi : Int) > 59
        · rw [if_pos c3]; simp; omega
        · rw [if_neg c3]
          by_cases c4 : (s : Int) > 59
          · rw [if_pos ⟨by simp, c4⟩]; simp; omega
          · rw [if_neg (fun e => c4 e.2)]; simp; omega
    · rw [if_pos (by simpa using c1)]; simp; omega

theorem len13 {v : Bytes} (h : v.length = 13) : ∃ a b c d e f g i j k l m n, v = [a, b, c, d, e, f, g, i, j, k, l, m, n] := by
  match v, h with
  | [a, b, c, d, e, f, g, i, j, k, l, m, n], _ => exact ⟨a, b, c, d, e, f, g, i, j, k, l, m, n, rfl⟩

theorem len15 {v : Bytes} (h : v.length = 15) : ∃ a b c d e f g i j k l m n o p, v = [a, b, c, d, e, f, g, i, j, k, l, m, n, o, p] := by
  match v, h with
  | [a, b, c, d, e, f, g, i, j, k, l, m, n, o, p], _ => exact ⟨a, b, c, d, e, f, g, i, j, k, l, m, n, o, p, rfl⟩

theorem two_pair {a b : UInt8} (ha : isDigit a = true) (hb : isDigit b = true) : ∃ n : Nat, n < 100 ∧ [a, b] = twoDigits n := by
  obtain ⟨x, h1, h2, _⟩ := digit_of ha
  obtain ⟨y, k1, k2, _⟩ := digit_of hb
  refine ⟨10 * x + y, by omega, ?_⟩
  unfold twoDigits
  rw [h2, k2, show (10 * x + y) / 10 % 10 = x by omega, show (10 * x + y) % 10 = y by omega]

theorem monthBad (y m : Nat) (hm : m = 0 ∨ 12 < m) (d : Int) (yr : Int) :
    (if (m : Int) = 1 ∨ (m : Int) = 3 ∨ (m : Int) = 5 ∨ (m : Int) = 7 ∨ (m : Int) = 8 ∨ (m : Int) = 10 ∨ (m : Int) = 12 then decide (d ≤ 31)
      else if (m : Int) = 4 ∨ (m : Int) = 6 ∨ (m : Int) = 9 ∨ (m : Int) = 11 then decide (d ≤ 30)
      else if (m : Int) = 2 then
        (if yr.tmod 4 = 0 ∧ (yr.tmod 100 ≠ 0 ∨ yr.tmod 400 = 0) then decide (d ≤ 29) else decide (d ≤ 28))
      else false) = false := by
  rw [if_neg (by omega), if_neg (by omega), if_neg (by omega)]

theorem tagTime_month (y m d h mi s : Nat) (seconds : Bool) (hm : m < 100)
    (hv : validateTagTime (twoDigits (y / 100) ++ twoDigits y ++ twoDigits m ++ twoDigits d ++ [45] ++ twoDigits h ++ twoDigits mi ++ (if seconds then twoDigits s else [])) seconds = true) :
    1 ≤ m ∧ m ≤ 12 := by
  have V : ∀ n : Nat, ((UInt8.ofNat (48 + n % 10)).toNat : Int) - 48 = (n % 10 : Nat) := fun n => (digit_val (by omega)).2
  have em : ((m % 10 : Nat) : Int) + 10 * ((m / 10 % 10 : Nat) : Int) = (m : Int) := by omega
  apply Decidable.byContradiction
  intro hbad
  have hbad : m = 0 ∨ 12 < m := by omega
  have key : ∀ v : Bytes, digitAt v 5 + 10 * digitAt v 4 = (m : Int) → validateTagTime v seconds = false := by
    intro v e
    unfold validateTagTime
    simp only [e]
    rw [monthBad y m hbad]
    simp
  rw [key] at hv
  · cases hv
  · simp only [twoDigits, List.cons_append, List.nil_append, digitAt, List.getD_cons_zero, List.getD_cons_succ, V]
    exact em

theorem tagTime_iff (v : Bytes) (seconds : Bool) : validateTagTime v seconds = true ↔ TagTime seconds v := by
  constructor
  · intro h
    have hlen : v.length = if seconds then 15 else 13 := by
      apply Decidable.byContradiction
      intro e
      unfold validateTagTime at h
      simp only at h
      rw [if_pos e] at h
      cases h
    have hall : ((List.range (if seconds then 15 else 13)).all fun i => if i = 8 then v.getD i 0 == 45 else isDigit (v.getD i 0)) = true := by
      apply Decidable.byContradiction
      intro e
      unfold validateTagTime at h
      simp only at h
      rw [if_neg (by simpa using hlen), if_pos (by simpa using e)] at h
      cases h
    have hall := List.all_eq_true.1 hall
    cases seconds with
    | false =>
      obtain ⟨a, b, c, d, e, f, g, i, j, k, l, m, n, rfl⟩ := len13 (by simpa using hlen)
      have D : ∀ x, x < 13 → x ≠ 8 → isDigit ([a, b, c, d, e, f, g, i, j, k, l, m, n].getD x 0) = true := by
        intro x hx hne
        have := hall x (by simpa using hx)
        rwa [if_neg hne] at this
      have hj : j = 45 := by have := hall 8 (by simp); simpa using this
      obtain ⟨y1, hy1, e1⟩ := two_pair (D 0 (by decide) (by decide)) (D 1 (by decide) (by decide))
      obtain ⟨y2, hy2, e2⟩ := two_pair (D 2 (by decide) (by decide)) (D 3 (by decide) (by decide))
      obtain ⟨mm, hm, e3⟩ := two_pair (D 4 (by decide) (by decide)) (D 5 (by decide) (by decide))
      obtain ⟨dd, hd, e4⟩ := two_pair (D 6 (by decide) (by decide)) (D 7 (by decide) (by decide))
      obtain ⟨hh, hh1, e5⟩ := two_pair (D 9 (by decide) (by decide)) (D 10 (by decide) (by decide))
      obtain ⟨mi, hmi, e6⟩ := two_pair (D 11 (by decide) (by decide)) (D 12 (by decide) (by decide))
      have e2' : twoDigits y2 = twoDigits (100 * y1 + y2) := by
        unfold twoDigits; rw [show (100 * y1 + y2) / 10 % 10 = y2 / 10 % 10 by omega, show (100 * y1 + y2) % 10 = y2 % 10 by omega]
      have ev : [a, b, c, d, e, f, g, i, j, k, l, m, n] =
          twoDigits ((100 * y1 + y2) / 100) ++ twoDigits (100 * y1 + y2) ++ twoDigits mm ++ twoDigits dd ++ [45] ++ twoDigits hh ++ twoDigits mi ++ (if false = true then twoDigits 0 else []) := by
        rw [show (100 * y1 + y2) / 100 = y1 by omega, ← e2', ← e1, ← e2, ← e3, ← e4, ← e5, ← e6, hj]; rfl
      rw [ev] at h ⊢
      have hmo := tagTime_month _ _ _ _ _ _ false hm h
      rw [tagTime_of _ _ _ _ _ _ _ (by omega) hmo.1 hmo.2 hd hh1 hmi (by decide)] at h
      have h := of_decide_eq_true h
      exact ⟨_, _, _, _, _, _, rfl, by omega, hmo.1, hmo.2, h.1, h.2.1, by decide⟩
    | true =>
      obtain ⟨a, b, c, d, e, f, g, i, j, k, l, m, n, o, p, rfl⟩ := len15 (by simpa using hlen)
      have D : ∀ x, x < 15 → x ≠ 8 → isDigit ([a, b, c, d, e, f, g, i, j, k, l, m, n, o, p].getD x 0) = true := by
        intro x hx hne
        have := hall x (by simpa using hx)
        rwa [if_neg hne] at this
      have hj : j = 45 := by have := hall 8 (by simp); simpa using this
      obtain ⟨y1, hy1, e1⟩ := two_pair (D 0 (by decide) (by decide)) (D 1 (by decide) (by decide))
      obtain ⟨y2, hy2, e2⟩ := two_pair (D 2 (by decide) (by decide)) (D 3 (by decide) (by decide))
      obtain ⟨mm, hm, e3⟩ := two_pair (D 4 (by decide) (by decide)) (D 5 (by decide) (by decide))
      obtain ⟨dd, hd, e4⟩ := two_pair (D 6 (by decide) (by decide)) (D 7 (by decide) (by decide))
      obtain ⟨hh, hh1, e5⟩ := two_pair (D 9 (by decide) (by decide)) (D 10 (by decide) (by decide))
      obtain ⟨mi, hmi, e6⟩ := two_pair (D 11 (by decide) (by decide)) (D 12 (by decide) (by decide))
      obtain ⟨ss, hss, e7⟩ := two_pair (D 13 (by decide) (by decide)) (D 14 (by decide) (by decide))
      have e2' : twoDigits y2 = twoDigits (100 * y1 + y2) := by
        unfold twoDigits; rw [show (100 * y1 + y2) / 10 % 10 = y2 / 10 % 10 by omega, show (100 * y1 + y2) % 10 = y2 % 10 by omega]
      have ev : [a, b, c, d, e, f, g, i, j, k, l, m, n, o, p] =
          twoDigits ((100 * y1 + y2) / 100) ++ twoDigits (100 * y1 + y2) ++ twoDigits mm ++ twoDigits dd ++ [45] ++ twoDigits hh ++ twoDigits mi ++ (if true = true then twoDigits ss else []) := by
        rw [show (100 * y1 + y2) / 100 = y1 by omega, ← e2', ← e1, ← e2, ← e3, ← e4, ← e5, ← e6, ← e7, hj]; rfl
      rw [ev] at h ⊢
      have hmo := tagTime_month _ _ _ _ _ _ true hm h
      rw [tagTime_of _ _ _ _ _ _ _ (by omega) hmo.1 hmo.2 hd hh1 hmi hss] at h
      have h := of_decide_eq_true h
      exact ⟨_, _, _, _, _, _, rfl, by omega, hmo.1, hmo.2, h.1, h.2.1, h.2.2 rfl⟩
  · rintro ⟨y, m, d, h, mi, s, rfl, hy, hm1, hm2, hd, ht, hs⟩
    have hd' : d < 100 := by
      have : monthLen y m ≤ 31 := by unfold monthLen; split <;> split <;> omega
      omega
    rw [tagTime_of _ _ _ _ _ _ _ hy hm1 hm2 hd' (by omega) (by omega) (by omega)]
    exact decide_eq_true ⟨hd, ht, fun _ => hs⟩

theorem validate_iff (c : UInt8) (v : Bytes) : validateFPartTag c v = true ↔ ValidTag c v := by
  unfold validateFPartTag ValidTag
  by_cases h1 : c = 67
  · subst h1
    simp only [if_true]
    by_cases hl : v.length = 6
    · rw [if_neg (by simpa using hl), List.all_eq_true]
      simp [hl, isAlnum_iff]
    · rw [if_pos hl]; simp [hl]
  · by_cases h2 : c = 84
    · subst h2; simp [tagTime_iff]
    · by_cases h3 : c = 78
      · subst h3; simp
      · by_cases h4 : c = 86
        · subst h4; simp [tagTime_iff]
        · by_cases h5 : c = 82
          · subst h5
            simp only [h1, h2, h3, h4, if_false, if_true]
            by_cases hl : v.length % 2 = 0
            · rw [if_neg (by simpa using hl), runPairs_iff]; simp
            · rw [if_pos hl]
              simp
              exact fun h => hl (runId_even h)
          · simp [h1, h2, h3, h4, h5]
end Hec
