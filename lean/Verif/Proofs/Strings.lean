import Verif.Model.Strings
import Verif.Spec.Pathnames
/-!
Lemmas on checked buffers and the pathname functions.
-/
namespace Hec
open Spec

/-! ### buffers -/

theorem wr_eq {b : Bytes} {i : Nat} {c : UInt8} (h : i < b.length) :
    wr b (i : Int) c = some (b.set i c) := by
  unfold wr
  rw [if_pos (by omega)]
  simp

theorem rd_eq {b : Bytes} {i : Nat} : rd b (i : Int) = b[i]? := by
  unfold rd
  rw [if_pos (by omega)]
  simp

theorem copyIn_spec (src : Bytes) : ∀ (b : Bytes) (pos : Nat), pos + src.length ≤ b.length →
    ∃ b', copyIn b (pos : Int) src = some b' ∧ b'.length = b.length ∧
      ∀ k, b'[k]? = if pos ≤ k ∧ k < pos + src.length then src[k - pos]? else b[k]? := by
  induction src with
  | nil => intro b pos _; exact ⟨b, rfl, rfl, fun k => by simp; omega⟩
  | cons c cs ih =>
    intro b pos h
    simp only [List.length_cons] at h
    unfold copyIn
    rw [wr_eq (by omega)]
    obtain ⟨b', e, hl, hk⟩ := ih (b.set pos c) (pos + 1) (by simp; omega)
    refine ⟨b', ?_, by simp [hl], ?_⟩
    · simpa using e
    · intro k
      rw [hk k, List.getElem?_set]
      simp only [List.length_cons]
      by_cases h1 : pos + 1 ≤ k ∧ k < pos + 1 + cs.length
      · rw [if_pos h1, if_pos (by omega)]
        obtain ⟨j, hj⟩ : ∃ j, k - pos = j + 1 := ⟨k - pos - 1, by omega⟩
        have : k - (pos + 1) = j := by omega
        rw [this, hj, List.getElem?_cons_succ]
      · rw [if_neg h1]
        by_cases h2 : pos = k
        · rw [if_pos h2, if_pos (by omega), if_pos (by omega)]
          subst h2
          simp
        · rw [if_neg h2, if_neg (by omega)]

theorem moveForward_spec : ∀ (n : Nat) (b : Bytes) (i d : Nat), i + n + d ≤ b.length →
    ∃ b', moveForward b (i : Int) (d : Int) n = some b' ∧ b'.length = b.length ∧
      ∀ k, b'[k]? = if i ≤ k ∧ k < i + n then b[k + d]? else b[k]? := by
  intro n
  induction n with
  | zero => intro b i d _; exact ⟨b, rfl, rfl, fun k => by simp; omega⟩
  | succ n ih =>
    intro b i d h
    unfold moveForward
    have e1 : rd b ((i : Int) + d) = some (b[i + d]'(by omega)) := by
      have : ((i : Int) + d) = ((i + d : Nat) : Int) := by omega
      rw [this, rd_eq, List.getElem?_eq_getElem (by omega)]
    rw [e1]
    simp only [Option.bind_some]
    rw [wr_eq (by omega)]
    simp only [Option.bind_some]
    obtain ⟨b', e, hl, hk⟩ := ih (b.set i (b[i + d]'(by omega))) (i + 1) d (by simp; omega)
    refine ⟨b', ?_, by simp [hl], ?_⟩
    · have : ((i : Int) + 1) = ((i + 1 : Nat) : Int) := by omega
      rw [this]; exact e
    · intro k
      rw [hk k]
      by_cases h1 : i + 1 ≤ k ∧ k < i + 1 + n
      · rw [if_pos h1, if_pos (by omega), List.getElem?_set_ne (by omega)]
      · rw [if_neg h1, List.getElem?_set]
        by_cases h2 : i = k
        · rw [if_pos h2, if_pos (by omega), if_pos (by omega)]
          subst h2
          rw [List.getElem?_eq_getElem (by omega)]
        · rw [if_neg h2, if_neg (by omega)]

theorem moveBackward_spec (before : Int → Option UInt8) : ∀ (n : Nat) (b : Bytes) (i d : Nat),
    i + n ≤ b.length → (d ≤ i ∨ ∀ j, ∃ c, before j = some c) →
    ∃ b', moveBackward before b (i : Int) (d : Int) n = some b' ∧ b'.length = b.length ∧
      ∀ k, (k < i + n → i ≤ k → d ≤ k → b'[k]? = b[k - d]?) ∧ (k < i ∨ i + n ≤ k → b'[k]? = b[k]?) := by
  intro n
  induction n with
  | zero => intro b i d _ _; exact ⟨b, rfl, rfl, fun k => ⟨by omega, fun _ => rfl⟩⟩
  | succ n ih =>
    intro b i d h hd
    unfold moveBackward
    obtain ⟨c, ec, hc⟩ : ∃ c, rdB before b ((i : Int) + n - d) = some c ∧ (d ≤ i + n → b[i + n - d]? = some c) := by
      unfold rdB
      by_cases h0 : (0 : Int) ≤ (i : Int) + n - d
      · rw [if_pos h0]
        have : ((i : Int) + n - d).toNat = i + n - d := by omega
        rw [this, List.getElem?_eq_getElem (by omega)]
        exact ⟨_, rfl, fun _ => rfl⟩
      · rw [if_neg h0]
        rcases hd with hd | hd
        · omega
        · obtain ⟨c, hc⟩ := hd ((i : Int) + n - d)
          exact ⟨c, hc, by omega⟩
    rw [ec]
    simp only [Option.bind_some]
    have e2 : ((i : Int) + n) = ((i + n : Nat) : Int) := by omega
    rw [e2, wr_eq (by omega)]
    simp only [Option.bind_some]
    obtain ⟨b', e, hl, hk⟩ := ih (b.set (i + n) c) i d (by simp; omega) hd
    refine ⟨b', e, by simp [hl], ?_⟩
    intro k
    constructor
    · intro h1 h2 h3
      by_cases h4 : k < i + n
      · rw [(hk k).1 h4 h2 h3, List.getElem?_set_ne (by omega)]
      · have : k = i + n := by omega
        subst this
        rw [(hk (i + n)).2 (by omega), List.getElem?_set_self (by omega), hc h3]
    · intro h1
      rw [(hk k).2 (by omega), List.getElem?_set_ne (by omega)]

/-! ### C strings -/

theorem holds_iff (b s : Bytes) : Holds b s ↔
    s.length < b.length ∧ (∀ k, k < s.length → b[k]? = s[k]?) ∧ b[s.length]? = some 0 := by
  constructor
  · rintro ⟨r, rfl⟩
    refine ⟨by simp, fun k hk => ?_, by simp⟩
    rw [List.getElem?_append_left hk]
  · rintro ⟨h1, h2, h3⟩
    refine ⟨b.drop (s.length + 1), ?_⟩
    apply List.ext_getElem?
    intro k
    rcases Nat.lt_trichotomy k s.length with h | h | h
    · rw [h2 k h, List.getElem?_append_left h]
    · subst h
      rw [h3]; simp
    · rw [List.getElem?_append_right (by omega)]
      obtain ⟨j, hj⟩ : ∃ j, k - s.length = j + 1 := ⟨k - s.length - 1, by omega⟩
      rw [hj, List.getElem?_cons_succ, List.getElem?_drop]
      congr 1
      omega

theorem cstr_holds {b s : Bytes} (h : Holds b s) (hz : ∀ c ∈ s, c ≠ 0) : cstr b = s := by
  obtain ⟨r, rfl⟩ := h
  unfold cstr
  rw [List.takeWhile_append_of_pos (by simpa using hz)]
  simp

/-! ### trimming -/

theorem mem_takeWhile_p {α : Type} {p : α → Bool} : ∀ {l : List α} {x : α}, x ∈ l.takeWhile p → p x = true := by
  intro l
  induction l with
  | nil => intro x h; simp at h
  | cons a as ih =>
    intro x h
    rw [List.takeWhile_cons] at h
    split at h
    · rcases List.mem_cons.1 h with rfl | h
      · assumption
      · exact ih h
    · simp at h

theorem dropWhile_nil_of_all {α : Type} {p : α → Bool} : ∀ {l : List α}, (∀ x ∈ l, p x = true) →
    l.dropWhile p = [] := by
  intro l
  induction l with
  | nil => intro _; rfl
  | cons a as ih =>
    intro h
    rw [List.dropWhile_cons, if_pos (h a (by simp))]
    exact ih fun x hx => h x (by simp [hx])


theorem firstNonBlank_spec : ∀ (s : Bytes) (i : Int),
    (firstNonBlank s i = -1 ∧ s.dropWhile (· = 32) = [] ∨ i < 0) ∨
    (∃ n : Nat, firstNonBlank s i = i + n ∧ n < s.length ∧ s.dropWhile (· = 32) = s.drop n ∧
      s.drop n ≠ []) := by
  intro s
  induction s with
  | nil => intro i; left; left; simp [firstNonBlank]
  | cons c cs ih =>
    intro i
    unfold firstNonBlank
    by_cases hc : c = 32
    · have hb : ¬ c ≠ BLANK := by simp [hc, BLANK]
      rw [if_neg hb]
      rcases ih (i + 1) with (⟨h1, h2⟩ | h) | ⟨n, h1, h2, h3, h4⟩
      · left; left; exact ⟨h1, by simp [hc, h2]⟩
      · left; right; omega
      · right
        refine ⟨n + 1, by omega, by simp; omega, ?_, ?_⟩
        · simp [hc, h3]
        · simpa using h4
    · have hb : c ≠ BLANK := by simpa [BLANK] using hc
      rw [if_pos hb]
      right
      refine ⟨0, by omega, by simp, ?_, by simp⟩
      simp [hc]

theorem lastNonBlank_spec : ∀ (r : Bytes) (e : Int), (∃ c ∈ r, c ≠ 32) →
    ∃ n : Nat, lastNonBlank r (r.length - 1) e = (r.length : Int) - 1 - n ∧ n < r.length ∧
      r.dropWhile (· = 32) = r.drop n := by
  intro r
  induction r with
  | nil => intro e h; obtain ⟨c, h, _⟩ := h; simp at h
  | cons c cs ih =>
    intro e h
    unfold lastNonBlank
    by_cases hc : c = 32
    · have hb : ¬ c ≠ BLANK := by simp [hc, BLANK]
      rw [if_neg hb]
      have h' : ∃ c ∈ cs, c ≠ 32 := by
        obtain ⟨d, hd, hn⟩ := h
        rcases List.mem_cons.1 hd with rfl | hd
        · exact absurd hc hn
        · exact ⟨d, hd, hn⟩
      obtain ⟨n, h1, h2, h3⟩ := ih e h'
      refine ⟨n + 1, ?_, by simp; omega, by simp [hc, h3]⟩
      have : (((c :: cs).length : Int) - 1 - 1) = (cs.length : Int) - 1 := by simp
      rw [this, h1]
      simp only [List.length_cons]
      omega
    · have hb : c ≠ BLANK := by simpa [BLANK] using hc
      rw [if_pos hb]
      exact ⟨0, by omega, by simp, by simp [hc]⟩

/-- The characters copied by zpathnameAddPart are the trimmed part. -/
theorem trimmed_eq (s : Bytes) :
    (if (trimPositions s).1 > 0 then
      (s.drop (trimPositions s).2.1.toNat).take ((trimPositions s).2.2 - (trimPositions s).2.1 + 1).toNat
      else []) = trim s := by
  unfold trimPositions
  by_cases h0 : s.length = 0
  · have : s = [] := List.length_eq_zero_iff.1 h0
    subst this
    simp [trim]
  · simp only [h0, if_false]
    rcases firstNonBlank_spec s 0 with (⟨h1, h2⟩ | h) | ⟨n, h1, h2, h3, h4⟩
    · simp [h1, trim, h2]
    · omega
    · rw [h1]
      have hne : ¬ ((0 : Int) + n = -1) := by omega
      simp only [hne, if_false]
      have hex : ∃ c ∈ s.reverse, c ≠ 32 := by
        have : s.dropWhile (· = 32) ≠ [] := by rw [h3]; exact h4
        obtain ⟨c, hc⟩ := List.exists_mem_of_ne_nil _ this
        refine Classical.byContradiction fun hcon => this ?_
        apply dropWhile_nil_of_all
        intro x hx
        refine Classical.byContradiction fun hx2 => hcon ⟨x, by simpa using hx, by simpa using hx2⟩
      obtain ⟨m, g1, g2, g3⟩ := lastNonBlank_spec s.reverse 0 hex
      rw [List.length_reverse] at g1 g2
      rw [g1]
      -- the last kept character is after the first one
      have hnm : n + m < s.length := by
        refine Classical.byContradiction fun hcon => ?_
        have hall : ∀ x ∈ s, x = 32 := by
          intro x hx
          obtain ⟨k, hk, rfl⟩ := List.getElem_of_mem hx
          have ht := List.takeWhile_append_dropWhile (p := fun c : UInt8 => decide (c = 32)) (l := s)
          have htr := List.takeWhile_append_dropWhile (p := fun c : UInt8 => decide (c = 32)) (l := s.reverse)
          have hlen1 : (s.takeWhile (fun c : UInt8 => decide (c = 32))).length = n := by
            have := congrArg List.length ht
            rw [List.length_append, h3, List.length_drop] at this
            omega
          have hlen2 : (s.reverse.takeWhile (fun c : UInt8 => decide (c = 32))).length = m := by
            have := congrArg List.length htr
            rw [List.length_append, g3, List.length_drop, List.length_reverse] at this
            omega
          by_cases hkn : k < n
          · have e : s[k]? = (s.takeWhile (fun c : UInt8 => decide (c = 32)))[k]? := by
              conv => lhs; rw [← ht]
              rw [List.getElem?_append_left (by omega)]
            rw [List.getElem?_eq_getElem hk, List.getElem?_eq_getElem (by omega)] at e
            have hm := List.getElem_mem (l := s.takeWhile (fun c : UInt8 => decide (c = 32))) (n := k) (by omega)
            have := mem_takeWhile_p hm
            have e' := Option.some.inj e
            rw [e']
            simpa using this
          · have hk2 : s.length - 1 - k < m := by omega
            have e : s.reverse[s.length - 1 - k]? =
                (s.reverse.takeWhile (fun c : UInt8 => decide (c = 32)))[s.length - 1 - k]? := by
              conv => lhs; rw [← htr]
              rw [List.getElem?_append_left (by omega)]
            rw [List.getElem?_reverse (by omega)] at e
            have ek : s.length - 1 - (s.length - 1 - k) = k := by omega
            rw [ek, List.getElem?_eq_getElem hk, List.getElem?_eq_getElem (by omega)] at e
            have hm := List.getElem_mem (l := s.reverse.takeWhile (fun c : UInt8 => decide (c = 32)))
              (n := s.length - 1 - k) (by omega)
            have := mem_takeWhile_p hm
            have e' := Option.some.inj e
            rw [e']
            simpa using this
        obtain ⟨c, hc, hcn⟩ := hex
        exact hcn (hall c (by simpa using hc))
      have hpos : ((s.length : Int) - 1 - m - (0 + n) + 1) > 0 := by omega
      simp only [hpos, if_true]
      unfold trim
      rw [h3]
      have en : ((0 : Int) + n).toNat = n := by omega
      have em : ((s.length : Int) - 1 - m - (0 + n) + 1).toNat = s.length - m - n := by omega
      rw [en, em]
      -- dropping m blanks from the end
      have hrev : (s.drop n).reverse.dropWhile (fun c : UInt8 => decide (c = 32)) = (s.drop n).reverse.drop m := by
        have e1 : (s.drop n).reverse = s.reverse.take (s.length - n) := by
          rw [List.reverse_drop]
        rw [e1]
        have htr := List.takeWhile_append_dropWhile (p := fun c : UInt8 => decide (c = 32)) (l := s.reverse)
        have hlen2 : (s.reverse.takeWhile (fun c : UInt8 => decide (c = 32))).length = m := by
          have := congrArg List.length htr
          rw [List.length_append, g3, List.length_drop, List.length_reverse] at this
          omega
        have hpre : s.reverse.take (s.length - n) =
            s.reverse.takeWhile (fun c : UInt8 => decide (c = 32)) ++
              (s.reverse.drop m).take (s.length - n - m) := by
          conv => lhs; rw [← htr]
          rw [List.take_append, hlen2, List.take_of_length_le (by omega), g3]
        rw [hpre, List.dropWhile_append_of_pos (fun x hx => mem_takeWhile_p
          (p := fun c : UInt8 => decide (c = 32)) (l := s.reverse) hx)]
        have hl : m = (s.reverse.takeWhile (fun c : UInt8 => decide (c = 32))).length := hlen2.symm
        have hdr : (s.reverse.takeWhile (fun c : UInt8 => decide (c = 32)) ++
              (s.reverse.drop m).take (s.length - n - m)).drop m = (s.reverse.drop m).take (s.length - n - m) := by
          rw [List.drop_append, hlen2, List.drop_of_length_le (by omega)]
          simp
        rw [hdr]
        -- the first remaining character is not blank
        have hcons : s.reverse.drop m = s.reverse[m]'(by simp; omega) :: s.reverse.drop (m + 1) := by
          rw [List.drop_eq_getElem_cons]
        have hnb : ¬ (s.reverse[m]'(by simp; omega)) = 32 := by
          have hne : s.reverse.dropWhile (fun c : UInt8 => decide (c = 32)) ≠ [] := by
            rw [g3, hcons]; simp
          have := List.head_dropWhile_not (fun c : UInt8 => decide (c = 32)) hne
          simp only [g3, hcons, List.head_cons] at this
          simpa using this
        rw [hcons]
        obtain ⟨j, hj⟩ : ∃ j, s.length - n - m = j + 1 := ⟨s.length - n - m - 1, by omega⟩
        rw [hj, List.take_succ_cons, List.dropWhile_cons_of_neg (by simpa using hnb)]
      rw [hrev, List.drop_reverse]
      simp only [List.reverse_reverse, List.length_drop]
      congr 1
      omega

/-! ### forming -/

/-- The first bytes of the buffer are the text formed so far, as much of it as fits. -/
def FormInv (b : Bytes) (count : Nat) (s : Bytes) : Prop :=
  count = min s.length b.length ∧ ∀ k, k < count → b[k]? = s[k]?

theorem formInv_full {b : Bytes} {count : Nat} {s : Bytes} (h : FormInv b count s)
    (hf : ¬ count < b.length) (t : Bytes) : FormInv b count (s ++ t) := by
  obtain ⟨h1, h2⟩ := h
  refine ⟨by simp; omega, fun k hk => ?_⟩
  rw [h2 k hk, List.getElem?_append_left (by omega)]

theorem formInv_step {b : Bytes} {count : Nat} {s : Bytes} (h : FormInv b count s)
    (hf : count < b.length) (c : UInt8) : FormInv (b.set count c) (count + 1) (s ++ [c]) := by
  obtain ⟨h1, h2⟩ := h
  have hs : s.length = count := by omega
  refine ⟨by simp; omega, fun k hk => ?_⟩
  by_cases hkc : count = k
  · subst hkc
    rw [List.getElem?_set_self hf, List.getElem?_append_right (by omega)]
    simp [hs]
  · rw [List.getElem?_set_ne hkc, h2 k (by omega), List.getElem?_append_left (by omega)]

theorem addChars_inv (cs : Bytes) : ∀ (b : Bytes) (count : Nat) (s : Bytes), FormInv b count s →
    ∃ b' count' ok, addChars b count cs = some (b', count', ok) ∧ b'.length = b.length ∧
      FormInv b' count' (s ++ cs) ∧ (ok = false → ¬ count' < b'.length) := by
  induction cs with
  | nil => intro b count s h; exact ⟨b, count, true, rfl, rfl, by simpa using h, by simp⟩
  | cons c cs ih =>
    intro b count s h
    unfold addChars
    by_cases hf : count < b.length
    · rw [if_pos hf, wr_eq hf]
      obtain ⟨b', count', ok, e, hl, hi, ho⟩ := ih _ _ _ (formInv_step h hf c)
      exact ⟨b', count', ok, e, by simpa using hl, by simpa using hi, ho⟩
    · rw [if_neg hf]
      exact ⟨b, count, false, rfl, rfl, formInv_full h hf _, fun _ => hf⟩

theorem addPart_inv (p b : Bytes) (count : Nat) (s : Bytes) (h : FormInv b count s) :
    ∃ b' count', zpathnameAddPart p b count = some (b', count') ∧ b'.length = b.length ∧
      FormInv b' count' (s ++ (trim p ++ [47])) := by
  unfold zpathnameAddPart
  simp only
  rw [trimmed_eq]
  obtain ⟨b1, c1, ok, e1, l1, i1, o1⟩ := addChars_inv (trim p) b count s h
  rw [e1]
  simp only [Option.bind_some]
  by_cases hok : ok = true
  · rw [if_pos hok]
    by_cases hf : c1 < b1.length
    · rw [if_pos hf, wr_eq hf]
      refine ⟨_, _, rfl, by simpa using l1, ?_⟩
      have := formInv_step i1 hf 47
      simpa [SLASH] using this
    · rw [if_neg hf]
      refine ⟨_, _, rfl, l1, ?_⟩
      have := formInv_full i1 hf [47]
      simpa using this
  · rw [if_neg hok]
    refine ⟨_, _, rfl, l1, ?_⟩
    have hfull := o1 (by simpa using hok)
    have := formInv_full i1 hfull [47]
    simpa using this

theorem addParts_inv (ps : List Bytes) : ∀ (b : Bytes) (count : Nat) (s : Bytes), FormInv b count s →
    ∃ b' count', addParts b count ps = some (b', count') ∧ b'.length = b.length ∧
      FormInv b' count' (s ++ ps.flatMap (fun p => trim p ++ [47])) := by
  induction ps with
  | nil => intro b count s h; exact ⟨b, count, rfl, rfl, by simpa using h⟩
  | cons p ps ih =>
    intro b count s h
    unfold addParts
    obtain ⟨b1, c1, e1, l1, i1⟩ := addPart_inv p b count s h
    rw [e1]
    simp only [Option.bind_some]
    obtain ⟨b2, c2, e2, l2, i2⟩ := ih b1 c1 _ i1
    exact ⟨b2, c2, e2, by omega, by simpa using i2⟩

/-- Forming a pathname never leaves the buffer and gives the joined trimmed parts, cut to the
buffer when too long. -/
theorem form_spec (parts : List Bytes) (b : Bytes) (hb : 0 < b.length) :
    ∃ b' n, zpathnameForm parts b = some (b', n) ∧ b'.length = b.length ∧
      Holds b' ((join (parts.map trim)).take (b.length - 1)) ∧
      n = min ((join (parts.map trim)).length + 1) b.length := by
  unfold zpathnameForm
  rw [if_pos hb]
  have e0 : wr b 0 SLASH = some (b.set 0 SLASH) := wr_eq (i := 0) hb
  rw [e0]
  simp only [Option.bind_some]
  have hi : FormInv (b.set 0 SLASH) 1 [47] := by
    refine ⟨by simp; omega, fun k hk => ?_⟩
    have : k = 0 := by omega
    subst this
    rw [List.getElem?_set_self hb]
    rfl
  obtain ⟨b1, c1, e1, l1, h1, h2⟩ := addParts_inv parts _ _ _ hi
  rw [e1]
  simp only [Option.bind_some]
  have hj : ([47] : Bytes) ++ parts.flatMap (fun p => trim p ++ [47]) = join (parts.map trim) := by
    simp [join, List.flatMap_map]
  rw [hj] at h1 h2
  generalize hJ : join (parts.map trim) = J at h1 h2
  simp only [List.length_set] at l1
  by_cases hf : c1 < b1.length
  · rw [if_pos hf, wr_eq hf]
    have hJl : J.length = c1 := by omega
    have htake : J.take (b.length - 1) = J := List.take_of_length_le (by omega)
    refine ⟨_, _, rfl, by simpa using l1, ?_, by omega⟩
    rw [htake, holds_iff]
    refine ⟨by simp; omega, fun k hk => ?_, by rw [hJl]; exact List.getElem?_set_self hf⟩
    rw [List.getElem?_set_ne (by omega), h2 k (by omega)]
  · rw [if_neg hf]
    have e2 : ((b1.length : Int) - 1) = ((b1.length - 1 : Nat) : Int) := by omega
    rw [e2, wr_eq (by omega)]
    refine ⟨_, _, rfl, by simpa using l1, ?_, by omega⟩
    rw [holds_iff]
    have hlt : (J.take (b.length - 1)).length = b.length - 1 := by rw [List.length_take]; omega
    rw [hlt]
    refine ⟨by simp; omega, fun k hk => ?_, by rw [← l1]; exact List.getElem?_set_self (by omega)⟩
    rw [List.getElem?_set_ne (by omega), h2 k (by omega), List.getElem?_take_of_lt (by omega)]

/-! ### parsing -/

/-- Scanning a slash free text does nothing. -/
theorem partLengths_text (p : Bytes) (hp : ∀ c ∈ p, c ≠ 47) : ∀ (rest : Bytes) (i st : Int) (acc : List Int)
    (size : Nat), partLengthsLoop (p ++ rest) i st acc size = partLengthsLoop rest (i + p.length) st acc size := by
  induction p with
  | nil => intro rest i st acc size; simp
  | cons c cs ih =>
    intro rest i st acc size
    have hc : ¬ c = SLASH := hp c (by simp)
    simp only [List.cons_append, partLengthsLoop]
    rw [if_neg hc, ih (fun x hx => hp x (by simp [hx]))]
    congr 1
    simp only [List.length_cons]
    omega

theorem partLengths_join (ps : List Bytes) (hp : ∀ p ∈ ps, ∀ c ∈ p, c ≠ 47) :
    ∀ (i : Int) (acc : List Int) (size : Nat), acc.length + ps.length ≤ size →
      partLengthsLoop (ps.flatMap (· ++ [47])) i (i - 1) acc size = acc ++ ps.map (fun p => (p.length : Int)) := by
  induction ps with
  | nil => intro i acc size _; simp [partLengthsLoop]
  | cons p ps ih =>
    intro i acc size h
    simp only [List.length_cons] at h
    simp only [List.flatMap_cons, List.append_assoc]
    rw [partLengths_text p (hp p (by simp))]
    simp only [List.singleton_append, partLengthsLoop]
    have hs : ((47 : UInt8) = SLASH) := rfl
    rw [if_pos hs, if_pos (by omega)]
    have e : i + (p.length : Int) = (i + p.length + 1) - 1 := by omega
    have h2 := ih (fun q hq => hp q (by simp [hq])) (i + p.length + 1) (acc ++ [i + p.length - (i - 1) - 1])
      size (by simp; omega)
    rw [← e] at h2
    rw [h2]
    have e3 : i + (p.length : Int) - (i - 1) - 1 = p.length := by omega
    rw [e3]
    simp

/-- Where part `k` starts in a joined pathname. -/
def partStart (ps : List Bytes) (k : Nat) : Nat := 1 + ((ps.take k).flatMap (· ++ [47])).length

theorem partStart_succ {ps : List Bytes} {k : Nat} (h : k < ps.length) :
    partStart ps (k + 1) = partStart ps k + (ps[k]'h).length + 1 := by
  unfold partStart
  rw [List.take_succ, List.getElem?_eq_getElem h]
  simp only [Option.toList_some, List.flatMap_append, List.length_append, List.flatMap_cons,
    List.flatMap_nil, List.length_cons, List.length_nil]
  omega

theorem sumPositions_spec : ∀ (ls : List Int) (p : Int) (k : Nat), k < ls.length →
    (sumPositions ls.length p ls)[k]? = some (p + ((ls.take (k + 1)).map (· + 1)).sum) := by
  intro ls
  induction ls with
  | nil => intro p k h; simp at h
  | cons l ls ih =>
    intro p k h
    simp only [List.length_cons] at h ⊢
    unfold sumPositions
    cases k with
    | zero => simp; omega
    | succ k =>
      rw [List.getElem?_cons_succ, ih _ k (by omega)]
      simp
      omega

theorem partStart_sum (ps : List Bytes) (k : Nat) :
    (1 : Int) + (((ps.map (fun p => (p.length : Int))).take k).map (· + 1)).sum = partStart ps k := by
  unfold partStart
  rw [← List.map_take]
  generalize ps.take k = qs
  induction qs with
  | nil => simp
  | cons q qs ih =>
    simp only [List.map_cons, List.sum_cons, List.flatMap_cons, List.length_append, List.length_cons,
      List.length_nil]
    omega

/-- On a pathname with six parts the positions are the starts of the parts and the total length. -/
theorem positions_join (ps : List Bytes) (hl : ps.length = 6) (hp : ∀ p ∈ ps, ∀ c ∈ p, c ≠ 47) (junk : Int)
    (k : Nat) (hk : k ≤ 6) :
    (zpathnamePartPositions (join ps) junk)[k]? = some (partStart ps k : Int) := by
  have hpl : zpathnamePartLengths (join ps) 6 = (6, ps.map (fun p => (p.length : Int))) := by
    unfold zpathnamePartLengths join
    simp only [List.drop_succ_cons, List.drop_zero, show ¬ ((6 : Nat) > 6) from by omega, if_false]
    have h2 := partLengths_join ps hp 1 [] 6 (by simp; omega)
    simp only [List.nil_append] at h2
    rw [show (1 : Int) - 1 = 0 from rfl] at h2
    rw [h2]
    simp [hl]
  unfold zpathnamePartPositions
  rw [hpl]
  simp only [show ¬ ((6 : Nat) < 1) from by omega, if_false, show (6 + 1 : Nat) > 6 from by omega, if_true]
  cases k with
  | zero => simp [partStart]
  | succ k =>
    rw [List.getElem?_cons_succ]
    have hlen : (ps.map (fun p => (p.length : Int))).length = 6 := by simp [hl]
    have := sumPositions_spec (ps.map (fun p => (p.length : Int))) 1 k (by omega)
    rw [hlen] at this
    show (sumPositions 6 1 _)[k]? = _
    rw [this, partStart_sum]

theorem join_length (ps : List Bytes) : (join ps).length = partStart ps ps.length := by
  unfold join partStart
  rw [List.take_length, List.length_cons]
  exact Nat.add_comm _ _

/-- A joined pathname around part `k`. -/
theorem join_split (ps : List Bytes) (k : Nat) (hk : k < ps.length) :
    join ps = (join (ps.take k)) ++ ps[k] ++ 47 :: (ps.drop (k + 1)).flatMap (· ++ [47]) := by
  unfold join
  conv => lhs; rw [← List.take_append_drop k ps]
  rw [List.flatMap_append, List.drop_eq_getElem_cons hk, List.flatMap_cons]
  simp

theorem join_take_length (ps : List Bytes) (k : Nat) (hk : k ≤ ps.length) :
    (join (ps.take k)).length = partStart ps k := by
  rw [join_length]
  unfold partStart
  rw [List.take_take]
  simp [Nat.min_eq_left hk]

theorem join_nonzero (ps : List Bytes) (h : ∀ p ∈ ps, IsPart p) : ∀ c ∈ join ps, c ≠ 0 := by
  intro c hc
  unfold join at hc
  rcases List.mem_cons.1 hc with rfl | hc
  · decide
  · obtain ⟨p, hp, hm⟩ := List.mem_flatMap.1 hc
    rcases List.mem_append.1 hm with h1 | h1
    · exact (h p hp c h1).2
    · simp at h1; subst h1; decide

/-- stringCopy into a large enough array. -/
theorem stringCopy_spec (dst src : Bytes) (n : Nat) (hn : 0 < n) (h1 : n ≤ src.length) (h2 : n < dst.length) :
    ∃ d, stringCopy dst src n = some (d, n) ∧ d.length = dst.length ∧ Holds d (src.take n) := by
  unfold stringCopy
  rw [if_neg (by omega), if_neg (by omega)]
  simp only
  have e1 : (if n < dst.length - 1 then n else dst.length - 1) = n := by split <;> omega
  rw [e1]
  have e2 : (if src.length < n then src.length else n) = n := by split <;> omega
  rw [e2]
  have hlt : (src.take n).length = n := by rw [List.length_take]; omega
  obtain ⟨d, ed, ld, hd⟩ := copyIn_spec (src.take n) dst 0 (by omega)
  have ed' : copyIn dst 0 (src.take n) = some d := ed
  rw [ed']
  simp only [Option.bind_some]
  rw [wr_eq (by omega)]
  refine ⟨_, rfl, by simpa using ld, ?_⟩
  rw [holds_iff, hlt]
  refine ⟨by simp; omega, fun k hk => ?_, List.getElem?_set_self (by omega)⟩
  rw [List.getElem?_set_ne (by omega), hd k, if_pos (by omega)]
  simp

theorem getPart_spec (ps : List Bytes) (hl : ps.length = 6) (hp : ∀ p ∈ ps, IsPart p) (i : Nat) (hi : i < 6)
    (buf : Bytes) (hb : 129 ≤ buf.length) (junk : Int) :
    ∃ b', zpathnameGetPart (join ps) (i + 1) buf junk = some (b', ((min (ps[i]'(by omega)).length 128 : Nat) : Int)) ∧
      Holds b' ((ps[i]'(by omega)).take 128) := by
  have hil : i < ps.length := by omega
  have hns : ∀ p ∈ ps, ∀ c ∈ p, c ≠ 47 := fun p h c hc => (hp p h c hc).1
  unfold zpathnameGetPart
  rw [if_neg (by omega)]
  simp only
  have ei : ((i : Int) + 1).toNat = i + 1 := by omega
  have ei2 : ((i : Int) + 1 - 1).toNat = i := by omega
  rw [ei, ei2, positions_join ps hl hns junk _ (by omega), positions_join ps hl hns junk _ (by omega)]
  simp only [Option.getD_some]
  have hs := partStart_succ hil
  generalize hA : partStart ps i = A at hs
  generalize hB : partStart ps (i + 1) = B at hs
  have hlen : (B : Int) - A - 1 = (ps[i]'hil).length := by omega
  rw [hlen]
  have e0 : wr buf 0 0 = some (buf.set 0 0) := wr_eq (i := 0) (by omega)
  by_cases h0 : (ps[i]'hil).length = 0
  · rw [h0]
    simp only [show ((0 : Nat) : Int) < 1 from by omega, if_true]
    rw [e0]
    refine ⟨_, rfl, ?_⟩
    have : ps[i]'hil = [] := List.length_eq_zero_iff.1 h0
    rw [this, holds_iff]
    exact ⟨by simp only [List.length_set, List.take_nil, List.length_nil]; omega, by simp,
      List.getElem?_set_self (by omega)⟩
  · rw [if_neg (by omega)]
    have hAle : A + (ps[i]'hil).length + 1 ≤ (join ps).length := by
      rw [join_split ps i hil]
      have := join_take_length ps i (by omega)
      simp only [List.length_append, List.length_cons]
      omega
    rw [if_pos (by omega)]
    have hdrop : (join ps).drop A = ps[i]'hil ++ 47 :: (ps.drop (i + 1)).flatMap (· ++ [47]) := by
      conv => lhs; rw [join_split ps i hil, List.append_assoc]
      have := join_take_length ps i (by omega)
      rw [List.drop_append, this, hA, List.drop_of_length_le (by omega)]
      simp
    have eA : (A : Int).toNat = A := by omega
    rw [eA, hdrop]
    have eP : (if ((ps[i]'hil).length : Int) ≥ MAX_PART_SIZE then MAX_PART_SIZE - 1 else ((ps[i]'hil).length : Int))
        = (min (ps[i]'hil).length 128 : Nat) := by
      unfold MAX_PART_SIZE; split <;> omega
    rw [eP]
    have eT : ((min (ps[i]'hil).length 128 : Nat) : Int).toNat = min (ps[i]'hil).length 128 := by omega
    rw [eT]
    obtain ⟨d, ed, ld, hd⟩ := stringCopy_spec buf
      (ps[i]'hil ++ 47 :: (ps.drop (i + 1)).flatMap (· ++ [47])) (min (ps[i]'hil).length 128)
      (by omega) (by simp; omega) (by omega)
    rw [ed]
    refine ⟨d, rfl, ?_⟩
    have : (ps[i]'hil ++ 47 :: (ps.drop (i + 1)).flatMap (· ++ [47])).take (min (ps[i]'hil).length 128) =
        (ps[i]'hil).take 128 := by
      rw [List.take_append_of_le_length (by omega)]
      rcases Nat.le_total (ps[i]'hil).length 128 with h | h
      · rw [Nat.min_eq_left h, List.take_of_length_le (by omega), List.take_of_length_le (by omega)]
      · rw [Nat.min_eq_right h]
    rw [this] at hd
    exact hd

/-- SetPart on a buffer holding six parts: room for the new pathname and its terminator. -/
theorem setPart_spec (ps : List Bytes) (hl : ps.length = 6) (hp : ∀ p ∈ ps, IsPart p) (i : Nat) (hi : i < 6)
    (b : Bytes) (hb : Holds b (join ps)) (new : Bytes) (junk : Int) (before : Int → Option UInt8)
    (hbefore : new.length ≤ partStart ps i + 2 * (ps[i]'(by omega)).length + 1 ∨ ∀ j, ∃ c, before j = some c)
    (hroom : (join (ps.set i new)).length < b.length) :
    ∃ b', zpathnameSetPart before b new (i + 1) junk = some (b', true) ∧ b'.length = b.length ∧
      Holds b' (join (ps.set i new)) := by
  have hil : i < ps.length := by omega
  have hns : ∀ p ∈ ps, ∀ c ∈ p, c ≠ 47 := fun p h c hc => (hp p h c hc).1
  have hcs : cstr b = join ps := cstr_holds hb (join_nonzero ps hp)
  unfold zpathnameSetPart
  rw [if_neg (by omega)]
  simp only
  have ei : ((i : Int) + 1).toNat = i + 1 := by omega
  have ei2 : ((i : Int) + 1 - 1).toNat = i := by omega
  rw [hcs, ei, ei2, positions_join ps hl hns junk _ (by omega), positions_join ps hl hns junk _ (by omega),
    positions_join ps hl hns junk 6 (by omega)]
  simp only [Option.getD_some]
  have hs := partStart_succ hil
  have hlast : partStart ps 6 = (join ps).length := by rw [join_length, hl]
  rw [hlast]
  -- old and new pathname around the part
  have hsp := join_split ps i hil
  have hsp' : join (ps.set i new) = join (ps.take i) ++ new ++ 47 :: (ps.drop (i + 1)).flatMap (· ++ [47]) := by
    have := join_split (ps.set i new) i (by simp; omega)
    rw [this, List.take_set_of_le (Nat.le_refl i), List.drop_set_of_lt (by omega)]
    simp
  generalize hold : ps[i]'hil = old at hs hsp hbefore
  have hA := join_take_length ps i (by omega)
  generalize hpre : join (ps.take i) = pre at hsp hsp' hA
  generalize hpost : 47 :: (ps.drop (i + 1)).flatMap (· ++ [47]) = post at hsp hsp'
  have hpost1 : 1 ≤ post.length := by rw [← hpost]; simp
  generalize hB : partStart ps (i + 1) = B at hs
  rw [← hA] at hs hbefore ⊢
  rw [hsp] at hb ⊢
  rw [hsp'] at hroom ⊢
  rw [holds_iff] at hb
  obtain ⟨hb1, hb2, hb3⟩ := hb
  simp only [List.length_append] at hb1 hb2 hb3 hroom
  simp only [holds_iff, List.length_append]
  have hlen : (B : Int) - pre.length - 1 = old.length := by omega
  rw [hlen]
  -- pointwise content of the old and new names
  have hold2 : ∀ k, k < pre.length → b[k]? = pre[k]? := fun k hk => by
    rw [hb2 k (by omega), List.append_assoc, List.getElem?_append_left (by omega)]
  have hpost2 : ∀ k, k < post.length → b[pre.length + old.length + k]? = post[k]? := fun k hk => by
    rw [hb2 _ (by omega), List.getElem?_append_right (by simp)]
    congr 1
    simp
  have fin : ∀ b' : Bytes, b'.length = b.length →
      (∀ k, k < pre.length → b'[k]? = b[k]?) →
      (∀ k, k < new.length → b'[pre.length + k]? = new[k]?) →
      (∀ k, k < post.length → b'[pre.length + new.length + k]? = b[pre.length + old.length + k]?) →
      b'[pre.length + new.length + post.length]? = some 0 →
      b'.length = b.length ∧ pre.length + new.length + post.length < b'.length ∧
      (∀ k, k < pre.length + new.length + post.length → b'[k]? = (pre ++ new ++ post)[k]?) ∧
      b'[pre.length + new.length + post.length]? = some 0 := by
    intro b' h0 h1 h2 h3 h4
    refine ⟨h0, by omega, fun k hk => ?_, h4⟩
    rcases Nat.lt_or_ge k pre.length with hk1 | hk1
    · rw [h1 k hk1, hold2 k hk1, List.append_assoc, List.getElem?_append_left hk1]
    · rcases Nat.lt_or_ge k (pre.length + new.length) with hk2 | hk2
      · obtain ⟨j, rfl⟩ : ∃ j, k = pre.length + j := ⟨k - pre.length, by omega⟩
        rw [h2 j (by omega), List.append_assoc, List.getElem?_append_right (by omega),
          List.getElem?_append_left (by omega)]
        congr 1; omega
      · obtain ⟨j, rfl⟩ : ∃ j, k = pre.length + new.length + j := ⟨k - (pre.length + new.length), by omega⟩
        rw [h3 j (by omega), hpost2 j (by omega), List.getElem?_append_right (by simp)]
        congr 1
        simp
  by_cases hc1 : (new.length : Int) = old.length
  · rw [if_pos hc1]
    obtain ⟨b1, e1, l1, g1⟩ := copyIn_spec new b pre.length (by omega)
    rw [e1]
    refine ⟨b1, rfl, ?_⟩
    apply fin b1 l1
    · intro k hk; rw [g1, if_neg (by omega)]
    · intro k hk; rw [g1, if_pos (by omega)]; congr 1; omega
    · intro k hk; rw [g1, if_neg (by omega)]; congr 1; omega
    · rw [g1, if_neg (by omega)]
      have : pre.length + new.length + post.length = pre.length + old.length + post.length := by omega
      rw [this]; exact hb3
  · rw [if_neg hc1]
    by_cases hc2 : (new.length : Int) < old.length
    · rw [if_pos hc2]
      obtain ⟨b1, e1, l1, g1⟩ := copyIn_spec new b pre.length (by omega)
      rw [e1]
      simp only [Option.bind_some]
      have eD : ((old.length : Int) - new.length) = ((old.length - new.length : Nat) : Int) := by omega
      have eI : ((pre.length : Int) + new.length) = ((pre.length + new.length : Nat) : Int) := by omega
      have eN : (((pre.length + old.length + post.length : Nat) : Int) - ((old.length - new.length : Nat) : Int)
          - ((pre.length + new.length : Nat) : Int)).toNat = post.length := by omega
      have eE : (((pre.length + old.length + post.length : Nat) : Int) - ((old.length - new.length : Nat) : Int))
          = ((pre.length + new.length + post.length : Nat) : Int) := by omega
      rw [eD, eI, eN, eE]
      obtain ⟨b2, e2, l2, g2⟩ := moveForward_spec post.length b1 (pre.length + new.length)
        (old.length - new.length) (by omega)
      rw [e2]
      simp only [Option.bind_some]
      rw [wr_eq (by omega)]
      refine ⟨_, rfl, ?_⟩
      apply fin _ (by simp; omega)
      · intro k hk
        rw [List.getElem?_set_ne (by omega), g2, if_neg (by omega), g1, if_neg (by omega)]
      · intro k hk
        rw [List.getElem?_set_ne (by omega), g2, if_neg (by omega), g1, if_pos (by omega)]
        congr 1; omega
      · intro k hk
        rw [List.getElem?_set_ne (by omega), g2, if_pos (by omega), g1, if_neg (by omega)]
        congr 1; omega
      · exact List.getElem?_set_self (by omega)
    · rw [if_neg hc2]
      have eD : ((new.length : Int) - old.length) = ((new.length - old.length : Nat) : Int) := by omega
      rw [eD]
      have eE : (((pre.length + old.length + post.length : Nat) : Int) + ((new.length - old.length : Nat) : Int))
          = ((pre.length + new.length + post.length : Nat) : Int) := by omega
      rw [eE, if_neg (by omega), wr_eq (by omega)]
      simp only [Option.bind_some]
      have eN : (((pre.length + new.length + post.length : Nat) : Int) - (B : Int)).toNat =
          new.length + post.length - old.length - 1 := by omega
      rw [eN]
      have hBv : B = pre.length + old.length + 1 := by omega
      obtain ⟨b2, e2, l2, g2⟩ := moveBackward_spec before (new.length + post.length - old.length - 1)
        (b.set (pre.length + new.length + post.length) 0) B (new.length - old.length) (by simp; omega)
        (by rcases hbefore with h | h
            · left; omega
            · right; exact h)
      rw [e2]
      simp only [Option.bind_some]
      simp only [List.length_set] at l2
      obtain ⟨b3, e3, l3, g3⟩ := copyIn_spec new b2 pre.length (by omega)
      rw [e3]
      refine ⟨b3, rfl, ?_⟩
      apply fin _ (by omega)
      · intro k hk
        rw [g3, if_neg (by omega), (g2 k).2 (by omega), List.getElem?_set_ne (by omega)]
      · intro k hk
        rw [g3, if_pos (by omega)]
        congr 1; omega
      · intro k hk
        rw [g3, if_neg (by omega), (g2 _).1 (by omega) (by omega) (by omega), List.getElem?_set_ne (by omega)]
        congr 1; omega
      · rw [g3, if_neg (by omega), (g2 _).2 (by omega)]
        exact List.getElem?_set_self (by omega)

/-! ### cleaning -/

/-- The characters zpathnameClean keeps. -/
def cleanKeep (c : UInt8) : Bool := !(decide (c < 32 ∨ c ≥ 128) || decide (c > 126))

/-- Keep characters up to and including the slash that completes seven; `n` slashes were seen. -/
def cleanText : Nat → Bytes → Bytes
  | _, [] => []
  | n, c :: cs =>
    if c = 47 then (if n + 1 = 7 then [c] else c :: cleanText (n + 1) cs) else c :: cleanText n cs

theorem cleanLoop_inv (cs : Bytes) : ∀ (b : Bytes) (count n : Nat) (s : Bytes), FormInv b count s → n < 7 →
    ∃ b' count', cleanLoop b count n cs = some (b', count') ∧ b'.length = b.length ∧
      FormInv b' count' (s ++ cleanText n (cs.filter cleanKeep)) := by
  induction cs with
  | nil => intro b count n s h _; exact ⟨b, count, rfl, rfl, by simpa [cleanText] using h⟩
  | cons c cs ih =>
    intro b count n s h hn
    unfold cleanLoop
    by_cases h1 : c < 32 ∨ c ≥ 128
    · rw [if_pos h1]
      have hk : cleanKeep c = false := by simp [cleanKeep, h1]
      rw [List.filter_cons, hk]
      exact ih b count n s h hn
    · rw [if_neg h1]
      by_cases h2 : c > 126
      · rw [if_pos h2]
        have hk : cleanKeep c = false := by
          unfold cleanKeep; rw [decide_eq_true h2]; simp
        rw [List.filter_cons, hk]
        exact ih b count n s h hn
      · rw [if_neg h2]
        have hk : cleanKeep c = true := by
          unfold cleanKeep; rw [decide_eq_false h1, decide_eq_false h2]; rfl
        rw [List.filter_cons, hk]
        simp only [if_true]
        by_cases hf : count ≥ b.length
        · rw [if_pos hf]
          exact ⟨b, count, rfl, rfl, formInv_full h (by omega) _⟩
        · rw [if_neg hf, wr_eq (by omega)]
          simp only [Option.bind_some]
          have hstep := formInv_step h (by omega) c
          by_cases hc : c = SLASH
          · have hc' : c = 47 := hc
            rw [if_pos hc]
            unfold cleanText
            rw [if_pos hc']
            by_cases h7 : n + 1 = 7
            · rw [if_pos h7, if_pos h7]
              exact ⟨_, _, rfl, by simp, hstep⟩
            · rw [if_neg h7, if_neg h7]
              obtain ⟨b', c', e, l, i⟩ := ih _ _ (n + 1) _ hstep (by omega)
              exact ⟨b', c', e, by simpa using l, by simpa using i⟩
          · have hc' : ¬ c = 47 := hc
            rw [if_neg hc]
            unfold cleanText
            rw [if_neg hc']
            · rw [if_neg (by omega)]
              obtain ⟨b', c', e, l, i⟩ := ih _ _ n _ hstep hn
              exact ⟨b', c', e, by simpa using l, by simpa using i⟩

end Hec
