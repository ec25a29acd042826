import Verif.Props.Check
import Verif.Spec.CheckPassed
/-! C73, second part: what a file that passes the check has, whatever its words are. -/
namespace Hec
set_option linter.unusedSimpArgs false
set_option linter.unusedVariables false
set_option synthInstance.maxSize 1000
set_option synthInstance.maxHeartbeats 200000
open _root_.Spec (Reachable EntryIn LiveEntry nameIn BlockIn BinIn Listed BinOf InsideFile ARRAYS Sane)

theorem sum_nonneg {α : Type} {f : α → Option Int} (hf : ∀ a n, f a = some n → 0 ≤ n) : ∀ {l : List α} {n : Int}, sumErrors f l = some n → 0 ≤ n := by
  intro l
  induction l with
  | nil => intro n h; injection h with h; omega
  | cons a l ih =>
    intro n h
    unfold sumErrors at h
    obtain ⟨m, h1, h⟩ := Option.bind_eq_some_iff.mp h
    obtain ⟨k, h2, h⟩ := Option.map_eq_some_iff.mp h
    have := hf _ _ h1
    have := ih h2
    omega

theorem sum_zero {α : Type} {f : α → Option Int} (hf : ∀ a n, f a = some n → 0 ≤ n) : ∀ {l : List α}, sumErrors f l = some 0 → ∀ a ∈ l, f a = some 0 := by
  intro l
  induction l with
  | nil => intro _ a ha; cases ha
  | cons b l ih =>
    intro h a ha
    unfold sumErrors at h
    obtain ⟨m, h1, h⟩ := Option.bind_eq_some_iff.mp h
    obtain ⟨k, h2, h⟩ := Option.map_eq_some_iff.mp h
    have p1 := hf _ _ h1
    have p2 := sum_nonneg hf h2
    have e1 : m = 0 := by omega
    have e2 : k = 0 := by omega
    subst e1; subst e2
    rcases List.mem_cons.mp ha with e | ha
    · rw [e]; exact h1
    · exact ih h2 a ha

theorem live_iff {st : Nat} : zcompareRecordStatus (st : Int) (REC_STATUS_VALID : Int) = true ↔ st ≤ 2 := by
  unfold zcompareRecordStatus REC_STATUS_VALID REC_PRIMARY REC_VALID REC_ALIAS REC_DELETED REC_RENAMED REC_ANY
  simp
  omega

/-- The list that the checks go through is the list of the live entries. -/
theorem mem_validPaths {c : Cfg} {bin : Nat → Nat} {p : Bytes} : ∀ {fuel n : Nat}, EntryIn c bin n ∨ bin n = 0 → p ∈ validPaths c bin fuel n →
    ∃ m, EntryIn c bin m ∧ LiveEntry bin m ∧ p = nameIn bin m := by
  intro fuel
  induction fuel with
  | zero => intro n _ h; cases h
  | succ f ih =>
    intro n hn h
    unfold validPaths at h
    split at h
    · cases h
    next h0 =>
    have hn : EntryIn c bin n := hn.resolve_right h0
    have hrest : p ∈ (if n + (7 + hi32 (bin (n + 2))) ≥ c.isize - 2 then [] else validPaths c bin f (n + (7 + hi32 (bin (n + 2))))) →
        ∃ m, EntryIn c bin m ∧ LiveEntry bin m ∧ p = nameIn bin m := by
      intro h
      split at h
      · cases h
      next hlt =>
      refine ih ?_ h
      by_cases hz : bin (n + (7 + hi32 (bin (n + 2)))) = 0
      · exact Or.inr hz
      · exact Or.inl (.next hn (by omega) hz)
    simp only at h
    split at h
    · next hv =>
      rcases List.mem_cons.mp h with e | h
      · exact ⟨n, hn, live_iff.mp hv, e⟩
      · exact hrest h
    · exact hrest h

theorem entry_lt {c : Cfg} {bin : Nat → Nat} (hi : 0 < c.isize) {n : Nat} (h : EntryIn c bin n) : n < c.isize := by
  cases h with
  | first _ => exact hi
  | next _ h _ => omega

/-- From the entry at `n` on, all entries are in the list. -/
inductive Behind (c : Cfg) (bin : Nat → Nat) (n : Nat) : Nat → Prop
  | here : Behind c bin n n
  | next {m : Nat} : Behind c bin n m → m + (7 + hi32 (bin (m + 2))) < c.isize - 2 → bin (m + (7 + hi32 (bin (m + 2)))) ≠ 0 →
      Behind c bin n (m + (7 + hi32 (bin (m + 2))))

theorem behind_first {c : Cfg} {bin : Nat → Nat} {n m : Nat} (h : Behind c bin n m) :
    m = n ∨ (n + (7 + hi32 (bin (n + 2))) < c.isize - 2 ∧ bin (n + (7 + hi32 (bin (n + 2)))) ≠ 0 ∧ Behind c bin (n + (7 + hi32 (bin (n + 2)))) m) := by
  induction h with
  | here => exact Or.inl rfl
  | next h h1 h2 ih =>
    rcases ih with e | ⟨a, b, ih⟩
    · subst e; exact Or.inr ⟨h1, h2, .here⟩
    · exact Or.inr ⟨a, b, .next ih h1 h2⟩

theorem behind_zero {c : Cfg} {bin : Nat → Nat} {m : Nat} (h : EntryIn c bin m) : bin 0 ≠ 0 ∧ Behind c bin 0 m := by
  induction h with
  | first h => exact ⟨h, .here⟩
  | next h h1 h2 ih => exact ⟨ih.1, .next ih.2 h1 h2⟩

theorem validPaths_mem {c : Cfg} {bin : Nat → Nat} : ∀ {fuel n m : Nat}, bin n ≠ 0 → Behind c bin n m → m < n + fuel → LiveEntry bin m → nameIn bin m ∈ validPaths c bin fuel n := by
  intro fuel
  induction fuel with
  | zero =>
    intro n m h0 hb hlt
    have : n ≤ m := by
      clear hlt h0
      induction hb with
      | here => exact Nat.le_refl _
      | next _ _ _ ih => omega
    omega
  | succ f ih =>
    intro n m h0 hb hlt hl
    unfold validPaths
    rw [if_neg h0]
    simp only
    rcases behind_first hb with e | ⟨h1, h2, h3⟩
    · subst e
      rw [if_pos (live_iff.mpr hl)]
      exact List.mem_cons_self
    · have := ih h2 h3 (by omega) hl
      rw [if_neg (show ¬ _ ≥ c.isize - 2 by omega)]
      split
      · exact List.mem_cons_of_mem _ this
      · exact this

theorem validPaths_iff {c : Cfg} {bin : Nat → Nat} (hi : 0 < c.isize) {p : Bytes} :
    p ∈ validPaths c bin c.isize 0 ↔ ∃ n, EntryIn c bin n ∧ LiveEntry bin n ∧ p = nameIn bin n := by
  constructor
  · intro h
    refine mem_validPaths ?_ h
    by_cases h0 : bin 0 = 0
    · exact Or.inr h0
    · exact Or.inl (.first h0)
  · rintro ⟨n, h1, h2, rfl⟩
    obtain ⟨a, b⟩ := behind_zero h1
    exact validPaths_mem a b (by have := entry_lt hi h1; omega) h2

theorem blockPaths_iff {c : Cfg} {d : Disk} (hi : 0 < c.isize) {p : Bytes} : ∀ {n a : Nat},
    p ∈ blockPaths c d n a ↔ ∃ k, k < n ∧ p ∈ validPaths c (fun i => d (a + k * c.isize + i)) c.isize 0 := by
  intro n
  induction n with
  | zero =>
    intro a
    constructor
    · intro h; cases h
    · rintro ⟨k, h, _⟩; omega
  | succ n ih =>
    intro a
    unfold blockPaths
    rw [List.mem_append, ih]
    constructor
    · rintro (h | ⟨k, h1, h2⟩)
      · exact ⟨0, by omega, by simpa using h⟩
      · refine ⟨k + 1, by omega, ?_⟩
        have e : a + (k + 1) * c.isize = a + c.isize + k * c.isize := by rw [Nat.succ_mul]; omega
        rw [e]; exact h2
    · rintro ⟨k, h1, h2⟩
      cases k with
      | zero => left; simpa using h2
      | succ k =>
        right
        have e : a + (k + 1) * c.isize = a + c.isize + k * c.isize := by rw [Nat.succ_mul]; omega
        rw [e] at h2
        exact ⟨k, by omega, h2⟩

/-- The blocks from `a` on. -/
inductive BlocksFrom (c : Cfg) (d : Disk) (a : Nat) : Nat → Prop
  | here : BlocksFrom c d a a
  | next {b : Nat} : BlocksFrom c d a b → d (b + c.binsPerBlock * c.isize) ≠ 0 → BlocksFrom c d a (d (b + c.binsPerBlock * c.isize))

theorem blocks_first {c : Cfg} {d : Disk} {a b : Nat} (h : BlocksFrom c d a b) :
    b = a ∨ (d (a + c.binsPerBlock * c.isize) ≠ 0 ∧ BlocksFrom c d (d (a + c.binsPerBlock * c.isize)) b) := by
  induction h with
  | here => exact Or.inl rfl
  | next h h1 ih =>
    rcases ih with e | ⟨a, ih⟩
    · subst e; exact Or.inr ⟨h1, .here⟩
    · exact Or.inr ⟨a, .next ih h1⟩

theorem blocks_cons {c : Cfg} {d : Disk} {a b : Nat} (h0 : d (a + c.binsPerBlock * c.isize) ≠ 0) (h : BlocksFrom c d (d (a + c.binsPerBlock * c.isize)) b) : BlocksFrom c d a b := by
  induction h with
  | here => exact .next .here h0
  | next h h1 ih => exact .next ih h1

theorem blocks_iff {c : Cfg} {d : Disk} {b : Nat} : BlocksFrom c d c.firstBin b ↔ BlockIn c d b := by
  constructor
  · intro h
    induction h with
    | here => exact .first
    | next _ h ih => exact .next ih h
  · intro h
    induction h with
    | first => exact .here
    | next _ h ih => exact .next ih h

theorem filePaths_iff {c : Cfg} {d : Disk} {p : Bytes} : ∀ {fuel a : Nat} {ps : List Bytes}, filePaths c d fuel a = some ps →
    (p ∈ ps ↔ ∃ b, BlocksFrom c d a b ∧ p ∈ blockPaths c d c.binsPerBlock b) := by
  intro fuel
  induction fuel with
  | zero => intro a ps h; cases h
  | succ f ih =>
    intro a ps h
    unfold filePaths at h
    simp only at h
    split at h
    · next h0 =>
      injection h with h
      subst h
      constructor
      · intro h; exact ⟨a, .here, h⟩
      · rintro ⟨b, h1, h2⟩
        rcases blocks_first h1 with e | ⟨e, _⟩
        · rw [← e]; exact h2
        · exact absurd h0 e
    · next h0 =>
      obtain ⟨qs, h1, rfl⟩ := Option.map_eq_some_iff.mp h
      rw [List.mem_append, ih h1]
      constructor
      · rintro (h | ⟨b, h2, h3⟩)
        · exact ⟨a, .here, h⟩
        · exact ⟨b, blocks_cons h0 h2, h3⟩
      · rintro ⟨b, h2, h3⟩
        rcases blocks_first h2 with e | ⟨_, h2⟩
        · left; rw [← e]; exact h3
        · right; exact ⟨b, h2, h3⟩

theorem listed_iff {c : Cfg} {d : Disk} (hi : 0 < c.isize) {fuel : Nat} {ps : List Bytes} (h : filePaths c d fuel c.firstBin = some ps) (p : Bytes) : p ∈ ps ↔ Listed c d p := by
  rw [filePaths_iff h]
  constructor
  · rintro ⟨b, h1, h2⟩
    obtain ⟨k, h3, h4⟩ := (blockPaths_iff hi).mp h2
    obtain ⟨n, h5, h6, h7⟩ := (validPaths_iff hi).mp h4
    exact ⟨b + k * c.isize, n, ⟨b, k, blocks_iff.mp h1, h3, rfl⟩, h5, h6, h7⟩
  · rintro ⟨a, n, ⟨b, k, h1, h3, rfl⟩, h5, h6, h7⟩
    exact ⟨b, blocks_iff.mpr h1, (blockPaths_iff hi).mpr ⟨k, h3, (validPaths_iff hi).mpr ⟨n, h5, h6, h7⟩⟩⟩

/-- The bins of a chain from `a` on. -/
inductive ChainFrom (c : Cfg) (d : Disk) (a : Nat) : Nat → Prop
  | here : a ≠ 0 → ChainFrom c d a a
  | next {b : Nat} : ChainFrom c d a b → d (b + (c.isize - 1)) ≠ 0 → ChainFrom c d a (d (b + (c.isize - 1)))

theorem chain_first {c : Cfg} {d : Disk} {a b : Nat} (h : ChainFrom c d a b) : a ≠ 0 ∧ (b = a ∨ ChainFrom c d (d (a + (c.isize - 1))) b) := by
  induction h with
  | here h => exact ⟨h, Or.inl rfl⟩
  | next h h1 ih =>
    rcases ih with ⟨h0, e | ih⟩
    · subst e; exact ⟨h0, Or.inr (.here h1)⟩
    · exact ⟨h0, Or.inr (.next ih h1)⟩

theorem chainPaths_mem {c : Cfg} {d : Disk} (hi : 0 < c.isize) {p : Bytes} : ∀ {fuel a b : Nat} {ps : List Bytes}, chainPaths c d fuel a = some ps → ChainFrom c d a b →
    p ∈ validPaths c (fun i => d (b + i)) c.isize 0 → p ∈ ps := by
  intro fuel
  induction fuel with
  | zero => intro a b ps h; cases h
  | succ f ih =>
    intro a b ps h hb hp
    obtain ⟨h0, hb⟩ := chain_first hb
    unfold chainPaths at h
    rw [if_neg h0] at h
    obtain ⟨qs, h1, rfl⟩ := Option.map_eq_some_iff.mp h
    rcases hb with e | hb
    · subst e; exact List.mem_append_left _ hp
    · exact List.mem_append_right _ (ih h1 hb hp)

theorem chain_iff {c : Cfg} {d : Disk} {h b : Nat} (hb : BinOf c d h b) : ChainFrom c d (d (c.hashStart + h)) b := by
  induction hb with
  | first h => exact .here h
  | next _ h ih => exact .next ih h

theorem zcheckInfo_nonneg {s : Eng} {grid : Bytes → Int} (hg : ∀ p, 0 ≤ grid p) {p : Bytes} {info : Nat → Nat} {n : Int} (h : zcheckInfo s grid p info = some n) : 0 ≤ n := by
  unfold zcheckInfo at h
  split at h
  · injection h with h; omega
  have := hg p
  simp only at h
  split at h
  · split at h
    · cases h
    · injection h with h
      subst h
      have a1 : ∀ P : Prop, ∀ _ : Decidable P, (0 : Int) ≤ if P then 1 else 0 := by intro P _; split <;> omega
      have a2 : ∀ P : Prop, ∀ _ : Decidable P, (0 : Int) ≤ if P then grid p else 0 := by intro P _; split <;> omega
      refine Int.add_nonneg (Int.add_nonneg (Int.add_nonneg ?_ ?_) ?_) ?_ <;> first | exact a1 _ _ | exact a2 _ _
  · injection h with h
    subst h
    have a1 : ∀ P : Prop, ∀ _ : Decidable P, (0 : Int) ≤ if P then 1 else 0 := by intro P _; split <;> omega
    have a2 : ∀ P : Prop, ∀ _ : Decidable P, (0 : Int) ≤ if P then grid p else 0 := by intro P _; split <;> omega
    refine Int.add_nonneg (Int.add_nonneg ?_ ?_) ?_ <;> first | exact a1 _ _ | exact a2 _ _

theorem entryWrong_nonneg {c : Cfg} {s : Eng} {grid : Bytes → Int} (hg : ∀ p, 0 ≤ grid p) {p : Bytes} {n : Int} (h : entryWrong c s grid p = some n) : 0 ≤ n := by
  unfold entryWrong at h
  obtain ⟨r, _, h⟩ := Option.bind_eq_some_iff.mp h
  cases r with
  | none => injection h with h; omega
  | some a => exact zcheckInfo_nonneg hg h

theorem array_inside {fs a n : Nat} (h : arrayWrong fs a n = false) : InsideFile fs a n := by
  unfold arrayWrong at h
  simp only [Bool.or_eq_false_iff, decide_eq_false_iff_not] at h
  obtain ⟨⟨⟨h1, h2⟩, h3⟩, h4⟩ := h
  have e : ∀ w : Nat, ¬ signed64 w < 0 → w % 2 ^ 64 < 2 ^ 63 ∧ signed64 w = ((w % 2 ^ 64 : Nat) : Int) := by
    intro w h
    have hw := Nat.mod_lt w (show 0 < 2 ^ 64 by decide)
    unfold signed64 at h ⊢
    split at h
    · next hl => exact ⟨hl, if_pos hl⟩
    · omega
  obtain ⟨a1, a2⟩ := e a h1
  obtain ⟨n1, n2⟩ := e n h3
  rw [a2, n2] at h4
  refine ⟨a1, n1, ?_⟩
  have : (((n % 2 ^ 64 : Nat) : Int).tdiv 2) = ((n % 2 ^ 64 / 2 : Nat) : Int) := rfl
  omega

theorem info_sane {s : Eng} {grid : Bytes → Int} (hg : ∀ p, 0 ≤ grid p) {p : Bytes} {info : Nat → Nat} (h : zcheckInfo s grid p info = some 0) :
    info kinfoFlag = DSS_INFO_FLAG ∧ ∀ x ∈ ARRAYS, InsideFile s.hdr.fileSize (info x.1) (info x.2) := by
  unfold zcheckInfo at h
  split at h
  · cases h
  next hr =>
  have hr : infoWrong s.hdr.fileSize info = false := by simpa using hr
  unfold infoWrong at hr
  simp only [Bool.or_eq_false_iff, decide_eq_false_iff_not, Decidable.not_not] at hr
  refine ⟨by simp_all, ?_⟩
  intro x hx
  simp only [ARRAYS, List.mem_cons, List.not_mem_nil, or_false] at hx
  rcases hx with rfl | rfl | rfl | rfl | rfl | rfl <;> exact array_inside (by simp_all)

theorem entry_sane {c : Cfg} {s : Eng} {grid : Bytes → Int} (hg : ∀ p, 0 ≤ grid p) {p : Bytes} (h : entryWrong c s grid p = some 0) : Sane c s p := by
  unfold entryWrong at h
  obtain ⟨r, h1, h⟩ := Option.bind_eq_some_iff.mp h
  unfold zreadInfoBlock at h1
  obtain ⟨k, hk, h1⟩ := Option.map_eq_some_iff.mp h1
  cases r with
  | none => cases h
  | some a =>
    split at h1
    · next hf =>
      injection h1 with h1
      subst h1
      have := info_sane hg h
      exact ⟨k, hk, hf, this.1, this.2⟩
    · cases h1

theorem sane_found {c : Cfg} {s : Eng} {p : Bytes} (h : Sane c s p) : entryFound c s p = true := by
  obtain ⟨k, h1, h2, _⟩ := h
  unfold entryFound zreadInfoBlock
  rw [h1, Option.map_some, if_pos h2]

theorem bin_right {c : Cfg} {fs : Nat} {msg : Bool} {bin : Nat → Nat} : ∀ {fuel n m : Nat}, bin n ≠ 0 → n < c.isize → Behind c bin n m → m < n + fuel →
    binErrors c fs msg bin fuel n = 0 → binEntryErrors fs msg bin m = 0 := by
  intro fuel
  induction fuel with
  | zero =>
    intro n m h0 hn hb hlt
    have : n ≤ m := by
      clear hlt h0 hn
      induction hb with
      | here => exact Nat.le_refl _
      | next _ _ _ ih => omega
    omega
  | succ f ih =>
    intro n m h0 hn hb hlt h
    unfold binErrors at h
    rw [if_neg (by omega), if_neg h0] at h
    rcases behind_first hb with e | ⟨h1, h2, h3⟩
    · subst e; omega
    · exact ih h2 (by omega) h3 (by omega) (by omega)

theorem block_right {c : Cfg} {fs : Nat} {msg : Bool} {d : Disk} : ∀ {n a : Nat}, blockErrors c fs msg d n a = 0 → ∀ k, k < n →
    binErrors c fs msg (fun i => d (a + k * c.isize + i)) c.isize 0 = 0 := by
  intro n
  induction n with
  | zero => intro a _ k hk; omega
  | succ n ih =>
    intro a h k hk
    unfold blockErrors at h
    cases k with
    | zero => simp only [Nat.zero_mul, Nat.add_zero]; omega
    | succ k =>
      have e : a + (k + 1) * c.isize = a + c.isize + k * c.isize := by rw [Nat.succ_mul]; omega
      rw [e]
      exact ih (by omega) k (by omega)

theorem blocks_right {c : Cfg} {fs : Nat} {msg : Bool} {d : Disk} {b : Nat} : ∀ {fuel a : Nat}, binsErrors c fs msg d fuel a = some 0 → BlocksFrom c d a b →
    blockErrors c fs msg d c.binsPerBlock b = 0 := by
  intro fuel
  induction fuel with
  | zero => intro a h; cases h
  | succ f ih =>
    intro a h hb
    unfold binsErrors at h
    simp only at h
    split at h
    · next h0 =>
      injection h with h
      rcases blocks_first hb with e | ⟨e, _⟩
      · rw [e]; exact h
      · exact absurd h0 e
    · obtain ⟨q, h1, h2⟩ := Option.map_eq_some_iff.mp h
      rcases blocks_first hb with e | ⟨_, hb⟩
      · rw [e]; omega
      · have : q = 0 := by omega
        subst this
        exact ih h1 hb

/-- The errors of an entry that do not depend on the messages. -/
theorem entry_status {fs : Nat} {msg : Bool} {bin : Nat → Nat} {n : Nat} (h : binEntryErrors fs msg bin n = 0) :
    (1 ≤ signed64 (bin (n + 1)) ∧ signed64 (bin (n + 1)) ≤ 15) ∧ (msg = true → 1 ≤ signed64 (bin (n + 3)) ∧ signed64 (bin (n + 3)) ≤ fs) := by
  unfold binEntryErrors at h
  simp only at h
  refine ⟨?_, ?_⟩
  · by_cases hc : signed64 (bin (n + 1)) < 1 ∨ signed64 (bin (n + 1)) > 15
    · rw [if_pos hc] at h; omega
    · omega
  · intro hm
    subst hm
    by_cases hc : signed64 (bin (n + 3)) < 1 ∨ signed64 (bin (n + 3)) > fs
    · have e : (decide (signed64 (bin (n + 3)) < 1) || decide (signed64 (bin (n + 3)) > (fs : Int))) = true := by simpa using hc
      rw [e] at h
      simp only [Bool.true_and, if_true] at h
      omega
    · omega

/-- C73.  Whatever the words of a file are: if the check finds nothing, then
every record that is listed in the bins, and every one that is in the bins of the hash table, is found by its pathname, has an
info block, and has its arrays within the file; the number of records in the header is the number of those listed; and whatever
looks like a record in the file can be found by its pathname at this place. -/
theorem C73_passed {c : Cfg} (hi : 0 < c.isize) {s : Eng} {grid : Bytes → Int} (hg : ∀ p, 0 ≤ grid p) {msg : Bool} (h : zcheckFile c s grid msg = some 0) :
    (∀ p, Listed c s.disk p → Sane c s p) ∧
    (∀ hash a n, hash < c.maxHash → BinOf c s.disk hash a → EntryIn c (fun i => s.disk (a + i)) n → LiveEntry (fun i => s.disk (a + i)) n →
      Sane c s (nameIn (fun i => s.disk (a + i)) n)) ∧
    (∃ L : List Bytes, (∀ p, p ∈ L ↔ Listed c s.disk p) ∧ L.length = s.hdr.numberRecords) ∧
    (∀ x, x < s.hdr.fileSize → s.disk x = DSS_INFO_FLAG → 0 < s.disk (x + 2) → s.disk (x + 2) < 393 → s.disk (x + 1) ≤ 1 →
      ∃ k, zcheck c s (unpackBytes (fun j => s.disk (x + kinfoPathname + j)) (s.disk (x + 2))) REC_STATUS_VALID = some k ∧ k.found = true ∧ k.infoAdd = x) ∧
    (∀ a n, BinIn c s.disk a → EntryIn c (fun i => s.disk (a + i)) n →
      (1 ≤ signed64 (s.disk (a + (n + 1))) ∧ signed64 (s.disk (a + (n + 1))) ≤ 15) ∧
      (msg = true → 1 ≤ signed64 (s.disk (a + (n + 3))) ∧ signed64 (s.disk (a + (n + 3))) ≤ s.hdr.fileSize)) := by
  unfold zcheckFile at h
  obtain ⟨n1, h1, h⟩ := Option.bind_eq_some_iff.mp h
  split at h
  · next h0 => injection h with h; exact absurd h h0
  next e1 =>
  obtain ⟨n2, h2, h⟩ := Option.bind_eq_some_iff.mp h
  split at h
  · next h0 => injection h with h; exact absurd h h0
  next e2 =>
  obtain ⟨n3, h3, h⟩ := Option.bind_eq_some_iff.mp h
  split at h
  · next h0 => injection h with h; exact absurd h h0
  next e3 =>
  have e1 : n1 = 0 := Decidable.not_not.mp e1
  have e2 : n2 = 0 := Decidable.not_not.mp e2
  subst e1; subst e2
  unfold zcheckPathnames at h2
  obtain ⟨ps, hps, h2⟩ := Option.bind_eq_some_iff.mp h2
  obtain ⟨n, hn, h2⟩ := Option.map_eq_some_iff.mp h2
  have hn0 : n = 0 := by
    split at h2
    · next e => exact e
    · exact h2
  subst hn0
  rw [if_pos rfl] at h2
  have hall := sum_zero (fun a n => entryWrong_nonneg hg) hn
  have hsane : ∀ p ∈ ps, Sane c s p := fun p hp => entry_sane hg (hall p hp)
  have hl := listed_iff hi hps
  refine ⟨fun p hp => hsane p ((hl p).mpr hp), ?_, ⟨ps, hl, ?_⟩, ?_, ?_⟩
  · intro hash a n hh ha hne hlv
    unfold zcheckHashTable at h
    have hnn : ∀ (h : Nat) (n : Int), ((chainPaths c s.disk (s.hdr.totalBins + 2) (s.disk (c.hashStart + h))).bind (sumErrors (entryWrong c s grid))) = some n → 0 ≤ n := by
      intro h n hn
      obtain ⟨qs, _, hn⟩ := Option.bind_eq_some_iff.mp hn
      exact sum_nonneg (fun a n => entryWrong_nonneg hg) hn
    have := sum_zero hnn h hash (List.mem_range.mpr hh)
    obtain ⟨qs, hq, hz⟩ := Option.bind_eq_some_iff.mp this
    exact entry_sane hg (sum_zero (fun a n => entryWrong_nonneg hg) hz _ (chainPaths_mem hi hq (chain_iff ha) ((validPaths_iff hi).mpr ⟨n, hne, hlv, rfl⟩)))
  · have hc : ps.countP (entryFound c s) = ps.length := List.countP_eq_length.mpr fun p hp => sane_found (hsane p hp)
    rw [hc] at h2
    omega
  · intro x hx hf hpos hlen hst
    have hz := sum_zero (fun a n hn => by
      unfold linkWrong at hn
      split at hn
      · split at hn
        · cases hn
        · split at hn
          · obtain ⟨r, _, hn⟩ := Option.map_eq_some_iff.mp hn
            split at hn <;> omega
          · injection hn with hn; omega
      · injection hn with hn; omega) h1 x (List.mem_range.mpr hx)
    unfold linkWrong at hz
    rw [if_pos hf] at hz
    split at hz
    · cases hz
    have hs : signed64 (s.disk (x + 2)) = (s.disk (x + 2) : Int) := by
      unfold signed64
      rw [Nat.mod_eq_of_lt (by omega), if_pos (by omega)]
    rw [if_pos (by rw [hs]; omega)] at hz
    obtain ⟨r, hr, hz⟩ := Option.map_eq_some_iff.mp hz
    have hr2 : r = some x := by
      by_cases e : r = some x
      · exact e
      · rw [if_neg e] at hz; omega
    subst hr2
    unfold zreadInfoBlock at hr
    obtain ⟨k, hk, hr⟩ := Option.map_eq_some_iff.mp hr
    split at hr
    · next hfd =>
      injection hr with hr
      exact ⟨k, hk, hfd, hr⟩
    · cases hr
  · rintro a n ⟨b, k, hb, hk, rfl⟩ hne
    unfold zcheckPathnameBins at h3
    obtain ⟨q, h4, h5⟩ := Option.map_eq_some_iff.mp h3
    have e3 : n3 = 0 := Decidable.not_not.mp e3
    have : q = 0 := by omega
    subst this
    have hz := block_right (blocks_right h4 (blocks_iff.mpr hb)) k hk
    obtain ⟨z1, z2⟩ := behind_zero hne
    have hlt := entry_lt hi hne
    exact entry_status (bin := fun i => s.disk (b + k * c.isize + i)) (n := n) (bin_right (bin := fun i => s.disk (b + k * c.isize + i)) (n := 0) (m := n) (fuel := c.isize) z1 hi z2 (by omega) hz)

/-! ### Cases -/

/-- The file of `checked` passes, so it has all this. -/
example : ∃ s, Reachable tiny.1 tiny.2 checked s ∧ (∀ p, Listed tiny.1 s.disk p → Sane tiny.1 s p) := by
  obtain ⟨s, h1, h2, _⟩ := checked_passes
  exact ⟨s, h1, (C73_passed (by decide) (fun _ => Int.le_refl 0) h2).1⟩

end Hec
