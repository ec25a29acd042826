import Verif.Model.Intervals
/-!
C13, C14: standard intervals by name and by length.
-/
namespace Hec

/-- Letter case ignored. -/
def upper (s : Bytes) : Bytes := s.map toupper

theorem zstringCompare_iff : ∀ (a b : Bytes) (n : Nat), n ≤ a.length → n ≤ b.length →
    (zstringCompare a b n = true ↔ (upper a).take n = (upper b).take n) := by
  intro a
  induction a with
  | nil =>
    intro b n h _
    have : n = 0 := by simpa using h
    subst this
    simp [zstringCompare]
  | cons x a ih =>
    intro b n h1 h2
    cases n with
    | zero => simp [zstringCompare]
    | succ n =>
      cases b with
      | nil => simp at h2
      | cons y b =>
        simp only [zstringCompare, upper, List.map_cons, List.take_succ_cons, List.cons.injEq]
        by_cases c : toupper x = toupper y
        · simp only [c, ne_eq, not_true_eq_false, if_false, true_and]
          exact ih b n (by simpa using h1) (by simpa using h2)
        · simp [c]

/-- An E part and an interval name agree: ignoring case, one is the beginning of the other. -/
def Agree (e name : Bytes) : Prop := upper e <+: upper name ∨ upper name <+: upper e

theorem ePartMatches_iff (e name : Bytes) : ePartMatches e name = true ↔ Agree e name := by
  unfold ePartMatches Agree
  rw [zstringCompare_iff e name _ (by omega) (by omega)]
  have l1 : (upper e).length = e.length := by simp [upper]
  have l2 : (upper name).length = name.length := by simp [upper]
  rcases Nat.le_total e.length name.length with h | h
  · rw [Nat.min_eq_left h, List.take_of_length_le (l := upper e) (by omega)]
    constructor
    · intro hh; left; rw [hh]; exact List.take_prefix _ _
    · rintro (hh | hh)
      · rw [← l1]; exact List.prefix_iff_eq_take.1 hh
      · have le := hh.length_le
        have e1 := hh.eq_of_length (by omega)
        rw [e1, List.take_of_length_le (by omega)]
  · rw [Nat.min_eq_right h, List.take_of_length_le (l := upper name) (by omega)]
    constructor
    · intro hh; right; rw [← hh]; exact List.take_prefix _ _
    · rintro (hh | hh)
      · have le := hh.length_le
        have e1 := hh.eq_of_length (by omega)
        rw [← e1, List.take_of_length_le (by omega)]
      · rw [← l2]; exact (List.prefix_iff_eq_take.1 hh).symm

/-- C13. In either version, every standard interval has a name that is found from its length and
converts back to that length, with status 0 for regular and 1 for irregular intervals. -/
theorem C13_roundtrip (version : Int) : ∀ x ∈ intervalTable version,
    secondsToEPart version x.2 = some x.1 ∧
    ePartToSeconds version x.1 = some (if x.2 > 0 then 0 else 1, x.2, x.1) := by
  unfold intervalTable secondsToEPart ePartToSeconds intervalTable pseudoBlock
  by_cases h : version = 6
  · simp only [h, if_true]; decide +kernel
  · simp only [h, if_false]; decide +kernel

/-- C13. The lengths are strictly decreasing (hence distinct), the regular ones positive, and the
names pairwise different even ignoring case. -/
theorem C13_distinct (version : Int) :
    ((intervalTable version).filter (fun x => x.2 > 0)).Pairwise (fun x y => y.2 < x.2) ∧
    (intervalTable version).Pairwise (fun x y => x.2 ≠ y.2 ∧ upper x.1 ≠ upper y.1) ∧
    (∀ x ∈ intervalTable version, 0 < x.2 ∨ (-5 ≤ x.2 ∧ x.2 ≤ -1)) := by
  unfold intervalTable
  by_cases h : version = 6
  · simp only [h, if_true]; decide +kernel
  · simp only [h, if_false]; decide +kernel

/-- C13. The two versions agree: a version 7 name with a regular interval of a minute or more, and any irregular name, means
the same in a version 6 file, and the other way round. -/
theorem C13_versions :
    (∀ x ∈ intervals7, (60 ≤ x.2 ∨ x.2 < 0) → (ePartToSeconds 6 x.1).map (·.2.1) = some x.2) ∧
    (∀ x ∈ intervals6, (ePartToSeconds 7 x.1).map (·.2.1) = some x.2) := by
  constructor <;> decide +kernel

/-- C13. Enumerating the intervals visits each exactly once and ends. -/
theorem C13_enumeration (version : Int) (n : Nat) (hn : 39 ≤ n) :
    enumerateFrom version n (beginEnumeration version) = intervalTable version := by
  have step : ∀ (m k : Nat) (o : Option (Bytes × Int)), enumerateFrom version m o = intervalTable version →
      (intervalTable version).length < m → enumerateFrom version (m + k) o = intervalTable version := by
    have gen : ∀ (m k : Nat) (o : Option (Bytes × Int)), (enumerateFrom version m o).length < m →
        enumerateFrom version (m + k) o = enumerateFrom version m o := by
      intro m
      induction m with
      | zero => intro k o h; omega
      | succ m ih =>
        intro k o h
        cases o with
        | none => rw [Nat.succ_add]; rfl
        | some x =>
          rw [Nat.succ_add]
          simp only [enumerateFrom, List.length_cons] at h ⊢
          rw [ih k _ (by omega)]
    intro m k o h h'
    rw [gen m k o (by rw [h]; exact h'), h]
  by_cases h : version = 6
  · subst h
    have := step 39 (n - 39) (beginEnumeration 6) (by decide +kernel) (by decide +kernel)
    rwa [show 39 + (n - 39) = n by omega] at this
  · have hv : ∀ o m, enumerateFrom version m o = enumerateFrom 7 m o := by
      intro o m
      induction m generalizing o with
      | zero => rfl
      | succ m ih =>
        cases o with
        | none => rfl
        | some x =>
          simp only [enumerateFrom]
          rw [ih]
          simp [continueEnumeration, intervalTable, h]
    have hb : beginEnumeration version = beginEnumeration 7 := by simp [beginEnumeration, intervalTable, h]
    have ht : intervalTable version = intervalTable 7 := by simp [intervalTable, h]
    have := step 40 (n - 40) (beginEnumeration 7)
    rw [ht, hb, hv]
    rcases Nat.eq_or_lt_of_le hn with h39 | h40
    · rw [← h39]; decide +kernel
    · have t := step 40 (n - 40) (beginEnumeration 7) (by rw [hv, ht]; decide +kernel) (by rw [ht]; decide +kernel)
      rw [show 40 + (n - 40) = n by omega, hv, ht] at t
      exact t

/-- C14. The result depends only on the letters regardless of case. -/
theorem C14_ignores_case (version : Int) (e e' : Bytes) (h : upper e = upper e') :
    ePartToSeconds version e = ePartToSeconds version e' := by
  have key : ∀ a b : Bytes, upper a = upper b →
      (intervalTable version).find? (fun x => ePartMatches a x.1) =
      (intervalTable version).find? (fun x => ePartMatches b x.1) := by
    intro a b hab
    congr 1
    funext x
    apply Bool.eq_iff_iff.2
    rw [ePartMatches_iff, ePartMatches_iff]
    unfold Agree
    rw [hab]
  have tilde : ∀ a b : UInt8, toupper a = toupper b → (a = 126 ↔ b = 126) := by
    intro a b hab
    have t : ∀ c : UInt8, toupper c = 126 ↔ c = 126 := by
      intro c
      unfold toupper
      split
      · rename_i hc
        constructor
        · intro h2
          have h3 : c = 126 + 32 := by rw [← h2]; simp
          subst h3
          exact absurd hc (by decide)
        · intro h2; subst h2; exact absurd hc (by decide)
      · exact Iff.rfl
    rw [← t a, ← t b, hab]
  unfold ePartToSeconds
  cases e with
  | nil =>
    cases e' with
    | nil => rfl
    | cons y ys => simp [upper] at h
  | cons x xs =>
    cases e' with
    | nil => simp [upper] at h
    | cons y ys =>
      have h0 : toupper x = toupper y ∧ upper xs = upper ys := by simpa [upper] using h
      have ht := tilde x y h0.1
      by_cases hx : x = 126
      · have hy := ht.1 hx
        subst hx; subst hy
        simp only [List.head?_cons, beq_self_eq_true, if_true, List.tail_cons]
        rw [key xs ys h0.2]
      · have hy : ¬ y = 126 := fun hh => hx (ht.2 hh)
        have ex : ((some x : Option UInt8) == some 126) = false := by simpa using hx
        have ey : ((some y : Option UInt8) == some 126) = false := by simpa using hy
        simp only [List.head?_cons, ex, ey, Bool.false_eq_true, if_false]
        rw [key (x :: xs) (y :: ys) h]

example : upper (str "1hOUR") = upper (str "1Hour") ∧
    ePartToSeconds 7 (str "1hOUR") = some (0, 3600, str "1Hour") := by decide +kernel

/-- Which interval an E part without `~` means: the first of the table it agrees with; nothing only
when it agrees with none. -/
theorem C14_lookup (version : Int) (e : Bytes) (h0 : e.head? ≠ some 126) :
    (∀ r, ePartToSeconds version e = some r ↔
      ∃ before x after, intervalTable version = before ++ x :: after ∧ Agree e x.1 ∧
        (∀ y ∈ before, ¬ Agree e y.1) ∧ r = (if x.2 > 0 then 0 else 1, x.2, x.1)) ∧
    (ePartToSeconds version e = none ↔ ∀ x ∈ intervalTable version, ¬ Agree e x.1) := by
  have hp : (e.head? == some 126) = false := by
    cases hh : e.head? == some 126 with
    | false => rfl
    | true => exact absurd (beq_iff_eq.1 hh) h0
  have hu : ePartToSeconds version e =
      ((intervalTable version).find? (fun x => ePartMatches e x.1)).map
        (fun x => (if x.2 > 0 then 0 else 1, x.2, x.1)) := by
    unfold ePartToSeconds
    simp only [hp, Bool.false_eq_true, if_false]
    cases (intervalTable version).find? (fun x => ePartMatches e x.1) <;> rfl
  constructor
  · intro r
    rw [hu, Option.map_eq_some_iff]
    constructor
    · rintro ⟨x, hx, rfl⟩
      obtain ⟨hm, as, bs, he, hall⟩ := List.find?_eq_some_iff_append.1 hx
      refine ⟨as, x, bs, he, (ePartMatches_iff _ _).1 hm, ?_, rfl⟩
      intro y hy ha
      have := hall y hy
      rw [(ePartMatches_iff _ _).2 ha] at this
      simp at this
    · rintro ⟨as, x, bs, he, ha, hall, rfl⟩
      refine ⟨x, List.find?_eq_some_iff_append.2 ⟨(ePartMatches_iff _ _).2 ha, as, bs, he, ?_⟩, rfl⟩
      intro y hy
      have := hall y hy
      rw [← ePartMatches_iff] at this
      simpa using this
  · rw [hu, Option.map_eq_none_iff, List.find?_eq_none]
    constructor
    · intro h x hx ha
      exact h x hx ((ePartMatches_iff _ _).2 ha)
    · intro h x hx ha
      exact h x hx ((ePartMatches_iff _ _).1 ha)

/-- No name of a table is, ignoring case, the beginning of another one. -/
theorem names_disagree (version : Int) :
    (intervalTable version).Pairwise (fun x y => ¬ Agree y.1 x.1) := by
  have : (intervalTable version).Pairwise (fun x y => ePartMatches y.1 x.1 = false) := by
    unfold intervalTable
    by_cases h : version = 6
    · simp only [h, if_true]; decide +kernel
    · simp only [h, if_false]; decide +kernel
  refine this.imp ?_
  intro x y h ha
  rw [(ePartMatches_iff _ _).2 ha] at h
  simp at h

theorem agree_append {a b w : Bytes} (h : ¬ Agree a b) : ¬ Agree (a ++ w) b := by
  intro hh
  apply h
  unfold Agree upper at *
  rw [List.map_append] at hh
  rcases hh with hh | hh
  · left
    exact (List.prefix_append _ _).trans hh
  · rcases List.prefix_or_prefix_of_prefix hh (List.prefix_append (a.map toupper) (w.map toupper)) with h1 | h1
    · exact Or.inr h1
    · exact Or.inl h1

/-- C14. A full interval name in any letter case, whatever follows it, is never mistaken for another
interval. -/
theorem C14_full_name (version : Int) (x : Bytes × Int) (hx : x ∈ intervalTable version)
    (name rest : Bytes) (hn : upper name = upper x.1) :
    ePartToSeconds version (name ++ rest) = some (if x.2 > 0 then 0 else 1, x.2, x.1) := by
  have hne : ∀ y ∈ intervalTable version, y.1 ≠ [] ∧ y.1.head? ≠ some 126 := by
    unfold intervalTable
    by_cases h : version = 6
    · simp only [h, if_true]; decide +kernel
    · simp only [h, if_false]; decide +kernel
  have hc : ePartToSeconds version (name ++ rest) = ePartToSeconds version (x.1 ++ rest) :=
    C14_ignores_case version _ _ (by
      unfold upper at *
      rw [List.map_append, List.map_append, hn])
  rw [hc]
  have h0 : (x.1 ++ rest).head? ≠ some 126 := by
    obtain ⟨a, b⟩ := hne x hx
    cases hx1 : x.1 with
    | nil => exact absurd hx1 a
    | cons c cs => rw [hx1] at b; simpa using b
  obtain ⟨as, bs, hab⟩ := List.append_of_mem hx
  refine ((C14_lookup version _ h0).1 _).2 ⟨as, x, bs, hab, ?_, ?_, rfl⟩
  · right
    unfold upper
    rw [List.map_append]
    exact List.prefix_append _ _
  · intro y hy
    apply agree_append
    have hp := names_disagree version
    rw [hab] at hp
    exact (List.pairwise_append.1 hp).2.2 y hy x (by simp)

example : (str "15Minute", (900 : Int)) ∈ intervalTable 7 ∧ upper (str "15MINUTE") = upper (str "15Minute") ∧
    ePartToSeconds 7 (str "15MINUTE" ++ str "S") = some (0, 900, str "15Minute") := by decide +kernel

/-- C14. A pseudo regular name (`~` and the name) is irregular, with a block size that does not
shrink when the interval grows. -/
theorem C14_pseudo (version : Int) (x y : Bytes × Int) (hx : x ∈ intervalTable version) :
    (∃ b, ePartToSeconds version (126 :: x.1) = some (1, -b, x.1) ∧ 1 ≤ b ∧ b ≤ 5) ∧
    (x.2 ≤ y.2 → pseudoBlock version y.2 ≤ pseudoBlock version x.2) := by
  constructor
  · have : ∀ x ∈ intervalTable version,
        ePartToSeconds version (126 :: x.1) = some (1, pseudoBlock version x.2, x.1) := by
      unfold ePartToSeconds intervalTable pseudoBlock
      by_cases h : version = 6
      · simp only [h, if_true]; decide +kernel
      · simp only [h, if_false]; decide +kernel
    refine ⟨- pseudoBlock version x.2, by rw [this x hx]; simp, ?_⟩
    unfold pseudoBlock
    repeat' split
    all_goals omega
  · intro h
    unfold pseudoBlock
    by_cases hv : version = 6 <;> simp only [hv, if_true, if_false] <;> (repeat' split) <;> omega

/-- Days of the shortest and of the longest block of each size (day, month, year, decade, century). -/
def blockDays : Int → Int × Int
  | 1 => (1, 1) | 2 => (28, 31) | 3 => (365, 366) | 4 => (3652, 3653) | _ => (36524, 36525)

/-- C14. The block size of a pseudo regular interval of a minute or more suits the interval: a block
filled at that interval holds at most 1488 values, and at least 72 (56 in version 6 files). -/
theorem C14_pseudo_block (version : Int) (x : Bytes × Int) (hx : x ∈ intervalTable version) (h : 60 ≤ x.2) :
    ∃ b, ePartToSeconds version (126 :: x.1) = some (1, -b, x.1) ∧
      (blockDays b).2 * 86400 ≤ 1488 * x.2 ∧ (if version = 6 then 56 else 72) * x.2 ≤ (blockDays b).1 * 86400 := by
  have key : ∀ x ∈ intervalTable version, 60 ≤ x.2 →
      ePartToSeconds version (126 :: x.1) = some (1, - - pseudoBlock version x.2, x.1) ∧
      (blockDays (- pseudoBlock version x.2)).2 * 86400 ≤ 1488 * x.2 ∧
      (if version = 6 then 56 else 72) * x.2 ≤ (blockDays (- pseudoBlock version x.2)).1 * 86400 := by
    unfold ePartToSeconds intervalTable pseudoBlock
    by_cases h : version = 6
    · simp only [h, if_true]; decide +kernel
    · simp only [h, if_false]; decide +kernel
  exact ⟨_, key x hx h⟩

example : (str "30Minute", (1800 : Int)) ∈ intervalTable 7 ∧
    ePartToSeconds 7 (126 :: str "30Minute") = some (1, -2, str "30Minute") := by decide +kernel

/-- Outside the statement: abbreviations go to the first interval in the table, an E part that is
empty is taken for yearly data, and irregular names behind `~` all get blocks of a day. -/
theorem C14_abbreviation_violation :
    ePartToSeconds 7 [] = some (0, 31536000, str "1Year") ∧
    ePartToSeconds 7 (str "1") = some (0, 31536000, str "1Year") ∧
    ePartToSeconds 7 (str "1M") = some (0, 2592000, str "1Month") ∧
    ePartToSeconds 7 (str "~IR-Century") = some (1, -1, str "IR-Century") := by decide +kernel

end Hec
