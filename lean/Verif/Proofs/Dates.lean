import Verif.Model.Dates
/-! Lemmas about the text of dates (C45). -/
namespace Hec

/-! ### Decimal numbers -/

theorem digitsRev_val : ∀ (f n : Nat), n < 10 ^ f →
    (digitsRev f n).foldr (fun d a => a * 10 + d) 0 = n := by
  intro f
  induction f with
  | zero => intro n h; simp [digitsRev] at *; omega
  | succ f ih =>
    intro n h
    unfold digitsRev
    by_cases hn : n < 10
    · rw [if_pos hn]; simp
    · rw [if_neg hn]
      have := ih (n / 10) (by rw [Nat.pow_succ] at h; omega)
      simp only [List.foldr_cons, this]
      omega

theorem digitsRev_lt : ∀ (f n : Nat), ∀ d ∈ digitsRev f n, d < 10 := by
  intro f
  induction f with
  | zero => intro n d h; simp [digitsRev] at h
  | succ f ih =>
    intro n d h
    unfold digitsRev at h
    by_cases hn : n < 10
    · rw [if_pos hn] at h; simp at h; omega
    · rw [if_neg hn] at h
      rcases List.mem_cons.mp h with h | h
      · omega
      · exact ih _ _ h

theorem digitsRev_length : ∀ (f n k : Nat), 1 ≤ k → n < 10 ^ k → (digitsRev f n).length ≤ k := by
  intro f
  induction f with
  | zero => intro n k _ _; simp [digitsRev]
  | succ f ih =>
    intro n k hk h
    unfold digitsRev
    by_cases hn : n < 10
    · rw [if_pos hn]; simpa using hk
    · rw [if_neg hn]
      obtain ⟨k, rfl⟩ : ∃ j, k = j + 1 := ⟨k - 1, by omega⟩
      rw [Nat.pow_succ] at h
      have hk' : 1 ≤ k := by
        rcases k with _ | k
        · simp at h; omega
        · omega
      have := ih (n / 10) k hk' (by omega)
      simp; omega

theorem digitsRev_pos (f n : Nat) : 1 ≤ (digitsRev (f + 1) n).length := by
  unfold digitsRev
  split <;> simp

theorem digitChar_isDigit (d : Nat) (h : d < 10) : isDigit (digitChar d) = true := by
  have : ∀ d : Fin 10, isDigit (digitChar d) = true := by decide
  exact this ⟨d, h⟩

theorem digitChar_val (d : Nat) (h : d < 10) : (digitChar d).toNat - 48 = d := by
  have : ∀ d : Fin 10, (digitChar d).toNat - 48 = d := by decide
  exact this ⟨d, h⟩

/-- All characters are digits. -/
def AllDigits (b : Bytes) : Prop := ∀ c ∈ b, isDigit c = true

theorem decimal_digits (n : Nat) : AllDigits (decimal n) := by
  intro c h
  unfold decimal at h
  rw [List.mem_reverse, List.mem_map] at h
  obtain ⟨d, hd, rfl⟩ := h
  exact digitChar_isDigit d (digitsRev_lt _ _ d hd)

theorem decimal_length (n k : Nat) (hk : 1 ≤ k) (h : n < 10 ^ k) : (decimal n).length ≤ k := by
  unfold decimal
  rw [List.length_reverse, List.length_map]
  exact digitsRev_length _ _ _ hk h

theorem decimal_pos (n : Nat) : 1 ≤ (decimal n).length := by
  unfold decimal
  rw [List.length_reverse, List.length_map]
  exact digitsRev_pos _ _

theorem digitsValue_reverse (l : List Nat) (h : ∀ d ∈ l, d < 10) :
    digitsValue (l.map digitChar).reverse = l.foldr (fun d a => a * 10 + d) 0 := by
  unfold digitsValue
  rw [List.foldl_reverse]
  induction l with
  | nil => rfl
  | cons d ds ih =>
    simp only [List.map_cons, List.foldr_cons]
    rw [ih (fun x hx => h x (List.mem_cons_of_mem _ hx)), digitChar_val d (h d (List.mem_cons_self ..))]

theorem decimal_value (n : Nat) (h : n < 10 ^ 10) : digitsValue (decimal n) = n := by
  unfold decimal
  rw [digitsValue_reverse _ (digitsRev_lt _ _), digitsRev_val _ _ h]

theorem zeroPad_digits (w : Nat) (b : Bytes) (h : AllDigits b) : AllDigits (zeroPad w b) := by
  intro c hc
  unfold zeroPad at hc
  rcases List.mem_append.mp hc with hc | hc
  · rw [List.mem_replicate] at hc
    rw [hc.2]; decide
  · exact h c hc

theorem zeroPad_value (w : Nat) (b : Bytes) : digitsValue (zeroPad w b) = digitsValue b := by
  unfold zeroPad digitsValue
  rw [List.foldl_append]
  congr 1
  generalize w - b.length = k
  induction k with
  | zero => rfl
  | succ k ih => rw [List.replicate_succ, List.foldl_cons]; exact ih

theorem zeroPad_length (w : Nat) (b : Bytes) (h : b.length ≤ w) : (zeroPad w b).length = w := by
  unfold zeroPad
  rw [List.length_append, List.length_replicate]; omega

/-- `Y` is a decimal spelling of the year `y`. -/
def YearStr (Y : Bytes) (y : Int) : Prop :=
  ∃ ds : Bytes, ds ≠ [] ∧ AllDigits ds ∧ Y.length ≤ 9 ∧
    ((Y = ds ∧ y = (digitsValue ds : Int)) ∨ (Y = 45 :: ds ∧ y = -(digitsValue ds : Int) ∧ y < 0))

theorem ne_nil_of_length {b : Bytes} (h : 1 ≤ b.length) : b ≠ [] := by
  intro e; rw [e] at h; simp at h

theorem intTo4char_year (y : Int) (h1 : -1000 < y) (h2 : y < 10000) :
    (intTo4char y).length = 4 ∧ YearStr (intTo4char y) y := by
  unfold intTo4char formatZeros
  by_cases hn : y < 0
  · rw [if_pos hn]
    have hl : (zeroPad 3 (decimal y.natAbs)).length = 3 :=
      zeroPad_length _ _ (decimal_length _ 3 (by omega) (by show _ < 1000; omega))
    have ht : (45 :: zeroPad (4 - 1) (decimal y.natAbs)).take 4 = 45 :: zeroPad 3 (decimal y.natAbs) := by
      apply List.take_of_length_le
      simp [hl]
    rw [ht]
    refine ⟨by simp [hl], zeroPad 3 (decimal y.natAbs), ne_nil_of_length (by omega),
      zeroPad_digits _ _ (decimal_digits _), by simp [hl], Or.inr ⟨rfl, ?_, hn⟩⟩
    rw [zeroPad_value, decimal_value _ (by show _ < 10000000000; omega)]
    omega
  · rw [if_neg hn]
    have hl : (zeroPad 4 (decimal y.natAbs)).length = 4 :=
      zeroPad_length _ _ (decimal_length _ 4 (by omega) (by show _ < 10000; omega))
    have ht : (zeroPad 4 (decimal y.natAbs)).take 4 = zeroPad 4 (decimal y.natAbs) := by
      apply List.take_of_length_le
      simp [hl]
    rw [ht]
    refine ⟨hl, zeroPad 4 (decimal y.natAbs), ne_nil_of_length (by omega),
      zeroPad_digits _ _ (decimal_digits _), by omega, Or.inl ⟨rfl, ?_⟩⟩
    rw [zeroPad_value, decimal_value _ (by show _ < 10000000000; omega)]
    omega

theorem formatInt_year (y : Int) (h1 : -100000000 < y) (h2 : y < 1000000000) :
    YearStr ((formatInt y).take 9) y := by
  unfold formatInt
  by_cases hn : y < 0
  · rw [if_pos hn]
    have hl := decimal_length y.natAbs 8 (by omega) (by show _ < 100000000; omega)
    rw [List.take_of_length_le (by simp; omega)]
    refine ⟨decimal y.natAbs, ne_nil_of_length (decimal_pos _), decimal_digits _, by simp; omega,
      Or.inr ⟨rfl, ?_, hn⟩⟩
    rw [decimal_value _ (by show _ < 10000000000; omega)]
    omega
  · rw [if_neg hn]
    have hl := decimal_length y.natAbs 9 (by omega) (by show _ < 1000000000; omega)
    rw [List.take_of_length_le (by omega)]
    refine ⟨decimal y.natAbs, ne_nil_of_length (decimal_pos _), decimal_digits _, hl,
      Or.inl ⟨rfl, ?_⟩⟩
    rw [decimal_value _ (by show _ < 10000000000; omega)]
    omega

/-! ### Characters -/

theorem forallByte (p : UInt8 → Prop) [DecidablePred p] (h : ∀ n : Fin 256, p (UInt8.ofNat n)) (c : UInt8) :
    p c := by
  have := h ⟨c.toNat, c.toNat_lt⟩
  simpa using this

theorem digit_facts (c : UInt8) (h : isDigit c = true) :
    c ≠ 45 ∧ c ≠ 47 ∧ c ≠ 43 ∧ c ≠ 32 ∧ ¬ (9 ≤ c ∧ c ≤ 13) ∧ toupper c = c := by
  have := forallByte (fun c => isDigit c = true →
    c ≠ 45 ∧ c ≠ 47 ∧ c ≠ 43 ∧ c ≠ 32 ∧ ¬ (9 ≤ c ∧ c ≤ 13) ∧ toupper c = c) (by decide +kernel) c
  exact this h

theorem upper_digits (b : Bytes) (h : AllDigits b) : upperText b = b := by
  unfold upperText
  conv => rhs; rw [← List.map_id b]
  apply List.map_congr_left
  intro c hc
  exact (digit_facts c (h c hc)).2.2.2.2.2

theorem YearStr.upper_eq {Y : Bytes} {y : Int} (h : YearStr Y y) : upperText Y = Y := by
  obtain ⟨ds, _, hd, _, h | h⟩ := h
  · rw [h.1]; exact upper_digits ds hd
  · rw [h.1]
    show toupper 45 :: upperText ds = _
    rw [upper_digits ds hd]; rfl

theorem takeWhile_all (p : UInt8 → Bool) (b : Bytes) (h : ∀ c ∈ b, p c = true) : b.takeWhile p = b := by
  induction b with
  | nil => rfl
  | cons c cs ih =>
    rw [List.takeWhile_cons, if_pos (h c (List.mem_cons_self ..)),
      ih (fun x hx => h x (List.mem_cons_of_mem _ hx))]

theorem dropWhile_head (p : UInt8 → Bool) (c : UInt8) (b : Bytes) (h : p c = false) :
    (c :: b).dropWhile p = c :: b := by
  rw [List.dropWhile_cons, if_neg (by simp [h])]

theorem atoi_digits (b : Bytes) (hb : b ≠ []) (h : AllDigits b) : atoi b = digitsValue b := by
  cases b with
  | nil => exact absurd rfl hb
  | cons c cs =>
    have hc := digit_facts c (h c (List.mem_cons_self ..))
    unfold atoi
    rw [dropWhile_head _ _ _ (by
      simp only [decide_eq_false_iff_not, not_or]
      exact ⟨hc.2.2.2.1, hc.2.2.2.2.1⟩)]
    simp only [List.head?_cons, Option.some.injEq, hc.1, hc.2.2.1, if_false]
    rw [takeWhile_all _ _ h]

theorem atoi_neg (b : Bytes) (h : AllDigits b) : atoi (45 :: b) = -(digitsValue b : Int) := by
  unfold atoi
  rw [dropWhile_head _ _ _ (by decide)]
  simp only [List.head?_cons, if_true, List.tail_cons]
  rw [takeWhile_all _ _ h]

theorem YearStr.atoi_eq {Y : Bytes} {y : Int} (h : YearStr Y y) : atoi Y = y := by
  obtain ⟨ds, hn, hd, _, h | h⟩ := h
  · rw [h.1, h.2]; exact atoi_digits ds hn hd
  · rw [h.1, h.2.1]; exact atoi_neg ds hd

/-! ### Searching -/

theorem findIdx?_append_none {p : UInt8 → Bool} {a b : Bytes} (h : ∀ c ∈ a, p c = false) :
    (a ++ b).findIdx? p = (b.findIdx? p).map (· + a.length) := by
  induction a with
  | nil => simp
  | cons c cs ih =>
    rw [List.cons_append, List.findIdx?_cons, if_neg (by simp [h c (List.mem_cons_self ..)]),
      ih (fun x hx => h x (List.mem_cons_of_mem _ hx))]
    cases b.findIdx? p <;> simp; omega

theorem findIdx?_none {p : UInt8 → Bool} {a : Bytes} (h : ∀ c ∈ a, p c = false) :
    a.findIdx? p = none := by
  have := findIdx?_append_none (b := []) h
  simpa using this

theorem strchr_append {a b : Bytes} {x : UInt8} (h : ∀ c ∈ a, c ≠ x) :
    strchr (a ++ x :: b) x = some a.length := by
  unfold strchr
  rw [findIdx?_append_none (by intro c hc; simpa using h c hc)]
  simp [List.findIdx?_cons]

theorem strchr_none {a : Bytes} {x : UInt8} (h : ∀ c ∈ a, c ≠ x) : strchr a x = none := by
  unfold strchr
  exact findIdx?_none (by intro c hc; simpa using h c hc)

/-- The last character that is no digit, when the text ends in digits. -/
theorem reverseNonNumeric_append (p : Bytes) (q : UInt8) (ds : Bytes) (hq : isDigit q = false)
    (h : AllDigits ds) : reverseNonNumeric (p ++ q :: ds) = some p.length := by
  unfold reverseNonNumeric
  rw [List.reverse_append, List.reverse_cons, List.append_assoc]
  rw [findIdx?_append_none (by intro c hc; simp [h c (List.mem_reverse.mp hc)])]
  simp [List.findIdx?_cons, hq]

theorem strrchr_append (p : Bytes) (q : UInt8) (ds : Bytes) (h : ∀ c ∈ ds, c ≠ q) :
    strrchr (p ++ q :: ds) q = some p.length := by
  unfold strrchr
  rw [List.reverse_append, List.reverse_cons, List.append_assoc]
  rw [findIdx?_append_none (a := ds.reverse)
    (by intro c hc; simpa using h c (List.mem_reverse.mp hc))]
  simp [List.findIdx?_cons]

/-! ### Character style dates -/

/-- The text before the year can be read: it has no slash or dash, does not end in a digit, its last
character passes the test of lines 212-221, and it gives day and month. -/
def PrefixOk (P : Bytes) (m d : Int) : Bool :=
  decide (3 ≤ P.length) && decide (P.length ≤ 20) && P.all (fun c => c != 45 && c != 47) &&
  (match P.getLast? with
    | some q => !isDigit q && (q == 32 || (decide (65 ≤ q) && decide (q < 128)))
    | none => false) && decide (dayAndMonth P = some (m, d))

theorem parseText_prefix {P Y : Bytes} {m d y : Int} (hP : PrefixOk P m d = true) (hY : YearStr Y y) :
    parseText (P ++ Y) = some (y, m, d) := by
  unfold PrefixOk at hP
  simp only [Bool.and_eq_true, decide_eq_true_eq] at hP
  obtain ⟨⟨⟨⟨h3, h20⟩, hall⟩, hlast⟩, hdm⟩ := hP
  obtain ⟨p, q, rfl⟩ : ∃ p q, P = p ++ [q] := by
    refine ⟨P.dropLast, P.getLast (ne_nil_of_length (by omega)), (List.dropLast_concat_getLast _).symm⟩
  rw [List.getLast?_append] at hlast
  simp only [List.getLast?_singleton, Option.some_or, Bool.and_eq_true, Bool.not_eq_true',
    Bool.or_eq_true, beq_iff_eq, decide_eq_true_eq] at hlast
  obtain ⟨hq, hq2⟩ := hlast
  have hq45 : q ≠ 45 := by
    rw [List.all_append] at hall
    simp at hall
    exact hall.2.1
  have hqf : ¬ (q ≠ 32 ∧ (q < 43 ∨ q ≥ 128 ∨ (57 < q ∧ q < 65))) := by
    have := forallByte (fun q => (q = 32 ∨ (65 ≤ q ∧ q < 128)) →
      ¬ (q ≠ 32 ∧ (q < 43 ∨ q ≥ 128 ∨ (57 < q ∧ q < 65)))) (by decide +kernel) q
    exact this hq2
  have hat := hY.atoi_eq
  -- the position of the last character before the year
  have hpos : ∃ r, reverseNonNumeric (p ++ [q] ++ Y) = some r ∧
      (if (p ++ [q] ++ Y).getD r 0 = 45 then r - 1 else r) = p.length := by
    obtain ⟨ds, hn, hd, hl, h | h⟩ := hY
    · refine ⟨p.length, ?_, ?_⟩
      · rw [List.append_assoc, h.1]
        exact reverseNonNumeric_append p q ds hq hd
      · rw [List.append_assoc, if_neg]
        rw [List.getD_eq_getElem?_getD, List.getElem?_append_right (Nat.le_refl _)]
        simpa using hq45
    · refine ⟨p.length + 1, ?_, ?_⟩
      · rw [h.1]
        have := reverseNonNumeric_append (p ++ [q]) 45 ds (by decide) hd
        rw [this]; simp
      · rw [if_pos]
        · omega
        · rw [h.1, List.getD_eq_getElem?_getD, List.getElem?_append_right (by simp)]
          simp
  obtain ⟨r, hr, hr2⟩ := hpos
  unfold parseText
  rw [hr]
  simp only
  rw [hr2]
  have hdrop : (p ++ [q] ++ Y).drop (p.length + 1) = Y := by
    have : p.length + 1 = (p ++ [q]).length := by simp
    rw [this]; exact List.drop_left
  have htake : (p ++ [q] ++ Y).take (p.length + 1) = p ++ [q] := by
    have : p.length + 1 = (p ++ [q]).length := by simp
    rw [this]; exact List.take_left
  have hget : (p ++ [q] ++ Y).getD p.length 0 = q := by
    rw [List.append_assoc, List.getD_eq_getElem?_getD, List.getElem?_append_right (Nat.le_refl _)]
    simp
  have hY9 : Y.take 9 = Y := by
    obtain ⟨_, _, _, hl, _⟩ := hY
    exact List.take_of_length_le hl
  rw [hdrop, htake, hget, hY9, hat, if_neg, if_neg, hdm]
  · rfl
  · rintro ⟨_, h2, h3⟩; exact hqf ⟨h2, h3⟩
  · rintro ⟨h0, h1⟩
    apply h1
    obtain ⟨ds, hn, hd, hl, h | h⟩ := hY
    · -- the value is 0: all digits are zeros
      rw [h.1]
      cases ds with
      | nil => exact absurd rfl hn
      | cons c cs =>
        have hv : digitsValue (c :: cs) = 0 := by have := h.2; omega
        have hc : c = 48 := by
          have hle : ∀ (l : Bytes) (a : Nat), a ≤ l.foldl (fun a c => a * 10 + (c.toNat - 48)) a := by
            intro l
            induction l with
            | nil => intro a; simp
            | cons x xs ih => intro a; rw [List.foldl_cons]; have := ih (a * 10 + (x.toNat - 48)); omega
          have h1 := hle cs (0 * 10 + (c.toNat - 48))
          unfold digitsValue at hv
          rw [List.foldl_cons] at hv
          have h2 : c.toNat - 48 = 0 := by omega
          have h3 := hd c (List.mem_cons_self ..)
          exact forallByte (fun c => c.toNat - 48 = 0 → isDigit c = true → c = 48) (by decide +kernel) c h2 h3
        rw [hc]; rfl
    · omega

/-- Dates without slash whose first dash, if any, is the sign of the year and comes late enough. -/
theorem dateToYearMonthDay_text {P Y : Bytes} {m d y : Int} (hP : PrefixOk (upperText P) m d = true)
    (hY : YearStr Y y) (hneg : y < 0 → 5 ≤ P.length) :
    dateToYearMonthDay ((P ++ Y).take 29) = some (y, m, d) := by
  have hP' := hP
  unfold PrefixOk at hP'
  simp only [Bool.and_eq_true, decide_eq_true_eq, List.all_eq_true] at hP'
  obtain ⟨⟨⟨⟨h3, h20⟩, hall⟩, _⟩, _⟩ := hP'
  have hlen : (upperText P).length = P.length := by unfold upperText; simp
  have hYl : Y.length ≤ 9 := by obtain ⟨_, _, _, hl, _⟩ := hY; exact hl
  have hc : upperText (((P ++ Y).take 29).take 29) = upperText P ++ Y := by
    rw [List.take_take, Nat.min_self, List.take_of_length_le (by simp; omega)]
    unfold upperText
    rw [List.map_append]
    congr 1
    exact hY.upper_eq
  unfold dateToYearMonthDay
  simp only [hc]
  rw [if_neg (by simp; omega)]
  have hns : strchr (upperText P ++ Y) 47 = none := by
    apply strchr_none
    intro c hc
    rcases List.mem_append.mp hc with hc | hc
    · have := hall c hc; simp at this; exact this.2
    · obtain ⟨ds, _, hd, _, h | h⟩ := hY
      · rw [h.1] at hc; exact (digit_facts c (hd c hc)).2.1
      · rw [h.1] at hc
        rcases List.mem_cons.mp hc with hc | hc
        · rw [hc]; decide
        · exact (digit_facts c (hd c hc)).2.1
  rw [hns]
  simp only
  have hnd : ∀ c ∈ upperText P, c ≠ 45 := by
    intro c hc; have := hall c hc; simp at this; exact this.1
  have hpt := parseText_prefix hP hY
  obtain ⟨ds, _, hd, _, h | h⟩ := hY
  · have : strchr (upperText P ++ Y) 45 = none := by
      apply strchr_none
      intro c hc
      rcases List.mem_append.mp hc with hc | hc
      · exact hnd c hc
      · rw [h.1] at hc; exact (digit_facts c (hd c hc)).1
    rw [this]; exact hpt
  · have : strchr (upperText P ++ Y) 45 = some (upperText P).length := by
      rw [h.1]; exact strchr_append hnd
    rw [this]
    simp only
    rw [if_pos (by have := hneg h.2.2; omega)]
    exact hpt

/-! ### Numeric dates -/

theorem YearStr.chars {Y : Bytes} {y : Int} (h : YearStr Y y) : ∀ c ∈ Y, c ≠ 47 := by
  intro c hc
  obtain ⟨ds, _, hd, _, h | h⟩ := h
  · rw [h.1] at hc; exact (digit_facts c (hd c hc)).2.1
  · rw [h.1] at hc
    rcases List.mem_cons.mp hc with hc | hc
    · rw [hc]; decide
    · exact (digit_facts c (hd c hc)).2.1

/-- The second and third field of a numeric date. -/
theorem parseNumeric_eq {A B Y : Bytes} {x : UInt8} {y : Int} (hx : x = 45 ∨ x = 47) (hA : A ≠ [])
    (hAd : AllDigits A) (hB : B ≠ []) (hBd : AllDigits B) (hBl : B.length ≤ 9)
    (hA0 : digitsValue A ≠ 0) (hB0 : digitsValue B ≠ 0) (hY : YearStr Y y) (hy : y ≠ 0) :
    parseNumeric (A ++ x :: (B ++ x :: Y)) (A.length + 1) x =
      some (y, (digitsValue A : Int), (digitsValue B : Int)) := by
  have hBx : ∀ c ∈ B, c ≠ x := by
    intro c hc
    have := digit_facts c (hBd c hc)
    rcases hx with hx | hx <;> rw [hx]
    · exact this.1
    · exact this.2.1
  unfold parseNumeric
  have h1 : (A ++ x :: (B ++ x :: Y)).take (A.length + 1 - 1) = A := by
    rw [Nat.add_sub_cancel]; exact List.take_left
  have h2 : (A ++ x :: (B ++ x :: Y)).drop (A.length + 1) = B ++ x :: Y := by
    have : A ++ x :: (B ++ x :: Y) = (A ++ [x]) ++ (B ++ x :: Y) := by simp
    rw [this]
    have : A.length + 1 = (A ++ [x]).length := by simp
    rw [this]; exact List.drop_left
  have h3 : (A ++ x :: (B ++ x :: Y)).drop (A.length + 1 + B.length + 1) = Y := by
    have : A ++ x :: (B ++ x :: Y) = (A ++ [x] ++ B ++ [x]) ++ Y := by simp
    rw [this]
    have : A.length + 1 + B.length + 1 = (A ++ [x] ++ B ++ [x]).length := by simp; omega
    rw [this]; exact List.drop_left
  have hY9 : Y.take 9 = Y := by
    obtain ⟨_, _, _, hl, _⟩ := hY
    exact List.take_of_length_le hl
  simp only [h1, h2]
  rw [atoi_digits A hA hAd, if_neg (by omega), strchr_append hBx]
  simp only [h3, hY9]
  rw [List.take_left, List.take_of_length_le hBl, atoi_digits B hB hBd, hY.atoi_eq,
    if_neg (by omega)]

theorem dateToYearMonthDay_numeric {A B Y : Bytes} {x : UInt8} {y : Int} (hx : x = 45 ∨ x = 47)
    (hA : A ≠ []) (hAl : A.length ≤ 2) (hAd : AllDigits A) (hB : B ≠ []) (hBd : AllDigits B)
    (hBl : B.length ≤ 2) (hA0 : digitsValue A ≠ 0) (hB0 : digitsValue B ≠ 0) (hY : YearStr Y y)
    (hy : y ≠ 0) :
    dateToYearMonthDay ((A ++ x :: (B ++ x :: Y)).take 29) =
      some (y, (digitsValue A : Int), (digitsValue B : Int)) := by
  have hYl : Y.length ≤ 9 := by obtain ⟨_, _, _, hl, _⟩ := hY; exact hl
  have hA1 : 1 ≤ A.length := by cases A with | nil => exact absurd rfl hA | cons => simp
  have hB1 : 1 ≤ B.length := by cases B with | nil => exact absurd rfl hB | cons => simp
  have hc : upperText (((A ++ x :: (B ++ x :: Y)).take 29).take 29) = A ++ x :: (B ++ x :: Y) := by
    rw [List.take_take, Nat.min_self, List.take_of_length_le (by simp; omega)]
    show List.map toupper _ = _
    rw [List.map_append, List.map_cons, List.map_append, List.map_cons]
    have e1 : A.map toupper = A := upper_digits A hAd
    have e2 : B.map toupper = B := upper_digits B hBd
    have e3 : Y.map toupper = Y := hY.upper_eq
    have e4 : toupper x = x := by rcases hx with h | h <;> rw [h] <;> decide
    rw [e1, e2, e3, e4]
  have hA47 : ∀ c ∈ A, c ≠ 47 := fun c h => (digit_facts c (hAd c h)).2.1
  have hA45 : ∀ c ∈ A, c ≠ 45 := fun c h => (digit_facts c (hAd c h)).1
  have hB47 : ∀ c ∈ B, c ≠ 47 := fun c h => (digit_facts c (hBd c h)).2.1
  have hB45 : ∀ c ∈ B, c ≠ 45 := fun c h => (digit_facts c (hBd c h)).1
  have key := parseNumeric_eq hx hA hAd hB hBd (by omega) hA0 hB0 hY hy
  unfold dateToYearMonthDay
  simp only [hc]
  rw [if_neg (by simp; omega)]
  rcases hx with rfl | rfl
  · have h1 : strchr (A ++ 45 :: (B ++ 45 :: Y)) 47 = none := by
      apply strchr_none
      intro c hc
      rcases List.mem_append.mp hc with hc | hc
      · exact hA47 c hc
      · rcases List.mem_cons.mp hc with hc | hc
        · rw [hc]; decide
        · rcases List.mem_append.mp hc with hc | hc
          · exact hB47 c hc
          · rcases List.mem_cons.mp hc with hc | hc
            · rw [hc]; decide
            · exact hY.chars c hc
    rw [h1]
    simp only
    rw [strchr_append hA45]
    simp only
    rw [if_neg (by omega), if_neg (by omega), if_pos (by omega)]
    exact key
  · rw [strchr_append hA47]
    simp only
    rw [if_neg, if_neg (by omega), if_pos (by omega)]
    · exact key
    · -- a dash is the sign of the year
      obtain ⟨ds, _, hd, _, h | h⟩ := hY
      · rintro ⟨h1, _⟩
        apply h1
        apply strchr_none
        intro c hc
        rcases List.mem_append.mp hc with hc | hc
        · exact hA45 c hc
        · rcases List.mem_cons.mp hc with hc | hc
          · rw [hc]; decide
          · rcases List.mem_append.mp hc with hc | hc
            · exact hB45 c hc
            · rcases List.mem_cons.mp hc with hc | hc
              · rw [hc]; decide
              · rw [h.1] at hc; exact (digit_facts c (hd c hc)).1
      · rintro ⟨_, h2⟩
        apply h2
        have hpre : ∀ c ∈ A ++ 47 :: (B ++ [47]), c ≠ 45 := by
          intro c hc
          rcases List.mem_append.mp hc with hc | hc
          · exact hA45 c hc
          · rcases List.mem_cons.mp hc with hc | hc
            · rw [hc]; decide
            · rcases List.mem_append.mp hc with hc | hc
              · exact hB45 c hc
              · rw [List.mem_singleton.mp hc]; decide
        have he : A ++ 47 :: (B ++ 47 :: Y) = (A ++ 47 :: (B ++ [47])) ++ 45 :: ds := by
          rw [h.1]; simp
        rw [he, strchr_append hpre, reverseNonNumeric_append _ 45 ds (by decide) hd]
        have hs : strrchr ((A ++ 47 :: (B ++ [47])) ++ 45 :: ds) 45 =
            some (A ++ 47 :: (B ++ [47])).length := by
          exact strrchr_append _ 45 ds (fun c hc => (digit_facts c (hd c hc)).1)
        rw [hs]
        simp

/-- USGS dates. -/
theorem dateToYearMonthDay_usgs {A B Y : Bytes} (hA : A.length = 2) (hAd : AllDigits A)
    (hB : B.length = 2) (hBd : AllDigits B) (hY : Y.length = 4) (hYd : AllDigits Y)
    (hA0 : digitsValue A ≠ 0) (hB0 : digitsValue B ≠ 0) (hY0 : digitsValue Y ≠ 0) :
    dateToYearMonthDay ((Y ++ 45 :: (A ++ 45 :: B)).take 29) =
      some ((digitsValue Y : Int), (digitsValue A : Int), (digitsValue B : Int)) := by
  have hne : ∀ b : Bytes, 1 ≤ b.length → b ≠ [] := fun b h => ne_nil_of_length h
  have hY47 : ∀ c ∈ Y, c ≠ 47 := fun c h => (digit_facts c (hYd c h)).2.1
  have hA47 : ∀ c ∈ A, c ≠ 47 := fun c h => (digit_facts c (hAd c h)).2.1
  have hB47 : ∀ c ∈ B, c ≠ 47 := fun c h => (digit_facts c (hBd c h)).2.1
  have hY45 : ∀ c ∈ Y, c ≠ 45 := fun c h => (digit_facts c (hYd c h)).1
  have hc : upperText (((Y ++ 45 :: (A ++ 45 :: B)).take 29).take 29) = Y ++ 45 :: (A ++ 45 :: B) := by
    rw [List.take_take, Nat.min_self, List.take_of_length_le (by simp; omega)]
    show List.map toupper _ = _
    rw [List.map_append, List.map_cons, List.map_append, List.map_cons]
    have e1 : A.map toupper = A := upper_digits A hAd
    have e2 : B.map toupper = B := upper_digits B hBd
    have e3 : Y.map toupper = Y := upper_digits Y hYd
    rw [e1, e2, e3]; rfl
  unfold dateToYearMonthDay
  simp only [hc]
  rw [if_neg (by simp; omega)]
  have h1 : strchr (Y ++ 45 :: (A ++ 45 :: B)) 47 = none := by
    apply strchr_none
    intro c hc
    rcases List.mem_append.mp hc with hc | hc
    · exact hY47 c hc
    · rcases List.mem_cons.mp hc with hc | hc
      · rw [hc]; decide
      · rcases List.mem_append.mp hc with hc | hc
        · exact hA47 c hc
        · rcases List.mem_cons.mp hc with hc | hc
          · rw [hc]; decide
          · exact hB47 c hc
  rw [h1]
  simp only
  rw [strchr_append hY45]
  simp only
  rw [if_neg (by omega), if_pos (by omega)]
  unfold parseUsgs
  have t1 : (Y ++ 45 :: (A ++ 45 :: B)).take 4 = Y := by
    rw [← hY]; exact List.take_left
  have d5 : (Y ++ 45 :: (A ++ 45 :: B)).drop 5 = A ++ 45 :: B := by
    have : Y ++ 45 :: (A ++ 45 :: B) = (Y ++ [45]) ++ (A ++ 45 :: B) := by simp
    rw [this]
    have : 5 = (Y ++ [45]).length := by simp [hY]
    rw [this]; exact List.drop_left
  have d8 : (Y ++ 45 :: (A ++ 45 :: B)).drop 8 = B := by
    have : Y ++ 45 :: (A ++ 45 :: B) = (Y ++ [45] ++ A ++ [45]) ++ B := by simp
    rw [this]
    have : 8 = (Y ++ [45] ++ A ++ [45]).length := by simp [hY, hA]
    rw [this]; exact List.drop_left
  have g7 : (Y ++ 45 :: (A ++ 45 :: B))[7]? = some 45 := by
    have : Y ++ 45 :: (A ++ 45 :: B) = (Y ++ [45] ++ A) ++ 45 :: B := by simp
    rw [this, List.getElem?_append_right (by simp [hY, hA])]
    simp [hY, hA]
  have t5 : (A ++ 45 :: B).take 2 = A := by rw [← hA]; exact List.take_left
  rw [if_neg (by simp [hY, hA, hB]), if_neg (by rw [g7]; simp)]
  simp only [t1, d5, d8, t5]
  rw [List.take_of_length_le (by omega : B.length ≤ 2), atoi_digits Y (hne _ (by omega)) hYd,
    atoi_digits A (hne _ (by omega)) hAd, atoi_digits B (hne _ (by omega)) hBd, if_neg (by omega)]

/-! ### Days and months of two digits -/

theorem small_decimal (n : Int) (h1 : 1 ≤ n) (h2 : n ≤ 31) :
    AllDigits (decimal n.natAbs) ∧ (decimal n.natAbs).length ≤ 2 ∧ decimal n.natAbs ≠ [] ∧
    (digitsValue (decimal n.natAbs) : Int) = n := by
  refine ⟨decimal_digits _, decimal_length _ 2 (by omega) (by show _ < 100; omega),
    ne_nil_of_length (decimal_pos _), ?_⟩
  rw [decimal_value _ (by show _ < 10000000000; omega)]; omega

theorem small_two (n : Int) (h1 : 1 ≤ n) (h2 : n ≤ 31) :
    AllDigits (intTo2char n) ∧ (intTo2char n).length = 2 ∧ (digitsValue (intTo2char n) : Int) = n := by
  unfold intTo2char formatZeros
  rw [if_neg (by omega)]
  have hl := zeroPad_length 2 (decimal n.natAbs) (small_decimal n h1 h2).2.1
  rw [List.take_of_length_le (by omega)]
  refine ⟨zeroPad_digits _ _ (decimal_digits _), hl, ?_⟩
  rw [zeroPad_value]; exact (small_decimal n h1 h2).2.2.2

end Hec
