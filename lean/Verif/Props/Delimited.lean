import Verif.Proofs.Delimited
/-! C99: texts of entries. -/
namespace Hec
open _root_.Spec (TextCall valueUnder InText GoodValues Distinguished Holds)

/-- A program that puts values into a text and removes them: the return codes of the calls that put
values, and the memory. -/
def runText (size : Int) (sep : Bytes) (d : UInt8) : List TextCall → Bytes → Option (List Int × Bytes)
  | [], b => some ([], b)
  | .put n v r :: cs, b => (insertInto b size n v sep r d).bind fun x => (runText size sep d cs x.2).map fun y => (x.1 :: y.1, y.2)
  | .remove n :: cs, b => (extractFrom b n sep true d).bind fun x => runText size sep d cs x.2

/-- What is in the text after the calls. -/
structure After (sep : Bytes) (d : UInt8) (size : Int) (all done : List TextCall) (es : Entries) (b : Bytes) : Prop where
  holds : Holds b (entriesText sep d es)
  good : GoodEntries sep d es
  from_ : ∀ e ∈ es, ∃ r, TextCall.put e.1 e.2 r ∈ all
  values : ∀ n v, (n, v) ∈ es ↔ valueUnder n done = some v
  room : (entriesText sep d es).length ≤ (done.map (TextCall.room sep)).sum
  size : size ≤ b.length

theorem under_snoc (n : Bytes) (done : List TextCall) (c : TextCall) : valueUnder n (done ++ [c]) =
    match c with
    | .put m v replace => if m = n ∧ (replace ∨ valueUnder n done = none) then some v else valueUnder n done
    | .remove m => if m = n then none else valueUnder n done := by
  unfold valueUnder
  rw [List.foldl_append]
  cases c <;> rfl

section
variable {sep : Bytes} {d : UInt8} {size : Int} {all done : List TextCall} {es : Entries} {b : Bytes}

theorem in_iff {n : Bytes} (h : After sep d size all done es b) : (∃ e ∈ es, e.1 = n) ↔ valueUnder n done ≠ none := by
  constructor
  · rintro ⟨⟨m, v⟩, he, rfl⟩
    rw [(h.values m v).mp he]; simp
  · intro hv
    cases hu : valueUnder n done with
    | none => exact absurd hu hv
    | some v => exact ⟨(n, v), (h.values n v).mpr hu, rfl⟩

theorem apart_entries {n : Bytes} (h : After sep d size all done es b) (hu : Distinguished sep n all) : ∀ e ∈ es, e.1 ≠ n → ¬ InText (n ++ sep) (e.1 ++ sep ++ e.2) := by
  intro e he hne
  obtain ⟨r, hr⟩ := h.from_ e he
  exact hu e.1 e.2 r hr hne

theorem after_put {n v : Bytes} {replace : Bool} (h : After sep d size all done es b) (hall : TextCall.put n v replace ∈ all) (hgv : GoodValues d all)
    (hd : d ≠ 0) (hs : ∀ c ∈ sep, c ≠ 0 ∧ c ≠ d) (hne : sep ≠ []) (hu : Distinguished sep n all)
    (hroom : (((done ++ [TextCall.put n v replace]).map (TextCall.room sep)).sum : Int) + 1 ≤ size) :
    ∃ b', insertInto b size n v sep replace d = some (0, b') ∧ After sep d size all (done ++ [.put n v replace]) (afterPut es n v replace) b' := by
  obtain ⟨hv0, hv1, hn⟩ := hgv n v replace hall
  have hrm := h.room
  have hent : (entryText sep d (n, v)).length = n.length + sep.length + v.length + 1 := by simp [entryText]; omega
  simp only [List.map_append, List.map_cons, List.map_nil, List.sum_append, List.sum_cons, List.sum_nil, TextCall.room, Nat.add_zero] at hroom
  obtain ⟨b', h1, h2, h3⟩ := insert_spec (n := n) (v := v) replace h.holds h.good hd hs hn (by simp [hne]) (apart_entries h hu) (by omega) h.size
  refine ⟨b', h1, h3, ?_, ?_, ?_, ?_, by rw [h2]; exact h.size⟩
  · unfold afterPut
    split
    · exact h.good
    · refine ⟨?_, ?_⟩
      · intro e he
        rcases List.mem_append.mp he with he | he
        · exact h.good.value e (List.mem_filter.mp he).1
        · rw [List.mem_singleton.mp he]; exact ⟨hv0, hv1, hn⟩
      · rw [List.pairwise_append]
        refine ⟨h.good.once.filter _, by simp, ?_⟩
        intro x hx y hy
        rw [List.mem_singleton.mp hy]
        simpa using (List.mem_filter.mp hx).2
  · intro e he
    unfold afterPut at he
    split at he
    · exact h.from_ e he
    · rcases List.mem_append.mp he with he | he
      · exact h.from_ e (List.mem_filter.mp he).1
      · rw [List.mem_singleton.mp he]; exact ⟨replace, hall⟩
  · intro m w
    rw [under_snoc]
    simp only
    unfold afterPut
    by_cases hin : ∃ e ∈ es, e.1 = n
    · have hsome := (in_iff h).mp hin
      cases replace with
      | false =>
        rw [if_pos ⟨hin, rfl⟩, h.values]
        by_cases hm : n = m
        · subst hm; rw [if_neg (by simp [hsome])]
        · rw [if_neg (by simp [hm])]
      | true =>
        rw [if_neg (by simp), List.mem_append, List.mem_filter, h.values]
        by_cases hm : n = m
        · subst hm; simp [eq_comm]
        · simp [hm, Ne.symm hm]
    · have hnone : valueUnder n done = none := by
        cases hx : valueUnder n done with
        | none => rfl
        | some x => exact absurd ((in_iff h).mpr (by simp [hx])) hin
      rw [if_neg (by simp [hin]), List.mem_append, List.mem_filter, h.values]
      by_cases hm : n = m
      · subst hm; simp [hnone, eq_comm]
      · simp [hm, Ne.symm hm]
  · simp only [List.map_append, List.map_cons, List.map_nil, List.sum_append, List.sum_cons, List.sum_nil, TextCall.room, Nat.add_zero]
    unfold afterPut
    split
    · omega
    · have := text_filter_length sep d (fun e => e.1 != n) es
      have e : entriesText sep d (es.filter (fun e => e.1 != n) ++ [(n, v)]) = entriesText sep d (es.filter (fun e => e.1 != n)) ++ entryText sep d (n, v) := by simp [entriesText]
      rw [e, List.length_append]
      omega

theorem after_remove {n : Bytes} (h : After sep d size all done es b) (hn : ∀ c ∈ n, c ≠ 0 ∧ c ≠ d)
    (hd : d ≠ 0) (hs : ∀ c ∈ sep, c ≠ 0 ∧ c ≠ d) (hne : sep ≠ []) (hu : Distinguished sep n all) :
    ∃ x b', extractFrom b n sep true d = some (x, b') ∧ After sep d size all (done ++ [.remove n]) (es.filter (fun e => e.1 != n)) b' := by
  have hroom : ((done ++ [TextCall.remove n]).map (TextCall.room sep)).sum = (done.map (TextCall.room sep)).sum := by simp [TextCall.room]
  have hvals : ∀ m w, (m, w) ∈ es.filter (fun e => e.1 != n) ↔ valueUnder m (done ++ [.remove n]) = some w := by
    intro m w
    rw [under_snoc, List.mem_filter, h.values]
    simp only
    by_cases hm : n = m
    · subst hm; simp
    · simp [hm, Ne.symm hm]
  have hfrom : ∀ e ∈ es.filter (fun e => e.1 != n), ∃ r, TextCall.put e.1 e.2 r ∈ all := fun e he => h.from_ e (List.mem_filter.mp he).1
  have hrm : (entriesText sep d (es.filter (fun e => e.1 != n))).length ≤ ((done ++ [TextCall.remove n]).map (TextCall.room sep)).sum := by
    rw [hroom]; exact Nat.le_trans (text_filter_length _ _ _ _) h.room
  by_cases hin : ∃ e ∈ es, e.1 = n
  · obtain ⟨pre, w, post, rfl, h1, h2, hf⟩ := split_at h.good.once hin
    obtain ⟨rest, rfl⟩ := h.holds
    refine ⟨_, _, extract_found true h.good hd hs (by simp [hne]) (fun e he => apart_entries h hu e (by simp [he]) (h1 e he)), ?_⟩
    have hll : (entriesText sep d (pre ++ post)).length ≤ (entriesText sep d (pre ++ (n, w) :: post)).length := by rw [← hf]; exact text_filter_length _ _ _ _
    refine ⟨?_, good_filter h.good _, hfrom, hvals, hrm, ?_⟩
    · rw [hf]; exact ⟨_, rfl⟩
    · have := h.size
      simp only [if_true, List.length_append, List.length_cons, List.length_drop] at this ⊢
      omega
  · refine ⟨_, _, extract_absent true h.holds h.good hd hs hn (by simp [hne]) (fun e he => apart_entries h hu e he (fun hh => hin ⟨e, he, hh⟩)), ?_⟩
    have hfe : es.filter (fun e => e.1 != n) = es := List.filter_eq_self.mpr (fun e he => by simpa using fun hh => hin ⟨e, he, hh⟩)
    exact ⟨by rw [hfe]; exact h.holds, good_filter h.good _, hfrom, hvals, hrm, h.size⟩

theorem after_run (calls : List TextCall) : ∀ {done : List TextCall} {es : Entries} {b : Bytes}, After sep d size all done es b → (∀ c ∈ calls, c ∈ all) →
    GoodValues d all → (∀ c ∈ all, ∀ x ∈ c.name, x ≠ 0 ∧ x ≠ d) → d ≠ 0 → (∀ c ∈ sep, c ≠ 0 ∧ c ≠ d) → sep ≠ [] → (∀ c ∈ all, Distinguished sep c.name all) →
    (((done ++ calls).map (TextCall.room sep)).sum : Int) + 1 ≤ size →
    ∃ rcs b' es', runText size sep d calls b = some (rcs, b') ∧ (∀ r ∈ rcs, r = 0) ∧ After sep d size all (done ++ calls) es' b' := by
  induction calls with
  | nil => intro done es b h _ _ _ _ _ _ _ _; exact ⟨[], b, es, rfl, by simp, by rw [List.append_nil]; exact h⟩
  | cons c cs ih =>
    intro done es b h hall hgv hnames hd hs hne hu hroom
    have hca := hall c (by simp)
    have happ : done ++ c :: cs = (done ++ [c]) ++ cs := by simp
    have hlow : (((done ++ [c]).map (TextCall.room sep)).sum : Int) + 1 ≤ size := by
      rw [happ, List.map_append, List.sum_append] at hroom
      omega
    rw [happ] at hroom ⊢
    cases c with
    | put n v r =>
      obtain ⟨b1, he, ha⟩ := after_put h hca hgv hd hs hne (hu _ hca) hlow
      obtain ⟨rcs, b', es', hr, hz, hf⟩ := ih ha (fun x hx => hall x (by simp [hx])) hgv hnames hd hs hne hu hroom
      refine ⟨0 :: rcs, b', es', ?_, by simpa using hz, hf⟩
      simp only [runText, he, Option.bind_some, hr, Option.map_some]
    | remove n =>
      obtain ⟨x, b1, he, ha⟩ := after_remove (n := n) h (hnames _ hca) hd hs hne (hu _ hca)
      obtain ⟨rcs, b', es', hr, hz, hf⟩ := ih ha (fun x hx => hall x (by simp [hx])) hgv hnames hd hs hne hu hroom
      refine ⟨rcs, b', es', ?_, hz, hf⟩
      simp only [runText, he, Option.bind_some, hr]
end

/-- **C99**: in a text that was empty and has room enough, each value is found under its name after
any sequence of putting values in and removing them, and no call fails, as long as the names (with
the separator) are told apart from what is in the other entries and no value is empty. -/
theorem C99_entries_partial (sep : Bytes) (d : UInt8) (size : Int) (calls : List TextCall) (name b : Bytes)
    (hb : Holds b []) (hsize : size ≤ b.length) (hroom : ((calls.map (TextCall.room sep)).sum : Int) + 1 ≤ size)
    (hd : d ≠ 0) (hs : ∀ c ∈ sep, c ≠ 0 ∧ c ≠ d) (hne : sep ≠ [])
    (hgood : GoodValues d calls) (hnames : ∀ c ∈ calls, ∀ x ∈ c.name, x ≠ 0 ∧ x ≠ d) (happart : ∀ c ∈ calls, Distinguished sep c.name calls)
    (hname : ∀ x ∈ name, x ≠ 0 ∧ x ≠ d) (hown : Distinguished sep name calls) :
    ∃ rcs b', runText size sep d calls b = some (rcs, b') ∧ (∀ r ∈ rcs, r = 0) ∧ extractFrom b' name sep false d = some (valueUnder name calls, b') := by
  have h0 : After sep d size calls [] [] b := ⟨hb, ⟨by simp, List.Pairwise.nil⟩, by simp, by intro n v; simp [valueUnder], by simp [entriesText], hsize⟩
  obtain ⟨rcs, b', es, hr, hz, ha⟩ := after_run calls h0 (fun c hc => hc) hgood hnames hd hs hne happart (by simpa using hroom)
  rw [List.nil_append] at ha
  refine ⟨rcs, b', hr, hz, ?_⟩
  by_cases hin : ∃ e ∈ es, e.1 = name
  · obtain ⟨pre, w, post, rfl, h1, h2, hf⟩ := split_at ha.good.once hin
    have hv := (ha.values name w).mp (by simp)
    obtain ⟨rest, rfl⟩ := ha.holds
    rw [extract_found false ha.good hd hs (by simp [hne]) (fun e he => apart_entries ha hown e (by simp [he]) (h1 e he)), hv]
    rfl
  · have hv : valueUnder name calls = none := by
      cases hx : valueUnder name calls with
      | none => rfl
      | some x => exact absurd ((in_iff ha).mpr (by simp [hx])) hin
    rw [extract_absent false ha.holds ha.good hd hs hname (by simp [hne]) (fun e he => apart_entries ha hown e he (fun hh => hin ⟨e, he, hh⟩)), hv]

/-- Not true in full: when there is no room the call fails, but the text has lost its end: "a:1" in
four bytes of memory, with `datum:x` put in for a size of 3 (as ztsStore calls it), has no zero
afterwards. -/
theorem C99_end_violation : insertInto [97, 58, 49, 0] 3 [100, 97, 116, 117, 109] [120] [58] true 59 = some (-1, [97, 58, 49, 59]) := by decide +kernel

/-- Not true: that a call that fails leaves the value that was there: "a:1;" with a longer value put
in for `a` has no value for `a` any more but a part of the new one. -/
theorem C99_lost_violation : insertInto [97, 58, 49, 59, 0, 0, 0, 0] 4 [97] [50, 51, 52] [58] true 59 = some (-1, [97, 58, 50, 51, 0, 0, 0, 0]) := by decide +kernel

/-- Not true of empty values: in "a:;b:1;" the value of `a` is ";b:1". -/
theorem C99_empty_violation : (extractFrom [97, 58, 59, 98, 58, 49, 59, 0] [97] [58] false 59).map (·.1) = some (some [59, 98, 58, 49]) := by decide +kernel

/-- Not true of an empty value at the end: bytes after the text are read. -/
theorem C99_outside_violation : extractFrom [97, 58, 0] [97] [58] false 59 = none := by decide +kernel

/-- Not true of names inside others: in "za:1;a:2;" the value of `a` is "1". -/
theorem C99_name_violation : (extractFrom [122, 97, 58, 49, 59, 97, 58, 50, 59, 0] [97] [58] false 59).map (·.1) = some (some [49]) := by decide +kernel

/-- The case of `C99_entries_partial`: two names, one value replaced and one kept. -/
example : GoodValues 59 [.put [97] [49] true, .put [98] [50] true, .put [97] [51] true, .put [98] [52] false, .remove [99]] ∧
    (∀ c ∈ [TextCall.put [97] [49] true, .put [98] [50] true, .put [97] [51] true, .put [98] [52] false, .remove [99]],
      Distinguished [58] c.name [.put [97] [49] true, .put [98] [50] true, .put [97] [51] true, .put [98] [52] false, .remove [99]]) ∧
    valueUnder [97] [.put [97] [49] true, .put [98] [50] true, .put [97] [51] true, .put [98] [52] false, .remove [99]] = some [51] ∧
    valueUnder [98] [.put [97] [49] true, .put [98] [50] true, .put [97] [51] true, .put [98] [52] false, .remove [99]] = some [50] := by
  refine ⟨?_, ?_, by decide, by decide⟩
  · intro n v r h
    simp at h
    rcases h with ⟨rfl, rfl, _⟩ | ⟨rfl, rfl, _⟩ | ⟨rfl, rfl, _⟩ | ⟨rfl, rfl, _⟩ <;> simp
  · have key : ∀ (m n v : UInt8), m ≠ n → v ≠ m → m ≠ 58 → ¬ InText ([m] ++ [58]) ([n] ++ [58] ++ [v]) := by
      rintro m n v h1 h2 h3 ⟨a, b, h⟩
      have : m ∈ [n] ++ [58] ++ [v] := by rw [h]; simp
      simp at this
      rcases this with h | h | h
      · exact h1 h
      · exact h3 h
      · exact h2 h.symm
    intro c hc n v r h hne
    simp at hc h
    rcases hc with rfl | rfl | rfl | rfl | rfl <;> rcases h with ⟨rfl, rfl, _⟩ | ⟨rfl, rfl, _⟩ | ⟨rfl, rfl, _⟩ | ⟨rfl, rfl, _⟩ <;>
      first
        | exact absurd rfl hne
        | exact key _ _ _ (by decide) (by decide) (by decide)

end Hec
