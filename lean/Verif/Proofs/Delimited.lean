import Verif.Spec.Delimited
import Verif.Model.Delimited
import Verif.Proofs.Strings
/-! Lemmas for texts of entries. -/
namespace Hec
open _root_.Spec (TextCall valueUnder InText GoodValues Distinguished Holds)

/-- Searching a text that has no `d` in it. -/
theorem find_skip {t : Bytes} {d : UInt8} (hd : d ∉ t) (hne : t ≠ []) (rest : Bytes) : ∀ c : Bytes, ¬ InText t c →
    findText t (c ++ d :: rest) = (findText t rest).map (· + (c.length + 1)) := by
  intro c
  induction c with
  | nil =>
    intro _
    have hp : t.isPrefixOf (d :: rest) = false := by
      cases t with
      | nil => exact absurd rfl hne
      | cons x xs =>
        have : x ≠ d := fun h => hd (by simp [h])
        simp [List.isPrefixOf, this]
    simp [findText, hp]
  | cons x xs ih =>
    intro hi
    have hi' : ¬ InText t xs := by
      rintro ⟨a, b, rfl⟩
      exact hi ⟨x :: a, b, by simp⟩
    have hp : t.isPrefixOf (x :: (xs ++ d :: rest)) = false := by
      cases hb : t.isPrefixOf (x :: (xs ++ d :: rest)) with
      | false => rfl
      | true =>
        exfalso
        have hpre := List.isPrefixOf_iff_prefix.mp hb
        by_cases hl : t.length ≤ (x :: xs).length
        · have : t <+: x :: xs := by
            rw [show x :: (xs ++ d :: rest) = (x :: xs) ++ d :: rest by simp] at hpre
            exact List.prefix_of_prefix_length_le hpre (List.prefix_append _ _) hl
          obtain ⟨r, hr⟩ := this
          exact hi ⟨[], r, by simp [hr]⟩
        · have : (x :: xs) ++ [d] <+: t := by
            rw [show x :: (xs ++ d :: rest) = ((x :: xs) ++ [d]) ++ rest by simp] at hpre
            exact List.prefix_of_prefix_length_le (List.prefix_append _ _) hpre (by simp at hl ⊢; omega)
          obtain ⟨r, hr⟩ := this
          exact hd (by rw [← hr]; simp)
    rw [List.cons_append]
    simp only [findText, hp, Bool.false_eq_true, if_false, ih hi', Option.map_map, List.length_cons]
    congr 1

abbrev Entries := List (Bytes × Bytes)

def entryText (sep : Bytes) (d : UInt8) (e : Bytes × Bytes) : Bytes := e.1 ++ sep ++ e.2 ++ [d]
def entriesText (sep : Bytes) (d : UInt8) (es : Entries) : Bytes := es.flatMap (entryText sep d)

/-- Searching the text of entries none of which has the text in it. -/
theorem find_past {t sep : Bytes} {d : UInt8} (hd : d ∉ t) (hne : t ≠ []) (rest : Bytes) : ∀ es : Entries,
    (∀ e ∈ es, ¬ InText t (e.1 ++ sep ++ e.2)) →
    findText t (entriesText sep d es ++ rest) = (findText t rest).map (· + (entriesText sep d es).length) := by
  intro es
  induction es with
  | nil => intro _; simp [entriesText]
  | cons e es ih =>
    intro h
    have : entriesText sep d (e :: es) ++ rest = (e.1 ++ sep ++ e.2) ++ d :: (entriesText sep d es ++ rest) := by
      simp [entriesText, entryText]
    rw [this, find_skip hd hne _ _ (h e (by simp)), ih (fun x hx => h x (by simp [hx])), Option.map_map]
    congr 1
    funext n
    simp [entriesText, entryText]
    omega

theorem find_here {t : Bytes} (hne : t ≠ []) (rest : Bytes) : findText t (t ++ rest) = some 0 := by
  cases t with
  | nil => exact absurd rfl hne
  | cons x xs =>
    have : (x :: xs).isPrefixOf (x :: (xs ++ rest)) = true := List.isPrefixOf_iff_prefix.mpr ⟨rest, by simp⟩
    simp [findText, this]

theorem find_nothing {t : Bytes} (hne : t ≠ []) : findText t [] = none := by simp [findText, hne]

theorem scan_here (d : UInt8) (v rest : Bytes) (hv : ∀ c ∈ v, c ≠ 0 ∧ c ≠ d) : scanEnd d (v ++ d :: rest) = some v.length := by
  induction v with
  | nil => simp [scanEnd]
  | cons x xs ih =>
    have hx := hv x (by simp)
    rw [List.cons_append]
    simp only [scanEnd]
    rw [if_neg (by simp [hx.1, hx.2]), ih (fun c hc => hv c (by simp [hc]))]
    simp

theorem cstr_self : ∀ l : Bytes, (∀ c ∈ l, c ≠ 0) → cstr l = l
  | [], _ => rfl
  | x :: xs, h => by
    have := cstr_self xs (fun c hc => h c (by simp [hc]))
    unfold cstr at this ⊢
    rw [List.takeWhile_cons, if_pos (by simpa using h x (by simp)), this]

theorem contains_zero {b s : Bytes} (h : Holds b s) : b.contains 0 = true := by
  obtain ⟨r, rfl⟩ := h
  simp

/-- The entries of a good text. -/
structure GoodEntries (sep : Bytes) (d : UInt8) (es : Entries) : Prop where
  value : ∀ e ∈ es, e.2 ≠ [] ∧ (∀ c ∈ e.2, c ≠ 0 ∧ c ≠ d) ∧ (∀ c ∈ e.1, c ≠ 0 ∧ c ≠ d)
  once : es.Pairwise (fun x y => x.1 ≠ y.1)

theorem text_chars {sep : Bytes} {d : UInt8} {es : Entries} (hg : GoodEntries sep d es) (hd : d ≠ 0) (hs : ∀ c ∈ sep, c ≠ 0 ∧ c ≠ d) :
    ∀ c ∈ entriesText sep d es, c ≠ 0 := by
  intro c hc
  simp only [entriesText, List.mem_flatMap, entryText, List.mem_append, List.mem_singleton] at hc
  obtain ⟨e, he, h⟩ := hc
  obtain ⟨_, h2, h3⟩ := hg.value e he
  rcases h with ((h | h) | h) | h
  · exact (h3 c h).1
  · exact (hs c h).1
  · exact (h2 c h).1
  · rw [h]; exact hd

/-- What extracting an entry does. -/
theorem extract_found {sep : Bytes} {d : UInt8} {pre post : Entries} {n v rest : Bytes} (remove : Bool)
    (hg : GoodEntries sep d (pre ++ (n, v) :: post)) (hd : d ≠ 0) (hs : ∀ c ∈ sep, c ≠ 0 ∧ c ≠ d) (hne : n ++ sep ≠ [])
    (ha : ∀ e ∈ pre, ¬ InText (n ++ sep) (e.1 ++ sep ++ e.2)) :
    extractFrom (entriesText sep d (pre ++ (n, v) :: post) ++ 0 :: rest) n sep remove d =
      some (some v, if remove then entriesText sep d (pre ++ post) ++ 0 :: ((entriesText sep d (pre ++ (n, v) :: post) ++ 0 :: rest).drop ((entriesText sep d (pre ++ post)).length + 1))
        else entriesText sep d (pre ++ (n, v) :: post) ++ 0 :: rest) := by
  obtain ⟨h1, h2, h3⟩ := hg.value (n, v) (by simp)
  simp only at h1 h2 h3
  have hdt : d ∉ n ++ sep := by
    intro h
    rcases List.mem_append.mp h with h | h
    · exact (h3 d h).2 rfl
    · exact (hs d h).2 rfl
  have hz := text_chars hg hd hs
  generalize hb : entriesText sep d (pre ++ (n, v) :: post) ++ 0 :: rest = b
  have hb1 : b = entriesText sep d pre ++ ((n ++ sep) ++ (v ++ d :: (entriesText sep d post ++ 0 :: rest))) := by
    rw [← hb]; simp [entriesText, entryText]
  have hholds : Holds b (entriesText sep d (pre ++ (n, v) :: post)) := ⟨rest, hb.symm⟩
  have hc : cstr b = entriesText sep d (pre ++ (n, v) :: post) := cstr_holds hholds hz
  have hfind : findText (n ++ sep) (cstr b) = some (entriesText sep d pre).length := by
    rw [hc]
    have : entriesText sep d (pre ++ (n, v) :: post) = entriesText sep d pre ++ ((n ++ sep) ++ (v ++ d :: entriesText sep d post)) := by
      simp [entriesText, entryText]
    rw [this, find_past hdt hne _ _ ha, find_here hne]
    simp
  unfold extractFrom
  simp only [contains_zero hholds, hfind, Bool.true_eq_false, if_false]
  obtain ⟨v0, vs, rfl⟩ : ∃ v0 vs, v = v0 :: vs := by
    cases v with
    | nil => exact absurd rfl h1
    | cons x xs => exact ⟨x, xs, rfl⟩
  have hdrop : b.drop ((entriesText sep d pre).length + (n ++ sep).length + 1) = vs ++ d :: (entriesText sep d post ++ 0 :: rest) := by
    rw [hb1, ← List.append_assoc, ← List.length_append, List.drop_append]
    simp
  have hdrop0 : b.drop ((entriesText sep d pre).length + (n ++ sep).length) = (v0 :: vs) ++ d :: (entriesText sep d post ++ 0 :: rest) := by
    rw [hb1, ← List.append_assoc, ← List.length_append, List.drop_left]
  rw [hdrop, scan_here d vs _ (fun c hc => h2 c (by simp [hc]))]
  simp only [Option.bind_some]
  have hval : cstr ((b.drop ((entriesText sep d pre).length + (n ++ sep).length)).take
      ((entriesText sep d pre).length + (n ++ sep).length + 1 + vs.length - ((entriesText sep d pre).length + (n ++ sep).length))) = v0 :: vs := by
    rw [hdrop0, show (entriesText sep d pre).length + (n ++ sep).length + 1 + vs.length - ((entriesText sep d pre).length + (n ++ sep).length) = (v0 :: vs).length by simp; omega,
      List.take_left]
    exact cstr_self _ (fun c hc => (h2 c hc).1)
  rw [hval]
  cases remove with
  | false => simp
  | true =>
    have hi : rd b (((entriesText sep d pre).length + (n ++ sep).length + 1 + vs.length : Nat) : Int) = some d := by
      unfold rd
      rw [if_pos (by omega), Int.toNat_natCast]
      have := congrArg (fun l : Bytes => l[vs.length]?) hdrop
      rw [List.getElem?_append_right (Nat.le_refl _), List.getElem?_drop] at this
      simpa using this
    have hd2 : b.drop ((entriesText sep d pre).length + (n ++ sep).length + 1 + vs.length + 1) = entriesText sep d post ++ 0 :: rest := by
      have := congrArg (List.drop (vs.length + 1)) hdrop
      rw [List.drop_drop] at this
      rw [show (entriesText sep d pre).length + (n ++ sep).length + 1 + vs.length + 1 = (entriesText sep d pre).length + (n ++ sep).length + 1 + (vs.length + 1) by omega, this,
        show vs.length + 1 = (vs ++ [d]).length by simp, show vs ++ d :: (entriesText sep d post ++ 0 :: rest) = (vs ++ [d]) ++ (entriesText sep d post ++ 0 :: rest) by simp,
        List.drop_left]
    have hpost : cstr (entriesText sep d post ++ 0 :: rest) = entriesText sep d post := by
      refine cstr_holds ⟨rest, rfl⟩ (fun c hc => hz c ?_)
      simp only [entriesText, List.flatMap_append, List.flatMap_cons, List.mem_append]
      exact Or.inr (Or.inr hc)
    have htake : b.take (entriesText sep d pre).length = entriesText sep d pre := by rw [hb1, List.take_left]
    simp only [if_true]
    rw [hi]
    simp only [Option.bind_some]
    rw [if_pos hd, hd2, hpost, htake, if_pos (by simp)]
    simp [entriesText, Nat.add_assoc]

theorem extract_absent {sep : Bytes} {d : UInt8} {es : Entries} {n b : Bytes} (remove : Bool)
    (hb : Holds b (entriesText sep d es)) (hg : GoodEntries sep d es) (hd : d ≠ 0) (hs : ∀ c ∈ sep, c ≠ 0 ∧ c ≠ d) (hn : ∀ c ∈ n, c ≠ 0 ∧ c ≠ d) (hne : n ++ sep ≠ [])
    (ha : ∀ e ∈ es, ¬ InText (n ++ sep) (e.1 ++ sep ++ e.2)) :
    extractFrom b n sep remove d = some (none, b) := by
  have hdt : d ∉ n ++ sep := by
    intro h
    rcases List.mem_append.mp h with h | h
    · exact (hn d h).2 rfl
    · exact (hs d h).2 rfl
  have hf : findText (n ++ sep) (cstr b) = none := by
    rw [cstr_holds hb (text_chars hg hd hs)]
    have := find_past hdt hne [] es ha
    rw [List.append_nil, find_nothing hne] at this
    exact this
  unfold extractFrom
  simp only [contains_zero hb, hf, Bool.true_eq_false, if_false]

theorem putChars_spec (size : Int) : ∀ (t s r : Bytes), t.length ≤ r.length → ((s.length + t.length : Nat) : Int) ≤ size →
    putChars size (s ++ r) s.length t = some (s ++ t ++ r.drop t.length, s.length + t.length) := by
  intro t
  induction t with
  | nil => intro s r _ _; simp [putChars]
  | cons c cs ih =>
    intro s r hr hsz
    simp only [List.length_cons] at hr hsz
    cases r with
    | nil => simp at hr
    | cons y ys =>
      simp only [List.length_cons] at hr
      simp only [putChars]
      rw [if_pos (by omega), wr_eq (by simp)]
      simp only [Option.bind_some]
      have := ih (s ++ [c]) ys (by omega) (by simp; omega)
      have e : (s ++ y :: ys).set s.length c = (s ++ [c]) ++ ys := by simp
      rw [e, show s.length + 1 = (s ++ [c]).length by simp, this]
      simp
      omega

theorem text_end (sep : Bytes) (d : UInt8) (es : Entries) : entriesText sep d es = [] ∨ ∃ p, entriesText sep d es = p ++ [d] := by
  rcases List.eq_nil_or_concat es with h | ⟨l, e, h⟩
  · left; subst h; rfl
  · right
    subst h
    exact ⟨entriesText sep d l ++ (e.1 ++ sep ++ e.2), by simp [entriesText, entryText]⟩

/-- Writing an entry after the others. -/
theorem append_entry {sep : Bytes} {d : UInt8} {es : Entries} {n v b : Bytes} {size : Int} (hb : Holds b (entriesText sep d es))
    (hg : GoodEntries sep d es) (hd : d ≠ 0) (hs : ∀ c ∈ sep, c ≠ 0 ∧ c ≠ d)
    (hroom : (((entriesText sep d es).length + (entryText sep d (n, v)).length + 1 : Nat) : Int) ≤ size) (hsize : size ≤ b.length) :
    ∃ b', ((if 0 < (cstr b).length ∧ b[(cstr b).length - 1]? ≠ some d then (wr b (cstr b).length d).map fun b' => (b', (cstr b).length + 1) else some (b, (cstr b).length)).bind fun s =>
            (putChars size s.1 s.2 n).bind fun s =>
              (putChars size s.1 s.2 sep).bind fun s =>
                (putChars size s.1 s.2 v).bind fun s =>
                  if (s.2 : Int) > size - 2 then some ((-1 : Int), s.1)
                  else
                    (wr s.1 s.2 d).bind fun b =>
                      (wr b (s.2 + 1 : Nat) 0).map fun b => ((0 : Int), b)) = some (0, b') ∧ b'.length = b.length ∧
      Holds b' (entriesText sep d (es ++ [(n, v)])) := by
  have hc : cstr b = entriesText sep d es := cstr_holds hb (text_chars hg hd hs)
  obtain ⟨rest, rfl⟩ := hb
  have hlast : ¬ (0 < (cstr (entriesText sep d es ++ 0 :: rest)).length ∧ (entriesText sep d es ++ 0 :: rest)[(cstr (entriesText sep d es ++ 0 :: rest)).length - 1]? ≠ some d) := by
    rw [hc]
    rcases text_end sep d es with h | ⟨p, h⟩
    · rw [h]; simp
    · rw [h]; simp
  rw [if_neg hlast, hc]
  generalize hT : entriesText sep d es = T at *
  have hfin : entriesText sep d (es ++ [(n, v)]) = T ++ n ++ sep ++ v ++ [d] := by
    rw [← hT]; simp [entriesText, entryText]
  rw [hfin]
  simp only [entryText, List.length_append, List.length_cons, List.length_nil] at hroom
  simp only [List.length_append, List.length_cons] at hsize
  generalize hR : (0 : UInt8) :: rest = R
  have hRl : R.length = rest.length + 1 := by rw [← hR]; simp
  simp only [Option.bind_some]
  rw [putChars_spec size n T R (by omega) (by omega)]
  simp only [Option.bind_some]
  rw [← List.length_append, putChars_spec size sep (T ++ n) (R.drop n.length) (by simp; omega) (by simp; omega)]
  simp only [Option.bind_some]
  rw [← List.length_append, putChars_spec size v (T ++ n ++ sep) ((R.drop n.length).drop sep.length) (by simp; omega) (by simp; omega)]
  simp only [Option.bind_some]
  rw [if_neg (by simp; omega), ← List.length_append]
  generalize hS : T ++ n ++ sep ++ v = S
  have hSl : S.length = T.length + n.length + sep.length + v.length := by rw [← hS]; simp; omega
  generalize hQ : List.drop v.length (List.drop sep.length (List.drop n.length R)) = Q
  have hQl : Q.length = R.length - n.length - sep.length - v.length := by rw [← hQ]; simp; omega
  obtain ⟨q0, q1, Q', rfl⟩ : ∃ q0 q1 Q', Q = q0 :: q1 :: Q' := by
    match Q, hQl with
    | [], h => simp at h; omega
    | [_], h => simp at h; omega
    | x :: y :: z, _ => exact ⟨x, y, z, rfl⟩
  rw [wr_eq (by simp)]
  simp only [Option.bind_some]
  rw [wr_eq (by simp)]
  simp only [Option.map_some]
  refine ⟨_, rfl, ?_, ?_⟩
  · simp at hQl ⊢; omega
  · refine ⟨Q', ?_⟩
    simp

/-- One more call: what is in the text after it. -/
def afterPut (es : Entries) (n v : Bytes) (replace : Bool) : Entries :=
  if (∃ e ∈ es, e.1 = n) ∧ replace = false then es else es.filter (fun e => e.1 != n) ++ [(n, v)]

theorem split_at {es : Entries} (h : es.Pairwise (fun x y => x.1 ≠ y.1)) {n : Bytes} (hn : ∃ e ∈ es, e.1 = n) :
    ∃ pre v post, es = pre ++ (n, v) :: post ∧ (∀ e ∈ pre, e.1 ≠ n) ∧ (∀ e ∈ post, e.1 ≠ n) ∧ es.filter (fun e => e.1 != n) = pre ++ post := by
  obtain ⟨e, he, rfl⟩ := hn
  obtain ⟨pre, post, rfl⟩ := List.append_of_mem he
  have h1 : ∀ x ∈ pre, x.1 ≠ e.1 := fun x hx => (List.pairwise_append.mp h).2.2 x hx e (by simp)
  have h2 : ∀ x ∈ post, x.1 ≠ e.1 := fun x hx => Ne.symm ((List.pairwise_cons.mp (List.pairwise_append.mp h).2.1).1 x hx)
  refine ⟨pre, e.2, post, rfl, h1, h2, ?_⟩
  rw [List.filter_append, List.filter_cons, if_neg (by simp), List.filter_eq_self.mpr (fun x hx => by simpa using h1 x hx),
    List.filter_eq_self.mpr (fun x hx => by simpa using h2 x hx)]

theorem good_filter {sep : Bytes} {d : UInt8} {es : Entries} (h : GoodEntries sep d es) (p : Bytes × Bytes → Bool) : GoodEntries sep d (es.filter p) :=
  ⟨fun e he => h.value e (List.mem_filter.mp he).1, h.once.filter p⟩

theorem text_filter_length (sep : Bytes) (d : UInt8) (p : Bytes × Bytes → Bool) : ∀ es : Entries, (entriesText sep d (es.filter p)).length ≤ (entriesText sep d es).length := by
  intro es
  induction es with
  | nil => simp
  | cons e es ih =>
    rw [List.filter_cons]
    split
    · simp only [entriesText, List.flatMap_cons, List.length_append] at ih ⊢; omega
    · simp only [entriesText, List.flatMap_cons, List.length_append] at ih ⊢; omega

/-- Putting a value into a text. -/
theorem insert_spec {sep : Bytes} {d : UInt8} {es : Entries} {n v b : Bytes} {size : Int} (replace : Bool) (hb : Holds b (entriesText sep d es))
    (hg : GoodEntries sep d es) (hd : d ≠ 0) (hs : ∀ c ∈ sep, c ≠ 0 ∧ c ≠ d) (hn : ∀ c ∈ n, c ≠ 0 ∧ c ≠ d) (hne : n ++ sep ≠ [])
    (ha : ∀ e ∈ es, e.1 ≠ n → ¬ InText (n ++ sep) (e.1 ++ sep ++ e.2))
    (hroom : (((entriesText sep d es).length + (entryText sep d (n, v)).length + 1 : Nat) : Int) ≤ size) (hsize : size ≤ b.length) :
    ∃ b', insertInto b size n v sep replace d = some (0, b') ∧ b'.length = b.length ∧ Holds b' (entriesText sep d (afterPut es n v replace)) := by
  unfold insertInto afterPut
  by_cases hin : ∃ e ∈ es, e.1 = n
  · obtain ⟨pre, w, post, rfl, h1, h2, hf⟩ := split_at hg.once hin
    obtain ⟨rest, rfl⟩ := hb
    rw [extract_found false hg hd hs hne (fun e he => ha e (by simp [he]) (h1 e he))]
    simp only [Option.bind_some]
    cases replace with
    | false =>
      rw [if_pos (by simp), if_pos ⟨hin, rfl⟩]
      exact ⟨_, rfl, rfl, rest, rfl⟩
    | true =>
      rw [if_neg (by simp), if_pos (by simp), if_neg (by simp), extract_found true hg hd hs hne (fun e he => ha e (by simp [he]) (h1 e he)), hf]
      simp only [if_true, Option.map_some, Option.bind_some]
      have hg' : GoodEntries sep d (pre ++ post) := by rw [← hf]; exact good_filter hg _
      have hll : (entriesText sep d (pre ++ post)).length ≤ (entriesText sep d (pre ++ (n, w) :: post)).length := by rw [← hf]; exact text_filter_length _ _ _ _
      generalize hr : List.drop ((entriesText sep d (pre ++ post)).length + 1) (entriesText sep d (pre ++ (n, w) :: post) ++ 0 :: rest) = r
      have hrl : r.length = (entriesText sep d (pre ++ (n, w) :: post) ++ 0 :: rest).length - ((entriesText sep d (pre ++ post)).length + 1) := by rw [← hr]; simp
      have hb' : Holds (entriesText sep d (pre ++ post) ++ 0 :: r) (entriesText sep d (pre ++ post)) := ⟨r, rfl⟩
      have hlen : (entriesText sep d (pre ++ post) ++ 0 :: r).length = (entriesText sep d (pre ++ (n, w) :: post) ++ 0 :: rest).length := by
        simp only [List.length_append, List.length_cons] at hrl ⊢; omega
      rw [contains_zero hb']
      simp only [Bool.true_eq_false, if_false]
      rw [← hlen]
      exact append_entry (n := n) (v := v) hb' hg' hd hs (by omega) (by rw [hlen]; exact hsize)
  · rw [extract_absent false hb hg hd hs hn hne (fun e he => ha e he (fun h => hin ⟨e, he, h⟩))]
    simp only [Option.bind_some]
    rw [if_neg (by simp), if_neg (by simp), if_neg (by simp [hin])]
    simp only [Option.bind_some, contains_zero hb, Bool.true_eq_false, if_false]
    rw [List.filter_eq_self.mpr (fun e he => by simpa using fun h => hin ⟨e, he, h⟩)]
    exact append_entry (n := n) (v := v) hb hg hd hs hroom hsize

end Hec
