import Verif.Model.Pack
import Verif.Proofs.Encoding
/-! Lemmas about packing and unpacking of time series blocks. -/
namespace Hec

theorem expandLoop_junk {E : Type} [DecidableEq E] [Inhabited E] (h : List Nat) (junk xs : List E) :
    ∀ (n i : Nat) (cur : E), Marks h i cur xs → n ≤ xs.length →
      expandLoop h n i (changes cur xs ++ junk) cur = xs.take n := by
  induction xs with
  | nil =>
    intro n i cur _ hn
    simp only [List.length_nil, Nat.le_zero_eq] at hn
    subst hn
    rfl
  | cons x xs ih =>
    intro n i cur hm hn
    cases n with
    | zero => rfl
    | succ n =>
      simp only [List.length_cons] at hn
      unfold expandLoop
      rw [hm.1]
      by_cases hx : x = cur
      · subst hx
        simp only [decide_true, if_true, changes, List.take_succ_cons]
        rw [ih n (i + 1) x hm.2 (by omega)]
      · simp only [hx, decide_false, changes, if_false, List.take_succ_cons, List.head?_cons,
          Option.getD_some, List.tail_cons, List.cons_append]
        rw [if_neg (by simp), ih n (i + 1) x hm.2 (by omega)]

theorem skipLoop_junk {E : Type} [DecidableEq E] [Inhabited E] (h : List Nat) (junk xs : List E) :
    ∀ (n i : Nat) (cur : E), Marks h i cur xs → n ≤ xs.length →
      skipLoop h n i (changes cur xs ++ junk) cur =
        (changes (((cur :: xs)[n]?).getD default) (xs.drop n) ++ junk, ((cur :: xs)[n]?).getD default) ∧
      Marks h (i + n) (((cur :: xs)[n]?).getD default) (xs.drop n) := by
  induction xs with
  | nil =>
    intro n i cur _ hn
    simp only [List.length_nil, Nat.le_zero_eq] at hn
    subst hn
    exact ⟨rfl, trivial⟩
  | cons x xs ih =>
    intro n i cur hm hn
    cases n with
    | zero => exact ⟨rfl, hm⟩
    | succ n =>
      simp only [List.length_cons] at hn
      unfold skipLoop
      rw [hm.1]
      have hi := ih n (i + 1) x hm.2 (by omega)
      by_cases hx : x = cur
      · subst hx
        simp only [decide_true, if_true, changes, List.drop_succ_cons, List.getElem?_cons_succ]
        refine ⟨hi.1, ?_⟩
        have e : i + (n + 1) = i + 1 + n := by omega
        rw [e]; exact hi.2
      · simp only [hx, decide_false, changes, if_false, List.drop_succ_cons,
          List.getElem?_cons_succ, List.cons_append, List.tail_cons, List.head?_cons, Option.getD_some]
        rw [if_neg (by simp)]
        refine ⟨hi.1, ?_⟩
        have e : i + (n + 1) = i + 1 + n := by omega
        rw [e]; exact hi.2

theorem repeatBit_append (h t : List Nat) (j : Nat) (hj : j < h.length * 32) :
    repeatBit (h ++ t) j = repeatBit h j := by
  unfold repeatBit
  rw [List.getElem?_append_left (by omega)]

theorem Marks_append {E : Type} [DecidableEq E] (h t : List Nat) (xs : List E) :
    ∀ (i : Nat) (prev : E), i + xs.length ≤ h.length * 32 → Marks h i prev xs → Marks (h ++ t) i prev xs := by
  induction xs with
  | nil => intros; trivial
  | cons x xs ih =>
    intro i prev hl hm
    simp only [List.length_cons] at hl
    exact ⟨by rw [repeatBit_append h t i (by omega)]; exact hm.1, ih (i + 1) x (by omega) hm.2⟩

/-- Uncompressing a non empty window of compressed data, with whatever follows the compressed data
and the bit map. -/
theorem uncompress_window {E : Type} [DecidableEq E] [Inhabited E] (data junk : List E) (words : Nat)
    (t : List Nat) (start stop : Nat) (hwords : data.length ≤ words * 32) (h1 : start < stop)
    (h3 : stop ≤ data.length) :
    let c := repeatCompress data (List.replicate words 0)
    repeatUncompress start stop (c.1 ++ t) (c.2 ++ junk) = (data.drop start).take (stop - start) := by
  match data with
  | [] => simp at h3; omega
  | x :: xs =>
    simp only [List.length_cons] at hwords h3
    intro c
    have hz : ∀ j, repeatBit (List.replicate words 0) j = false := by
      intro j
      rw [repeatBit_eq]
      by_cases hj : j / 32 < words
      · simp [hj]
      · simp [hj]
    have hc : c = compressLoop xs 1 x (List.replicate words 0) [x] := rfl
    obtain ⟨a1, a2, a3, a4⟩ := compressLoop_spec xs 1 x (List.replicate words 0) [x]
      (by simp; omega) (fun j _ => hz j)
    rw [← hc] at a1 a2 a3 a4
    simp only [List.length_replicate] at a3
    have b0 : repeatBit (c.1 ++ t) 0 = false := by
      rw [repeatBit_append _ _ _ (by rw [a3]; omega), a4 0 (by omega)]; exact hz 0
    have a2' : Marks (c.1 ++ t) 1 x xs := Marks_append c.1 t xs 1 x (by rw [a3]; omega) a2
    generalize hh : c.1 ++ t = hd at a2' b0
    unfold repeatUncompress
    rw [a1]
    have hskip : (if start = 0 then (([x] ++ changes x xs ++ junk).tail, ([x] ++ changes x xs ++ junk).head?.getD default)
        else skipLoop hd (start + 1) 0 ([x] ++ changes x xs ++ junk) default) =
        (changes (((x :: xs)[start]?).getD default) (xs.drop start) ++ junk, ((x :: xs)[start]?).getD default) ∧
        Marks hd (1 + start) (((x :: xs)[start]?).getD default) (xs.drop start) := by
      obtain ⟨s1, s2⟩ := skipLoop_junk hd junk xs start 1 x a2' (by omega)
      refine ⟨?_, s2⟩
      by_cases hs : start = 0
      · subst hs; rfl
      · rw [if_neg hs]
        unfold skipLoop
        rw [b0]
        simp only [Bool.false_eq_true, if_false]
        exact s1
    rw [hskip.1]
    simp only
    have hget : (x :: xs)[start]? = some ((x :: xs)[start]'(by simp; omega)) :=
      List.getElem?_eq_getElem (by simp; omega)
    have hdrop : (x :: xs).drop start = ((x :: xs)[start]?).getD default :: xs.drop start := by
      rw [hget, List.drop_eq_getElem_cons (by simp; omega)]
      rfl
    rw [if_neg (by omega), hdrop]
    have e : stop - start = (stop - (start + 1)) + 1 := by omega
    rw [e, List.take_succ_cons]
    have := expandLoop_junk hd junk (xs.drop start) (stop - (start + 1)) (1 + start) _ hskip.2
      (by simp; omega)
    rw [Nat.add_comm 1 start] at this
    rw [this]

theorem changes_repeats {E : Type} [DecidableEq E] (xs : List E) :
    ∀ prev : E, (changes prev xs).length + repeatsFrom prev xs = xs.length := by
  induction xs with
  | nil => intro _; rfl
  | cons x xs ih =>
    intro prev
    unfold changes repeatsFrom
    have := ih x
    by_cases h : x = prev
    · simp only [h, if_true, List.length_cons]; rw [h] at this; omega
    · simp only [h, if_false, List.length_cons]; omega

theorem compress_length {E : Type} [DecidableEq E] (data : List E) (words : Nat)
    (hwords : data.length ≤ words * 32) (hne : data ≠ []) :
    (repeatCompress data (List.replicate words 0)).2.length = data.length - repeatNumber data ∧
    (repeatCompress data (List.replicate words 0)).1.length = words := by
  match data with
  | [] => exact absurd rfl hne
  | x :: xs =>
    simp only [List.length_cons] at hwords
    have hz : ∀ j, repeatBit (List.replicate words 0) j = false := by
      intro j
      rw [repeatBit_eq]
      by_cases hj : j / 32 < words
      · simp [hj]
      · simp [hj]
    obtain ⟨a1, -, a3, -⟩ := compressLoop_spec xs 1 x (List.replicate words 0) [x]
      (by simp; omega) (fun j _ => hz j)
    have := changes_repeats xs x
    constructor
    · show (compressLoop xs 1 x (List.replicate words 0) [x]).2.length = _
      rw [a1]
      simp only [List.length_append, List.length_cons, List.length_nil, repeatNumber]
      omega
    · show (compressLoop xs 1 x (List.replicate words 0) [x]).1.length = _
      rw [a3]; simp

theorem compress_mem {E : Type} [DecidableEq E] (data : List E) (words : Nat)
    (hwords : data.length ≤ words * 32) (e : E) :
    e ∈ (repeatCompress data (List.replicate words 0)).2 → e ∈ data := by
  match data with
  | [] => exact id
  | x :: xs =>
    simp only [List.length_cons] at hwords
    have hz : ∀ j, repeatBit (List.replicate words 0) j = false := by
      intro j
      rw [repeatBit_eq]
      by_cases hj : j / 32 < words
      · simp [hj]
      · simp [hj]
    obtain ⟨a1, -, -, -⟩ := compressLoop_spec xs 1 x (List.replicate words 0) [x]
      (by simp; omega) (fun j _ => hz j)
    show e ∈ (compressLoop xs 1 x (List.replicate words 0) [x]).2 → _
    rw [a1]
    have hch : ∀ (ys : List E) (p : E), e ∈ changes p ys → e ∈ ys := by
      intro ys
      induction ys with
      | nil => intro _ h; exact h
      | cons y ys ih =>
        intro p h
        unfold changes at h
        split at h
        · exact List.mem_cons_of_mem _ (ih _ h)
        · rcases List.mem_cons.1 h with h | h
          · rw [h]; exact List.mem_cons_self ..
          · exact List.mem_cons_of_mem _ (ih _ h)
    intro h
    rcases List.mem_append.1 h with h | h
    · simp only [List.mem_singleton] at h; rw [h]; exact List.mem_cons_self ..
    · exact List.mem_cons_of_mem _ (hch _ _ h)

theorem all_repeats {E : Type} [DecidableEq E] (xs : List E) :
    ∀ x : E, repeatsFrom x xs = xs.length → ∀ y ∈ xs, y = x := by
  have le : ∀ (ys : List E) (p : E), repeatsFrom p ys ≤ ys.length := by
    intro ys p; have := changes_repeats ys p; omega
  induction xs with
  | nil => intro _ _ _ h; exact absurd h (List.not_mem_nil)
  | cons z zs ih =>
    intro x h y hy
    unfold repeatsFrom at h
    simp only [List.length_cons] at h
    have := le zs z
    by_cases hz : z = x
    · subst hz
      rcases List.mem_cons.1 hy with hy | hy
      · exact hy
      · exact ih z (by simp at h; omega) y hy
    · simp only [hz, if_false] at h; omega

/-! Elements inside a flat list of words. -/

theorem drop_flatten {W : Type} (size : Nat) (els : List (List W)) (hs : ∀ e ∈ els, e.length = size)
    (i : Nat) (tail : List W) : i ≤ els.length →
    (els.flatten ++ tail).drop (i * size) = (els.drop i).flatten ++ tail := by
  intro hi
  induction els generalizing i with
  | nil => simp at hi; subst hi; simp
  | cons e es ih =>
    cases i with
    | zero => simp
    | succ i =>
      simp only [List.length_cons] at hi
      have he : e.length = size := hs e (List.mem_cons_self ..)
      have : (i + 1) * size = e.length + i * size := by rw [he, Nat.add_mul]; omega
      rw [this, List.flatten_cons, List.append_assoc, List.drop_append, List.drop_of_length_le (by omega)]
      simp only [List.nil_append, List.drop_succ_cons]
      rw [show e.length + i * size - e.length = i * size by omega]
      exact ih (fun e' h' => hs e' (List.mem_cons_of_mem _ h')) i (by omega)

theorem elemAt_flatten {W : Type} (size : Nat) (pre : List W) (els : List (List W))
    (hs : ∀ e ∈ els, e.length = size) (tail : List W) (i : Nat) (hi : i < els.length) :
    elemAt (pre ++ els.flatten ++ tail) pre.length size i = els[i] := by
  unfold elemAt
  rw [List.append_assoc, Nat.add_comm, ← List.drop_drop, ]
  rw [List.drop_drop, Nat.add_comm (i * size), ← List.drop_drop, List.drop_left,
    drop_flatten size els hs i tail (by omega), List.drop_eq_getElem_cons hi, List.flatten_cons,
    List.append_assoc, List.take_append]
  have he : els[i].length = size := hs _ (List.getElem_mem ..)
  rw [← he]
  simp

theorem length_flatten_const {W : Type} (size : Nat) (els : List (List W))
    (hs : ∀ e ∈ els, e.length = size) : els.flatten.length = els.length * size := by
  induction els with
  | nil => simp
  | cons e es ih =>
    rw [List.flatten_cons, List.length_append, ih (fun e' h' => hs e' (List.mem_cons_of_mem _ h')),
      hs e (List.mem_cons_self ..), List.length_cons, Nat.add_mul]; omega

theorem map_range_drop {E F : Type} (l : List E) (f : Nat → F) (start n : Nat) (g : E → F)
    (hn : start + n ≤ l.length) (h : ∀ i (hi : i < l.length), f i = g l[i]) :
    (List.range n).map (fun i => f (start + i)) = ((l.drop start).take n).map g := by
  apply List.ext_getElem
  · simp; omega
  · intro i h1 h2
    simp at h1
    simp [h (start + i) (by omega)]

theorem bitWords_ge (n : Nat) : n ≤ bitWords n * 32 := by unfold bitWords; omega

/-- Reading a window of an area back. -/
theorem readArea_spec {W : Type} [DecidableEq W] [Inhabited W] (flag size : Nat) (els : List (List W))
    (hs : ∀ e ∈ els, e.length = size) (hsz : 0 < size) (pre tail : List W) (hpre htail : List Nat)
    (start stop : Nat) (h1 : start < stop) (h2 : stop ≤ els.length)
    (hflag : flag ≤ 2) (h2all : flag = 2 → repeatNumber els + 1 = els.length) :
    readArea (pre ++ areaWords flag els ++ tail) (hpre ++ areaBits flag els ++ htail) flag size
      pre.length hpre.length start stop = (els.drop start).take (stop - start) := by
  have hn0 : els ≠ [] := by intro h; rw [h] at h2; simp at h2; omega
  unfold readArea
  by_cases f0 : flag = 0
  · rw [if_pos f0]
    have : areaWords flag els = els.flatten := by unfold areaWords; rw [if_neg (by omega), if_neg (by omega)]
    rw [this]
    have := map_range_drop els (fun i => elemAt (pre ++ els.flatten ++ tail) pre.length size i) start
      (stop - start) id (by omega) (fun i hi => elemAt_flatten size pre els hs tail i hi)
    simpa using this
  · rw [if_neg f0]
    by_cases f1 : flag = 1
    · rw [if_pos f1]
      have hw : areaWords flag els = (repeatCompress els (List.replicate (bitWords els.length) 0)).2.flatten := by
        unfold areaWords; rw [if_pos f1]
      have hb : areaBits flag els = (repeatCompress els (List.replicate (bitWords els.length) 0)).1 := by
        unfold areaBits; rw [if_pos f1]
      rw [hw, hb]
      have hge := bitWords_ge els.length
      have hmem := compress_mem els (bitWords els.length) hge
      have key := uncompress_window els
      generalize hc : repeatCompress els (List.replicate (bitWords els.length) 0) = c at *
      have hcs : ∀ e ∈ c.2, e.length = size := fun e he => hs e (hmem e he)
      have hlen : (pre ++ c.2.flatten ++ tail).length - pre.length = c.2.length * size + tail.length := by
        simp only [List.length_append]
        rw [length_flatten_const size c.2 hcs]; omega
      have hdiv : c.2.length ≤ ((pre ++ c.2.flatten ++ tail).length - pre.length) / size := by
        rw [hlen]
        rw [Nat.le_div_iff_mul_le hsz]; omega
      generalize ((pre ++ c.2.flatten ++ tail).length - pre.length) / size = k at hdiv
      have hlist : (List.range k).map (fun i => elemAt (pre ++ c.2.flatten ++ tail) pre.length size i) =
          c.2 ++ (List.range (k - c.2.length)).map
            (fun i => elemAt (pre ++ c.2.flatten ++ tail) pre.length size (c.2.length + i)) := by
        apply List.ext_getElem
        · simp; omega
        · intro i ha hb'
          simp at ha
          rw [List.getElem_append]
          simp only [List.getElem_map, List.getElem_range]
          split
          · rename_i hi
            exact elemAt_flatten size pre c.2 hcs tail i hi
          · rename_i hi
            rw [show c.2.length + (i - c.2.length) = i by omega]
      rw [hlist]
      have hd : (hpre ++ c.1 ++ htail).drop hpre.length = c.1 ++ htail := by
        rw [List.append_assoc, List.drop_left]
      rw [hd]
      have := key ((List.range (k - c.2.length)).map
            (fun i => elemAt (pre ++ c.2.flatten ++ tail) pre.length size (c.2.length + i)))
            (bitWords els.length) htail start stop hge h1 h2
      rw [hc] at this
      exact this
    · rw [if_neg f1]
      have f2 : flag = 2 := by omega
      have hw : areaWords flag els = els.headD [] := by
        unfold areaWords; rw [if_neg f1, if_pos f2]
      rw [hw]
      match els, hn0 with
      | x :: xs, _ =>
        simp only [List.headD_cons]
        have hx : elemAt (pre ++ x ++ tail) pre.length size 0 = x := by
          have := elemAt_flatten size pre [x] (by intro e he; simp at he; rw [he]; exact hs x (List.mem_cons_self ..)) tail 0 (by simp)
          simpa using this
        rw [hx]
        have hall := all_repeats xs x (by have := h2all f2; simp [repeatNumber] at this; omega)
        apply List.ext_getElem
        · simp at h2 ⊢; omega
        · intro i ha hb'
          simp only [List.getElem_map, List.getElem_take, List.getElem_drop]
          have hm : (x :: xs)[start + i]'(by simp at ha h2 ⊢; omega) ∈ x :: xs := List.getElem_mem ..
          rcases List.mem_cons.1 hm with h | h
          · exact h.symm
          · exact (hall _ h).symm

theorem padEven_append {W : Type} [Inhabited W] (l : List W) : ∃ t, padEven l = l ++ t := by
  unfold padEven
  split
  · exact ⟨_, rfl⟩
  · exact ⟨[], by simp⟩

theorem padEven_length {W : Type} [Inhabited W] (l : List W) : (padEven l).length = alignPos l.length := by
  unfold padEven alignPos
  split <;> simp

theorem areaFlag_le {E : Type} [DecidableEq E] (b : Bool) (l : List E) : areaFlag b l ≤ 2 := by
  unfold areaFlag; split
  · split <;> omega
  · omega

theorem areaFlag_two {E : Type} [DecidableEq E] (b : Bool) (l : List E) :
    areaFlag b l = 2 → repeatNumber l + 1 = l.length := by
  unfold areaFlag; split
  · split
    · intro _; assumption
    · intro h; omega
  · intro h; omega

theorem areaWords_length {W : Type} [DecidableEq W] (b : Bool) (size : Nat) (els : List (List W))
    (hs : ∀ e ∈ els, e.length = size) (hn : els ≠ []) :
    (areaWords (areaFlag b els) els).length = areaNumber (areaFlag b els) size els := by
  have hge := bitWords_ge els.length
  unfold areaWords areaNumber
  split
  · rw [length_flatten_const size _ (fun e he => hs e (compress_mem els _ hge e he)),
      (compress_length els _ hge hn).1]
  · split
    · match els, hn with
      | x :: xs, _ => exact hs x (List.mem_cons_self ..)
    · exact length_flatten_const size els hs

theorem areaBits_length {W : Type} [DecidableEq W] (flag : Nat) (els : List (List W)) (hn : els ≠ []) :
    (areaBits flag els).length = if flag = 1 then bitWords els.length else 0 := by
  unfold areaBits
  split
  · exact (compress_length els _ (bitWords_ge els.length) hn).2
  · rfl

theorem areaFlag_false {E : Type} [DecidableEq E] (l : List E) : areaFlag false l = 0 := by
  unfold areaFlag; simp

theorem alignPos_even (p : Nat) : alignPos p % 2 = 0 := by unfold alignPos; split <;> omega

/-- The shape of what `aggregate` produces. -/
theorem aggregate_shape {W : Type} [DecidableEq W] [Inhabited W] (pol : PackPolicy) (times : List W)
    (vsz : Nat) (vals : List (List W)) (qsz : Nat) (quals : List (List W)) (nsz : Nat)
    (notes : List (List W)) (hv : ∀ e ∈ vals, e.length = vsz) (hn : vals ≠ [])
    (hq : ∀ e ∈ quals, e.length = qsz) (hql : 0 < qsz → quals.length = vals.length)
    (hm : ∀ e ∈ notes, e.length = nsz) (hml : 0 < nsz → notes.length = vals.length) :
    ∃ (cv cq cn : Bool) (h2 : List Nat), let p := aggregate pol times vsz vals qsz quals nsz notes
      let vf := areaFlag cv vals
      let qf := areaFlag cq quals
      let nf := areaFlag cn notes
      let d1 := padEven (times ++ areaWords vf vals)
      let d2 := if qsz > 0 then padEven (d1 ++ areaWords qf quals) else d1
      let d3 := if nsz > 0 then padEven (d2 ++ areaWords nf notes) else d2
      p.data = d3 ∧
      p.header2 = areaBits vf vals ++ areaBits qf quals ++ areaBits nf notes ++ h2 ∧
      (0 < qsz ∨ cq = false) ∧ (0 < nsz ∨ cn = false) ∧
      p.head = ⟨vsz, vf, areaNumber vf vsz vals, qsz, qf, if qsz > 0 then areaNumber qf qsz quals else 0,
        nsz, nf, if nsz > 0 then areaNumber nf nsz notes else 0⟩ := by
  unfold aggregate
  simp only
  generalize hcv : (decide (vals.length > 12) && pol.values (repeatNumber vals) vals.length) = cv
  generalize hcq : (decide (vals.length > 12) && decide (qsz > 0) && pol.flags (repeatNumber quals) vals.length) = cq
  generalize hcn : (decide (vals.length > 12) && decide (nsz > 0) && pol.flags (repeatNumber notes) vals.length) = cn
  have q0 : 0 < qsz ∨ cq = false := by
    rcases Nat.eq_zero_or_pos qsz with h | h
    · right; rw [← hcq]; simp [h]
    · exact Or.inl h
  have n0 : 0 < nsz ∨ cn = false := by
    rcases Nat.eq_zero_or_pos nsz with h | h
    · right; rw [← hcn]; simp [h]
    · exact Or.inl h
  split
  · rename_i h
    simp only [Bool.and_eq_true, Bool.not_eq_true'] at h
    obtain ⟨⟨h1, h2⟩, h3⟩ := h
    refine ⟨false, false, false, [], ?_⟩
    simp only [areaFlag_false]
    simp only [areaWords, areaBits, areaNumber]
    refine ⟨by simp, by simp, by simp, by simp, ?_⟩
    have eq : vals.length * qsz = if qsz > 0 then quals.length * qsz else 0 := by
      split
      · rename_i hp; rw [hql hp]
      · rename_i hp; rw [show qsz = 0 by omega]; simp
    have en : vals.length * nsz = if nsz > 0 then notes.length * nsz else 0 := by
      split
      · rename_i hp; rw [hml hp]
      · rename_i hp; rw [show nsz = 0 by omega]; simp
    simp only [PackHead.mk.injEq]
    simp [eq, en]
  · rename_i hne
    split
    · rename_i h
      obtain ⟨hr, hq0, hn0⟩ := h
      subst hq0; subst hn0
      have hcqf : cq = false := by rcases q0 with h | h; omega; exact h
      have hcnf : cn = false := by rcases n0 with h | h; omega; exact h
      have hcvt : cv = true := by
        cases cv
        · subst hcqf hcnf; simp at hne
        · rfl
      refine ⟨true, false, false, [], ?_⟩
      have hf : areaFlag true vals = 2 := by unfold areaFlag; simp [hr]
      simp only [areaFlag_false, hf]
      simp [areaWords, areaBits, areaNumber]
    · refine ⟨cv, cq, cn, List.replicate ((cv.toNat + cq.toNat + cn.toNat) * bitWords vals.length -
        (areaBits (areaFlag cv vals) vals ++ areaBits (areaFlag cq quals) quals ++
          areaBits (areaFlag cn notes) notes).length) 0, rfl, rfl, q0, n0, ?_⟩
      have eq : areaNumber (areaFlag cq quals) qsz quals =
          if qsz > 0 then areaNumber (areaFlag cq quals) qsz quals else 0 := by
        split
        · rfl
        · rename_i hp
          have : cq = false := by rcases q0 with h | h; omega; exact h
          rw [this, areaFlag_false, show qsz = 0 by omega]; simp [areaNumber]
      have en : areaNumber (areaFlag cn notes) nsz notes =
          if nsz > 0 then areaNumber (areaFlag cn notes) nsz notes else 0 := by
        split
        · rfl
        · rename_i hp
          have : cn = false := by rcases n0 with h | h; omega; exact h
          rw [this, areaFlag_false, show nsz = 0 by omega]; simp [areaNumber]
      rw [← eq, ← en]

end Hec
