import Verif.Proofs.Trim
import Verif.Props.RegSeries
/-! C40: trimming missing values off the ends of a series. -/
namespace Hec
open _root_.Spec (trimEnds noteAt RegInterval)

/-- Everything a series holds for one position. -/
structure Row (V : Type) where
  values : List V
  stamp : List Int
  quality : List Int
  inotes : List Int
  note : List Nat

/-- Words of one value: the number of depths for profiles. -/
def TrimSeries.size {V : Type} (t : TrimSeries V) : Nat := if t.depths = 0 then 1 else t.depths

/-- Position `k` of a series. -/
def TrimSeries.row {V : Type} (t : TrimSeries V) (k : Nat) : Row V :=
  ⟨groupAt t.values t.size k, groupAt t.times 1 k, groupAt t.quality t.qualitySize k,
    groupAt t.inotes t.inoteSize k, noteAt t.cnotes k⟩

def TrimSeries.rows {V : Type} (t : TrimSeries V) : List (Row V) := (List.range t.numberValues).map t.row

/-- The arrays have the sizes the counts say; the notes end with a null. -/
structure TrimSeries.Ok {V : Type} (t : TrimSeries V) : Prop where
  values : t.values.length = t.numberValues * t.size
  times : if t.timesGiven then t.times.length = t.numberValues else t.times = []
  quality : t.quality.length = t.numberValues * t.qualitySize
  inotes : t.inotes.length = t.numberValues * t.inoteSize
  notes : t.cnotes = [] ∨ t.cnotes.getLast? = some 0

/-- A position is missing if all its values (one, or one for each depth) are. -/
def Row.missing {V : Type} (isMissing : V → Bool) (r : Row V) : Bool := r.values.all isMissing

theorem rows_get {V : Type} (t : TrimSeries V) (k : Nat) (h : k < t.rows.length) : t.rows[k] = t.row k := by
  simp [TrimSeries.rows]

theorem cut_notes (bytes : List Nat) (h : bytes = [] ∨ bytes.getLast? = some 0) (f n : Nat) :
    let count := if (f : Int) > 0 then countLines bytes bytes.length f else 0
    let room := bytes.length - count
    let out := if bytes = [] then [] else copyLines room (bytes.drop count) room n
    (out = [] ∨ out.getLast? = some 0) ∧ ∀ k, k < n → noteAt out k = noteAt bytes (f + k) := by
  intro count room out
  obtain ⟨ls, e, hz⟩ := lines_exist bytes.length bytes (by omega) h
  have hcount : count = (flat (ls.take f)).length := by
    show (if (f : Int) > 0 then countLines bytes bytes.length f else 0) = _
    by_cases hf : (f : Int) > 0
    · rw [if_pos hf, e, countLines_flat hz]
    · have : f = 0 := by omega
      rw [if_neg hf, this]; simp [flat]
  have hdrop : bytes.drop count = flat (ls.drop f) := by rw [hcount, e]; exact flat_take_drop ls f
  have hroom : room = (flat (ls.drop f)).length := by
    show bytes.length - count = _
    rw [← hdrop, List.length_drop]
  have hz2 : ∀ l ∈ ls.drop f, ∀ c ∈ l, c ≠ 0 := fun l hl => hz l (List.mem_of_mem_drop hl)
  have hout : out = flat ((ls.drop f).take n) := by
    show (if bytes = [] then [] else copyLines room (bytes.drop count) room n) = _
    by_cases hb : bytes = []
    · rw [if_pos hb]
      have : ls = [] := by
        apply Decidable.byContradiction
        intro hne
        have := flat_pos hne
        rw [← e, hb] at this
        simp at this
      rw [this]; simp [flat]
    · rw [if_neg hb, hroom, hdrop, copyLines_flat hz2]
  refine ⟨?_, ?_⟩
  · rw [hout]
    rcases List.eq_nil_or_concat ((ls.drop f).take n) with h0 | ⟨a, b, h0⟩
    · left; rw [h0]; rfl
    · right; rw [h0, List.concat_eq_append, flat_append]; simp [flat]
  · intro k hk
    rw [hout, e, noteAt_flat _ _ (fun l hl => hz2 l (List.mem_of_mem_take hl)), noteAt_flat _ _ hz]
    rw [List.getElem?_take_of_lt hk, List.getElem?_drop]

theorem adjust_fields {V : Type} (t : TrimSeries V) (f l : Int) :
    (trimAdjust t f l).depths = t.depths ∧ (trimAdjust t f l).numberValues = (l - f + 1).toNat ∧
    (trimAdjust t f l).values = t.values ∧ (trimAdjust t f l).qualitySize = t.qualitySize ∧
    (trimAdjust t f l).inoteSize = t.inoteSize ∧ (trimAdjust t f l).timesGiven = t.timesGiven :=
  ⟨rfl, rfl, rfl, rfl, rfl, rfl⟩

/-- What ztsTrim does to a series that is not all missing. -/
theorem trim_some {V : Type} (m : V → Bool) (t : TrimSeries V) (ht : t.Ok)
    (hv : ∃ k, k < t.numberValues ∧ (t.row k).missing m = false) :
    ∃ (t' : TrimSeries V) (f l : Nat), ztsTrim m t = some (0, t') ∧ t'.Ok ∧ f ≤ l ∧ l < t.numberValues ∧
      (t.row f).missing m = false ∧ (t.row l).missing m = false ∧
      (∀ k, k < f → (t.row k).missing m = true) ∧ (∀ k, l < k → k < t.numberValues → (t.row k).missing m = true) ∧
      t'.rows = (t.rows.drop f).take (l + 1 - f) ∧
      (t' = t ∨ ∃ tm q i c, t' = { trimAdjust { t with values := t'.values } f l with times := tm, quality := q, inotes := i, cnotes := c }) ∧
      (t' = t → f = 0 ∧ l + 1 = t.numberValues) ∧ t'.numberValues = l + 1 - f := by
  have hsz : (if t.depths = 0 then 1 else t.depths) = t.size := rfl
  have hn0 : t.numberValues ≠ 0 := by obtain ⟨k, hk, _⟩ := hv; omega
  obtain ⟨f, hf, hf1, hf2, hf3⟩ : ∃ f : Nat, f < t.numberValues ∧ trimFirst m t.size t.values t.numberValues 0 = (0 + f : Nat) ∧
      (groupAt t.values t.size f).all m = false ∧ ∀ k, k < f → (groupAt t.values t.size k).all m = true := by
    rcases trimFirst_spec m t.size t.numberValues t.values 0 with ⟨_, h⟩ | h
    · obtain ⟨k, hk, hkm⟩ := hv
      have := h k hk
      change (groupAt t.values t.size k).all m = false at hkm
      rw [this] at hkm; cases hkm
    · exact h
  obtain ⟨l, hl, hl1, hl2, hl3⟩ : ∃ l : Nat, l < t.numberValues ∧ trimLast m t.size t.values t.numberValues t.numberValues = l ∧
      (groupAt t.values t.size l).all m = false ∧ ∀ k, l < k → k < t.numberValues → (groupAt t.values t.size k).all m = true := by
    rcases trimLast_spec m t.size t.values t.numberValues t.numberValues with ⟨_, h⟩ | h
    · obtain ⟨k, hk, hkm⟩ := hv
      have := h k hk
      change (groupAt t.values t.size k).all m = false at hkm
      rw [this] at hkm; cases hkm
    · exact h
  have hfl : f ≤ l := by
    rcases Nat.lt_or_ge l f with h | h
    · have := hf3 l h; rw [hl2] at this; cases this
    · exact h
  rw [Nat.zero_add] at hf1
  have hne : ¬ ((f : Int) = -1) := by omega
  have hcopy : ∀ {E : Type} (src : List E) (size : Nat), src.length = t.numberValues * size →
      copyElements src size (f : Int) ((l : Int) - f + 1).toNat = some ((src.drop (f * size)).take ((l + 1 - f) * size)) := by
    intro E src size hlen
    rw [show ((l : Int) - f + 1).toNat = l + 1 - f by omega]
    apply copyElements_eq
    rw [hlen]
    exact Nat.mul_le_mul_right _ (by omega)
  have hcutlen : ∀ {E : Type} (src : List E) (size : Nat), src.length = t.numberValues * size →
      ((src.drop (f * size)).take ((l + 1 - f) * size)).length = (l + 1 - f) * size := by
    intro E src size hlen
    rw [List.length_take, List.length_drop, hlen, ← Nat.sub_mul]
    apply Nat.min_eq_left
    exact Nat.mul_le_mul_right _ (by omega)
  have hrows : t.rows.length = t.numberValues := by simp [TrimSeries.rows]
  by_cases hcut : f > 0 ∨ l + 1 < t.numberValues
  · have hcond : ((f : Int) > 0 ∨ (l : Int) < (t.numberValues : Int) - 1) := by omega
    have hb : ((decide ((f : Int) > 0) || (if t.depths = 0 then decide ((l : Int) < (t.numberValues : Int) - 1) else decide ((l : Int) ≠ (t.numberValues : Int) - 1))) = true) := by
      rcases hcut with h | h
      · simp; left; exact h
      · have h2 : ((l : Int) < (t.numberValues : Int) - 1) := by omega
        have h3 : ((l : Int) ≠ (t.numberValues : Int) - 1) := by omega
        rw [decide_eq_true h2, decide_eq_true h3]
        simp
    obtain ⟨hnt1, hnt2⟩ := cut_notes t.cnotes ht.notes f (l + 1 - f)
    refine ⟨{ trimAdjust { t with values := (t.values.drop (f * t.size)).take ((l + 1 - f) * t.size) } f l with
        times := if t.timesGiven then (t.times.drop (f * 1)).take ((l + 1 - f) * 1) else t.times,
        quality := (t.quality.drop (f * t.qualitySize)).take ((l + 1 - f) * t.qualitySize),
        inotes := (t.inotes.drop (f * t.inoteSize)).take ((l + 1 - f) * t.inoteSize),
        cnotes := (if t.cnotes = [] then [] else copyLines (t.cnotes.length - (if (f : Int) > 0 then countLines t.cnotes t.cnotes.length f else 0)) (t.cnotes.drop (if (f : Int) > 0 then countLines t.cnotes t.cnotes.length f else 0)) (t.cnotes.length - (if (f : Int) > 0 then countLines t.cnotes t.cnotes.length f else 0)) (l + 1 - f)) },
      f, l, ?_, ?_, hfl, hl, hf2, hl2, hf3, hl3, ?_, Or.inr ⟨_, _, _, _, rfl⟩, ?_, ?_⟩
    · unfold ztsTrim
      rw [if_neg hn0]
      simp only [hsz, hf1, if_neg hne, hl1]
      rw [hb]
      simp only [Bool.true_eq_false, false_and, if_false, if_true]
      rw [hcopy t.values t.size ht.values]
      simp only
      rw [if_pos hcond, hcopy t.quality t.qualitySize ht.quality, hcopy t.inotes t.inoteSize ht.inotes]
      have htm : (if t.timesGiven = true then copyElements t.times 1 (f : Int) ((l : Int) - f + 1).toNat else some t.times) =
          some (if t.timesGiven = true then (t.times.drop (f * 1)).take ((l + 1 - f) * 1) else t.times) := by
        have := ht.times
        by_cases hg : t.timesGiven = true
        · rw [if_pos hg] at this ⊢
          rw [if_pos hg, hcopy t.times 1 (by omega)]
        · rw [if_neg hg, if_neg hg]
      rw [htm]
      simp only [Int.toNat_natCast]
      rw [show ((l : Int) - f + 1).toNat = l + 1 - f by omega]
    · refine ⟨?_, ?_, ?_, ?_, hnt1⟩
      · show ((t.values.drop (f * t.size)).take ((l + 1 - f) * t.size)).length = ((l : Int) - f + 1).toNat * t.size
        rw [hcutlen _ _ ht.values, show ((l : Int) - f + 1).toNat = l + 1 - f by omega]
      · show if t.timesGiven = true then (if t.timesGiven = true then (t.times.drop (f * 1)).take ((l + 1 - f) * 1) else t.times).length = ((l : Int) - f + 1).toNat
          else (if t.timesGiven = true then (t.times.drop (f * 1)).take ((l + 1 - f) * 1) else t.times) = []
        have := ht.times
        by_cases hg : t.timesGiven = true
        · rw [if_pos hg] at this ⊢
          rw [if_pos hg, hcutlen t.times 1 (by omega)]; omega
        · rw [if_neg hg] at this ⊢
          rw [if_neg hg]; exact this
      · show ((t.quality.drop (f * t.qualitySize)).take ((l + 1 - f) * t.qualitySize)).length = ((l : Int) - f + 1).toNat * t.qualitySize
        rw [hcutlen _ _ ht.quality, show ((l : Int) - f + 1).toNat = l + 1 - f by omega]
      · show ((t.inotes.drop (f * t.inoteSize)).take ((l + 1 - f) * t.inoteSize)).length = ((l : Int) - f + 1).toNat * t.inoteSize
        rw [hcutlen _ _ ht.inotes, show ((l : Int) - f + 1).toNat = l + 1 - f by omega]
    · apply List.ext_getElem
      · simp [TrimSeries.rows, trimAdjust]; omega
      · intro k h1 h2
        have hk : k < l + 1 - f := by
          simp [TrimSeries.rows, trimAdjust] at h1; omega
        rw [rows_get, List.getElem_take, List.getElem_drop, rows_get]
        show Row.mk _ _ _ _ _ = Row.mk _ _ _ _ _
        congr 1
        · exact groupAt_cut t.values t.size f (l + 1 - f) k hk
        · show groupAt (if t.timesGiven = true then (t.times.drop (f * 1)).take ((l + 1 - f) * 1) else t.times) 1 k = _
          have := ht.times
          by_cases hg : t.timesGiven = true
          · rw [if_pos hg]; exact groupAt_cut t.times 1 f (l + 1 - f) k hk
          · rw [if_neg hg] at this ⊢
            rw [this]; simp [groupAt]
        · exact groupAt_cut t.quality t.qualitySize f (l + 1 - f) k hk
        · exact groupAt_cut t.inotes t.inoteSize f (l + 1 - f) k hk
        · exact hnt2 k hk
    · intro h
      have h2 := congrArg TrimSeries.numberValues h
      have h3 : ((l : Int) - f + 1).toNat = t.numberValues := h2
      omega
    · show ((l : Int) - f + 1).toNat = l + 1 - f
      omega
  · have f0 : f = 0 := by omega
    have hl' : l + 1 = t.numberValues := by omega
    have hb : ((decide ((f : Int) > 0) || (if t.depths = 0 then decide ((l : Int) < (t.numberValues : Int) - 1) else decide ((l : Int) ≠ (t.numberValues : Int) - 1))) = false) := by
      have h1 : ¬ ((f : Int) > 0) := by omega
      have h2 : ¬ ((l : Int) < (t.numberValues : Int) - 1) := by omega
      have h3 : ¬ ((l : Int) ≠ (t.numberValues : Int) - 1) := by omega
      rw [decide_eq_false h1, decide_eq_false h2, decide_eq_false h3]
      simp
    refine ⟨t, f, l, ?_, ht, hfl, hl, hf2, hl2, hf3, hl3, ?_, Or.inl rfl, fun _ => ⟨f0, hl'⟩, by omega⟩
    · unfold ztsTrim
      rw [if_neg hn0]
      simp only [hsz, hf1, if_neg hne, hl1]
      rw [hb, if_neg (by simp)]
      simp only [Bool.false_eq_true, if_false]
      rw [if_neg (by omega)]
    · rw [f0, List.drop_zero, List.take_of_length_le]
      rw [hrows]; omega

/-- C40. Trimming a series with at least one value succeeds and removes exactly the leading and
trailing positions whose values are missing, with their times, quality and notes; everything between
is kept.  (Profiles included: a position is missing if the values at all depths are.) -/
theorem C40_trim {V : Type} (isMissing : V → Bool) (t : TrimSeries V) (ht : t.Ok)
    (hv : ∃ k, k < t.numberValues ∧ (t.row k).missing isMissing = false) :
    ∃ t', ztsTrim isMissing t = some (0, t') ∧ t'.Ok ∧ t'.rows = trimEnds (Row.missing isMissing) t.rows := by
  obtain ⟨t', f, l, h1, h2, h3, h4, h5, h6, h7, h8, h9, _⟩ := trim_some isMissing t ht hv
  refine ⟨t', h1, h2, ?_⟩
  have hrows : t.rows.length = t.numberValues := by simp [TrimSeries.rows]
  rw [h9]
  symm
  apply trimEnds_eq h3 (by omega)
  · intro k hk hkf; rw [rows_get]; exact h7 k hkf
  · rw [rows_get]; exact h5
  · rw [rows_get]; exact h6
  · intro k hk hkl; rw [rows_get]; exact h8 k hkl (by omega)

/-- C40, times of regular data: the start time given after trimming is the time of the first value
kept, and the end time that of the last one (for standard times of every interval but weeks; the end
time is moved back unless that meets the undefined time, 31 December 1899 0000). -/
theorem C40_times {V : Type} (isMissing : V → Bool) (t : TrimSeries V) (ht : t.Ok)
    (hv : ∃ k, k < t.numberValues ∧ (t.row k).missing isMissing = false)
    (r : RegInterval) (hr : r.Ok) (hi : t.interval = r.secs) (a : Int) (ha : InRange r a)
    (hs : (t.startJulian + t.julianBase, t.startSeconds) = r.time julianOf a)
    (he : (t.endJulian + t.julianBase, t.endSeconds) = r.time julianOf (a + t.numberValues - 1)) :
    ∃ (t' : TrimSeries V) (first : Nat), ztsTrim isMissing t = some (0, t') ∧
      t'.rows = (t.rows.drop first).take t'.numberValues ∧
      (t'.startJulian + t.julianBase, t'.startSeconds) = r.time julianOf (a + first) ∧
      (¬ HitsUndefined t.interval (first + t'.numberValues - t.numberValues) (t.endJulian + t.julianBase) t.endSeconds →
        (t'.endJulian + t.julianBase, t'.endSeconds) = r.time julianOf (a + first + t'.numberValues - 1)) := by
  obtain ⟨t', f, l, h1, h2, h3, h4, h5, h6, h7, h8, h9, h10, h11, h12⟩ := trim_some isMissing t ht hv
  obtain ⟨code, jbOf, edge, n0, G, hrange, hdate, _⟩ := grid_of r hr
  have hrows : t.rows.length = t.numberValues := by simp [TrimSeries.rows]
  have hipos : t.interval > 0 := by
    rw [hi]
    cases r with
    | fixed i => exact hr.1
    | period p => cases p <;> decide
  refine ⟨t', f, h1, by rw [h9, h12], ?_, ?_⟩
  · rcases h10 with h | ⟨tm, q, i, c, h⟩
    · obtain ⟨f0, _⟩ := h11 h
      rw [h, f0, hs]; simp
    · rw [h]
      simp only [trimAdjust]
      by_cases hf : (f : Int) > 0
      · rw [if_pos hf, if_pos hipos]
        simp only
        have : incrementTime t.interval f (t.startJulian + t.julianBase) t.startSeconds = r.time julianOf (a + f) := by
          have e1 := congrArg Prod.fst hs
          have e2 := congrArg Prod.snd hs
          simp only at e1 e2
          rw [hi, e1, e2]
          exact G.inc a f (hrange a ha) (by omega)
        rw [this]
        apply Prod.ext
        · simp only; omega
        · rfl
      · rw [if_neg hf]
        have : f = 0 := by omega
        rw [this, hs]; simp
  · intro hu
    rcases h10 with h | ⟨tm, q, i, c, h⟩
    · obtain ⟨f0, hl⟩ := h11 h
      rw [h, he]
      congr 1
      omega
    · rw [h12] at hu ⊢
      rw [h]
      simp only [trimAdjust]
      rw [show a + (f : Int) + ((l + 1 - f : Nat) : Int) - 1 = a + l by omega]
      by_cases hl : (l : Int) < (t.numberValues : Int) - 1
      · rw [if_pos hl, if_pos hipos]
        simp only
        have e1 := congrArg Prod.fst he
        have e2 := congrArg Prod.snd he
        simp only at e1 e2
        have : incrementTime t.interval ((l : Int) - t.numberValues + 1) (t.endJulian + t.julianBase) t.endSeconds = r.time julianOf (a + l) := by
          rw [hi, e1, e2]
          rw [hi, e1, e2] at hu
          rw [show (f : Int) + ((l + 1 - f : Nat) : Int) - t.numberValues = (l : Int) - t.numberValues + 1 by omega] at hu
          cases r with
          | fixed i =>
            have hle : i ≤ 86400 := Int.le_of_dvd (by decide) hr.2
            have hlow : julianOf ⟨100, 1, 1⟩ * 86400 < a * i := ha
            have hN := Int.mul_nonneg (show 0 ≤ (t.numberValues : Int) - 1 by omega) (show 0 ≤ i by have := hr.1; omega)
            have ff := fixedTime_facts i (a + t.numberValues - 1)
            have hexp : (a + (t.numberValues : Int) - 1) * i = a * i + ((t.numberValues : Int) - 1) * i := by
              rw [← Int.add_mul]; congr 1; omega
            have hj : (-1000000 : Int) ≤ julianOf ⟨100, 1, 1⟩ := by decide
            have hday : IsTime (fixedTime i (a + t.numberValues - 1)).1 (fixedTime i (a + t.numberValues - 1)).2 := by
              unfold IsTime UNDEFINED_TIME
              omega
            obtain ⟨r1, r2⟩ := C07_increment_adds i ((l : Int) - t.numberValues + 1) (fixedTime i (a + t.numberValues - 1)).1
              (fixedTime i (a + t.numberValues - 1)).2 hr.1 (by omega) hday hu
            show incrementTime i _ (fixedTime i (a + t.numberValues - 1)).1 (fixedTime i (a + t.numberValues - 1)).2 = fixedTime i (a + l)
            generalize incrementTime i ((l : Int) - t.numberValues + 1) (fixedTime i (a + t.numberValues - 1)).1 (fixedTime i (a + t.numberValues - 1)).2 = x at *
            unfold Spec.instant at r2
            have hexp2 : (a + (l : Int)) * i = (a + (t.numberValues : Int) - 1) * i + ((l : Int) - t.numberValues + 1) * i := by
              rw [← Int.add_mul]; congr 1; omega
            exact (fixedTime_unique r1.1 r1.2 (by omega)).symm
          | period p =>
            have hy : 100 ≤ (p.endDate a).year := ha
            have hyy : ∀ k : Int, 0 ≤ k → 5 ≤ (p.endDate (a + k)).year := by
              intro k hk
              rw [endDate_year] at hy ⊢
              have := Int.ediv_le_ediv (show 0 < perYear p by have := perYear_pos p; omega) (show a ≤ a + k by omega)
              omega
            have := C09_end_of_period p (a + t.numberValues - 1) ((l : Int) - t.numberValues + 1)
              (by rw [show a + (t.numberValues : Int) - 1 = a + ((t.numberValues : Int) - 1) by omega]; exact hyy _ (by omega))
              (by rw [show a + (t.numberValues : Int) - 1 + ((l : Int) - t.numberValues + 1) = a + l by omega]; exact hyy _ (by omega))
            rw [show a + (t.numberValues : Int) - 1 + ((l : Int) - t.numberValues + 1) = a + l by omega] at this
            exact this
        rw [this]
        apply Prod.ext
        · simp only; omega
        · rfl
      · rw [if_neg hl, he]
        congr 1
        omega

/-- C40. A series of single values that are all missing is left without values, with an error code. -/
theorem C40_all_missing {V : Type} (isMissing : V → Bool) (t : TrimSeries V) (hd : t.depths = 0)
    (hn : t.numberValues ≠ 0) (hv : ∀ k, k < t.numberValues → (t.row k).missing isMissing = true) :
    ztsTrim isMissing t = some (-1, { t with numberValues := 0 }) := by
  have hsz : t.size = 1 := by simp [TrimSeries.size, hd]
  have h1 : trimFirst isMissing 1 t.values t.numberValues 0 = -1 := by
    rcases trimFirst_spec isMissing 1 t.numberValues t.values 0 with h | ⟨f, hf, _, h3, _⟩
    · exact h.1
    · have := hv f hf
      change (groupAt t.values t.size f).all isMissing = true at this
      rw [hsz, h3] at this; cases this
  unfold ztsTrim
  rw [if_neg hn]
  simp only [hd, if_true, h1]
  rw [if_pos]
  constructor
  · simp
  · simp

/-- A regular series of five values with quality and notes, for the examples. -/
def sampleTrim : TrimSeries Int :=
  ⟨0, 5, [-901, 7, -901, 8, -901], false, [], 1, [0, 1, 2, 3, 4], 0, [], [65, 0, 0, 66, 67, 0, 68, 0, 0],
    3600, 36525, 86400, 36526, 14400, 0, 1⟩

example : sampleTrim.Ok ∧ (∃ k, k < sampleTrim.numberValues ∧ (sampleTrim.row k).missing (fun v => v = -901) = false) ∧
    (RegInterval.fixed 3600).Ok ∧ InRange (.fixed 3600) (36526 * 24) ∧
    (ztsTrim (fun v => v = -901) sampleTrim).map (fun r => (r.2.values, r.2.quality, r.2.cnotes, r.2.numberValues, r.2.startJulian, r.2.startSeconds)) =
      some ([7, -901, 8], [1, 2, 3], [0, 66, 67, 0, 68, 0], 3, 36526, 3600) := by
  refine ⟨⟨by decide, by decide, by decide, by decide, by decide⟩, ⟨1, by decide, by decide⟩, ⟨by decide, ⟨24, by decide⟩⟩, ?_, by decide +kernel⟩
  show julianOf ⟨100, 1, 1⟩ * 86400 < 36526 * 24 * 3600
  decide

/-- Not C40: for a profile whose values are all missing the code reads before the array. -/
theorem C40_profile_violation :
    let t : TrimSeries Int := ⟨2, 2, [-901, -901, -901, -901], false, [], 0, [], 0, [], [], 3600, 36525, 86400, 36526, 3600, 0, 1⟩
    t.Ok ∧ ztsTrim (fun v => v = -901) t = none := by
  refine ⟨⟨by decide, by decide, by decide, by decide, by decide⟩, by decide +kernel⟩

end Hec
