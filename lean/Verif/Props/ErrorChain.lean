import Verif.Model.ErrorChain
import Verif.Props.Encoding
/-!
Property theorems: C92 (an error stays the same error while it is passed to the caller).
-/
namespace Hec

/-- The code made where an error happens: a severity, the function, the number of the error and
the status of the system (zerrorProcessing encodes no calling function). -/
structure FreshError (e sev low dss sys : Int) : Prop where
  code : e = zerrorEncode sev 0 low dss sys
  severity : 1 ≤ sev ∧ sev ≤ 9
  low : 0 ≤ low ∧ low ≤ 99
  number : 0 ≤ dss ∧ dss ≤ 99
  system : 0 ≤ sys ∧ sys ≤ 99

theorem fresh_value {e sev low dss sys : Int} (h : FreshError e sev low dss sys) :
    e = -(sys + dss * 100 + low * 10000 + sev * 100000000) := by
  obtain ⟨hc, hs, hl, hd, hy⟩ := h
  rw [hc]; unfold zerrorEncode; simp only
  rw [if_neg (show ¬ (sys > 99 ∨ sys < -9) by omega), if_pos (by omega)]
  omega

/-- Decoding a negative code whose fields are known. -/
theorem decode_value {s h l d y : Int} (hs : 0 ≤ s) (hh : 0 ≤ h ∧ h ≤ 99) (hl : 0 ≤ l ∧ l ≤ 99)
    (hd : 0 ≤ d ∧ d ≤ 99) (hy : 0 ≤ y ∧ y ≤ 99)
    (e : Int) (he : e = -(y + d * 100 + l * 10000 + h * 1000000 + s * 100000000)) :
    zerrorDecode e = ⟨s, h, l, d, y⟩ := by
  unfold zerrorDecode
  have hn : (if e < 0 then -e else e) = -e := by split <;> omega
  simp only [hn]
  have q1 : cdiv (-e) 100000000 = s := by rw [cdiv_nonneg_eq (by omega)]; omega
  rw [q1]
  have q2 : cdiv (-e - s * 100000000) 1000000 = h := by rw [cdiv_nonneg_eq (by omega)]; omega
  rw [q2]
  have q3 : cdiv (-e - (s * 100000000 + h * 1000000)) 10000 = l := by
    rw [cdiv_nonneg_eq (by omega)]; omega
  rw [q3]
  have q4 : cdiv (-e - (s * 100000000 + h * 1000000 + l * 10000)) 100 = d := by
    rw [cdiv_nonneg_eq (by omega)]; omega
  rw [q4]
  congr 1
  omega

/-- A code above the fields of a fresh error: `k` millions were taken away. -/
theorem isError_value {sev low dss sys k : Int} (hl : 0 ≤ low ∧ low ≤ 99)
    (hd : 0 ≤ dss ∧ dss ≤ 99) (hy : 0 ≤ sys ∧ sys ≤ 99) (hk : k + 100 ≤ sev * 100)
    (e : Int) (he : e = -(sys + dss * 100 + low * 10000 + sev * 100000000) + k * 1000000) :
    zisError e = true ↔ k ≤ 100 * (sev - 3) := by
  have := decode_value (s := (100 * sev - k) / 100) (h := (100 * sev - k) % 100) (l := low)
    (d := dss) (y := sys) (by omega) (by omega) hl hd hy e (by omega)
  unfold zisError
  rw [if_neg (by omega), if_neg (by omega), if_neg (by omega), this]
  simp only [decide_eq_true_eq, ge_iff_le]
  omega

/-- What `passUp` returns: the callers add themselves while the severity is left, then nothing
changes any more. -/
theorem passUp_spec {sev low dss sys : Int} (h3 : 3 ≤ sev) (hl : 0 ≤ low ∧ low ≤ 99)
    (hd : 0 ≤ dss ∧ dss ≤ 99) (hy : 0 ≤ sys ∧ sys ≤ 99) :
    ∀ (callers : List Int) (k : Int), (∀ f ∈ callers, 1 ≤ f ∧ f ≤ 99) →
      k ≤ 100 * (sev - 3) + 99 → ∀ e : Int,
      e = -(sys + dss * 100 + low * 10000 + sev * 100000000) + k * 1000000 →
      ∃ k', passUp e callers =
          -(sys + dss * 100 + low * 10000 + sev * 100000000) + k' * 1000000 ∧
        k ≤ k' ∧ k' ≤ 100 * (sev - 3) + 99 ∧
        (k + callers.sum ≤ 100 * (sev - 3) → k' = k + callers.sum) ∧
        (k' ≤ 100 * (sev - 3) ↔ k + callers.sum ≤ 100 * (sev - 3) ∨
          (callers = [] ∧ k ≤ 100 * (sev - 3)))
  | [], k, _, hk, e, he => by
    refine ⟨k, he, by omega, hk, fun _ => by simp, ?_⟩
    simp
  | f :: fs, k, hf, hk, e, he => by
    have hf1 := hf f (by simp)
    have hpos : 0 ≤ fs.sum := by
      have : ∀ l : List Int, (∀ f ∈ l, 1 ≤ f ∧ f ≤ 99) → 0 ≤ l.sum := by
        intro l
        induction l with
        | nil => simp
        | cons a l ih =>
          intro h
          have := h a (by simp)
          have := ih (fun x hx => h x (by simp [hx]))
          simp only [List.sum_cons]; omega
      exact this fs (fun x hx => hf x (by simp [hx]))
    have hz := isError_value hl hd hy (k := k) (sev := sev) (by omega) e he
    by_cases hc : k ≤ 100 * (sev - 3)
    · have hstep : passUp e (f :: fs) = passUp (e + f * 1000000) fs := by
        unfold passUp
        rw [List.foldl_cons, if_pos (hz.mpr hc)]
        unfold zerrorUpdate zerrorEncodeHigh
        rw [if_neg (by omega)]
      obtain ⟨k', h1, h2, h3', h4, h5⟩ := passUp_spec h3 hl hd hy fs (k + f)
        (fun x hx => hf x (by simp [hx])) (by omega) (e + f * 1000000) (by omega)
      refine ⟨k', by rw [hstep, h1], by omega, h3', ?_, ?_⟩
      · intro hs
        simp only [List.sum_cons] at hs ⊢
        have := h4 (by omega)
        omega
      · rw [h5]
        simp only [List.sum_cons]
        constructor
        · rintro (h | ⟨h, h'⟩)
          · left; omega
          · left; subst h; simp; omega
        · rintro (h | ⟨h, _⟩)
          · left; omega
          · simp at h
    · have hstep : passUp e (f :: fs) = passUp e fs := by
        unfold passUp
        rw [List.foldl_cons, if_neg (by rw [hz]; exact hc)]
      obtain ⟨k', h1, h2, h3', h4, h5⟩ := passUp_spec h3 hl hd hy fs k
        (fun x hx => hf x (by simp [hx])) hk e he
      refine ⟨k', by rw [hstep, h1], h2, h3', ?_, ?_⟩
      · intro hs
        simp only [List.sum_cons] at hs ⊢
        omega
      · simp only [List.sum_cons]
        constructor
        · intro h; exfalso; omega
        · rintro (h | ⟨h, _⟩)
          · exfalso; omega
          · simp at h

/-- C92. Whether an error is still reported as one after any list of calling functions has passed
it on is decided by the sum of their identities: there are one hundred for every level of severity
above "invalid argument", and no more. (The full property has no such bound.) -/
theorem C92_still_error_partial {e sev low dss sys : Int} (h : FreshError e sev low dss sys)
    (h3 : 3 ≤ sev) (callers : List Int) (hf : ∀ f ∈ callers, 1 ≤ f ∧ f ≤ 99) :
    zisError (passUp e callers) = true ↔ callers.sum ≤ 100 * (sev - 3) := by
  have hv := fresh_value h
  obtain ⟨k', h1, h2, h3', h4, h5⟩ := passUp_spec h3 h.low h.number h.system callers 0 hf
    (by omega) e (by omega)
  rw [isError_value h.low h.number h.system (by omega) _ h1, h5]
  constructor
  · rintro (h | ⟨h, h'⟩)
    · omega
    · subst h; simpa using h'
  · intro h; left; omega

/-- C92. Whatever the callers, the status passed on stays a negative number which fits an int, and
the function where the error happened, the number of the error and the status of the system can
still be read from it. -/
theorem C92_fields_partial {e sev low dss sys : Int} (h : FreshError e sev low dss sys)
    (h3 : 3 ≤ sev) (callers : List Int) (hf : ∀ f ∈ callers, 1 ≤ f ∧ f ≤ 99) :
    passUp e callers < 0 ∧ -2147483648 ≤ passUp e callers ∧
    (zerrorDecode (passUp e callers)).low = low ∧
    (zerrorDecode (passUp e callers)).dssError = dss ∧
    (zerrorDecode (passUp e callers)).status = sys ∧
    2 ≤ (zerrorDecode (passUp e callers)).severity ∧
    (zerrorDecode (passUp e callers)).severity ≤ sev := by
  have hv := fresh_value h
  have hs := h.severity
  have hl := h.low
  have hd := h.number
  have hy := h.system
  obtain ⟨k', h1, h2, h3', h4, h5⟩ := passUp_spec h3 hl hd hy callers 0 hf
    (by omega) e (by omega)
  have := decode_value (s := (100 * sev - k') / 100) (h := (100 * sev - k') % 100) (l := low)
    (d := dss) (y := sys) (by omega) (by omega) hl hd hy (passUp e callers) (by omega)
  rw [this]
  simp only [true_and]
  omega

/-- Three callers of a read error (severity 7) whose identities add up to less than 400. -/
example : FreshError (zerrorEncode 7 0 10 25 2) 7 10 25 2 ∧
    passUp (zerrorEncode 7 0 10 25 2) [25, 27, 78] = -570102502 ∧
    zisError (-570102502) = true ∧
    zerrorDecode (-570102502) = ⟨5, 70, 10, 25, 2⟩ := by
  refine ⟨⟨rfl, by decide, by decide, by decide, by decide⟩, by decide, by decide, by decide⟩

/-- C92, failing part: an invalid argument is no longer an error as soon as one calling function
has passed it on, whatever this function: the next function goes on as if all went well. -/
theorem C92_invalid_argument_violation {e low dss sys : Int} (h : FreshError e 3 low dss sys)
    (f : Int) (hf : 1 ≤ f ∧ f ≤ 99) :
    zisError e = true ∧ zisError (zerrorUpdate e f) = false := by
  have hv := fresh_value h
  refine ⟨(isError_value h.low h.number h.system (k := 0) (sev := 3) (by omega) e
    (by omega)).mpr (by omega), ?_⟩
  have hu : zerrorUpdate e f = e + f * 1000000 := by
    unfold zerrorUpdate zerrorEncodeHigh
    have := h.low; have := h.number; have := h.system
    rw [if_neg (by omega)]
  have := isError_value h.low h.number h.system (k := f) (sev := 3) (by omega)
    (zerrorUpdate e f) (by omega)
  cases hz : zisError (zerrorUpdate e f) with
  | false => rfl
  | true => have := this.mp hz; omega

example : FreshError (zerrorEncode 3 0 25 20 0) 3 25 20 0 :=
  ⟨rfl, by decide, by decide, by decide, by decide⟩

/-- C92, failing part: after one caller the severity is one less and the caller read from the code
is one hundred minus its identity, so the name given as "called by" is right for identity 50
only. -/
theorem C92_caller_violation {e sev low dss sys : Int} (h : FreshError e sev low dss sys)
    (f : Int) (hf : 1 ≤ f ∧ f ≤ 99) :
    zerrorDecode (zerrorUpdate e f) = ⟨sev - 1, 100 - f, low, dss, sys⟩ ∧
    errorFunctions (zerrorUpdate e f) = (low, 100 - f) ∧
    ((errorFunctions (zerrorUpdate e f)).2 = f ↔ f = 50) := by
  have hv := fresh_value h
  have hs := h.severity
  have hl := h.low
  have hd := h.number
  have hy := h.system
  have hu : zerrorUpdate e f = e + f * 1000000 := by
    unfold zerrorUpdate zerrorEncodeHigh
    rw [if_neg (by omega)]
  have := decode_value (s := sev - 1) (h := 100 - f) (l := low)
    (d := dss) (y := sys) (by omega) (by omega) hl hd hy (zerrorUpdate e f) (by omega)
  unfold errorFunctions
  rw [this]
  refine ⟨rfl, rfl, ?_⟩
  show 100 - f = f ↔ _
  omega

/-- C92, failing part: a memory error is told to the user as a file error, and a write error as an
access error, as soon as one function has passed it on. -/
theorem C92_type_violation {e sev low dss sys : Int} (h : FreshError e sev low dss sys)
    (f : Int) (hf : 1 ≤ f ∧ f ≤ 99) :
    (sev = 9 → errorType e = 4 ∧ errorType (zerrorUpdate e f) = 3) ∧
    (sev = 6 → errorType e = 3 ∧ errorType (zerrorUpdate e f) = 2) := by
  have hv := fresh_value h
  have hs := h.severity
  have hd := decode_value (s := sev) (h := 0) (by omega) (by omega) h.low h.number h.system e
    (by omega)
  have hu := (C92_caller_violation h f hf).1
  unfold errorType
  rw [hd, hu]
  constructor
  · intro h9; subst h9; exact ⟨rfl, rfl⟩
  · intro h6; subst h6; exact ⟨rfl, rfl⟩

/-- C92, failing part: the small statuses (-2 to -9) count as errors, but passing one on makes it
a large positive number, which every function takes for success. -/
theorem C92_small_status_violation (s f : Int) (hs : -9 ≤ s ∧ s ≤ -2) (hf : 1 ≤ f ∧ f ≤ 99) :
    zisError s = true ∧ 0 < zerrorUpdate s f ∧ zisError (zerrorUpdate s f) = false := by
  have hu : zerrorUpdate s f = s + f * 1000000 := by
    unfold zerrorUpdate zerrorEncodeHigh
    rw [if_neg (by omega)]
  refine ⟨?_, by omega, C20_not_error _ (by omega)⟩
  unfold zisError
  rw [if_neg (by omega), if_neg (by omega), if_pos (by omega)]

end Hec
