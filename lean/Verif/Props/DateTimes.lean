import Verif.Model.DateTimes
import Verif.Props.Dates
import Verif.Props.TimeStrings
/-!
Property theorems for instants as a date and a time of day: C90.
-/
namespace Hec
open _root_.Spec (Date)

/-! ### C90: the date and the time shown for an instant are those of the instant -/

/-- Seconds from the start of the day number 0 to the time `seconds` of the day `julian`. -/
def instantOf (julian seconds : Int) : Int := julian * 86400 + seconds

/-- The texts name the instant: reading the date gives a day, reading the time gives a time of the day,
and together they are the instant (in seconds). -/
def Names (texts : Bytes × Bytes) (instant : Int) : Prop :=
  ∃ s : Int, 0 ≤ s ∧ s ≤ 86400 ∧ timeStringToSeconds (textOf texts.2) = some s ∧
    instantOf (dateToJulian texts.1) s = instant

/-- The last day of the years 5 to 9999 and the first. -/
def firstDay : Int := julianOf ⟨5, 1, 1⟩
def lastDay : Int := julianOf ⟨9999, 12, 31⟩

theorem hourMin_text (m : Nat) (hm : m ≤ 1440) (size : Nat) (hz : 5 ≤ size) :
    timeStringToSeconds (textOf (minutesToHourMin m size)) = some ((m * 60 : Nat) : Int) := by
  have e : minutesToHourMin m size = secondsToTimeString ((m * 60 : Nat) : Int) 0 0 13 := by
    have h := text_of_time (m * 60) 0 (by omega) (by omega) 0 (by omega) (by omega) 13 (by omega)
    have h' : secondsToTimeString ((m * 60 : Nat) : Int) 0 0 13 =
      two ((m * 60 / 3600 : Nat) : Int) ++ [] ++ two ((m * 60 % 3600 / 60 : Nat) : Int) ++ [] ++ [] ++ [0] := h
    rw [h']
    unfold minutesToHourMin
    simp only
    rw [if_neg (by omega), cdiv_nonneg_eq (by omega)]
    have e1 : (m : Int) / 60 = ((m * 60 / 3600 : Nat) : Int) := by omega
    have e2 : (m : Int) - ((m * 60 / 3600 : Nat) : Int) * 60 = ((m * 60 % 3600 / 60 : Nat) : Int) := by omega
    rw [e1, e2]
    simp only [List.append_nil]
  rw [e]
  have h := C15_minutes_roundtrip (m * 60) 0 (by omega) (by omega) 13 (by omega) 0 (Or.inl rfl)
  have h' : timeStringToSeconds (textOf (secondsToTimeString ((m * 60 : Nat) : Int) 0 0 13)) =
    some ((m * 60 / 60 * 60 : Nat) : Int) := h
  rw [h']
  congr 2
  omega

theorem seconds_text (s : Nat) (hs : s ≤ 86400) (size : Nat) (hz : 9 ≤ size) :
    timeStringToSeconds (textOf (secondsToTimeString s 0 2 size)) = some (s : Int) := by
  have e : secondsToTimeString s 0 2 size = secondsToTimeString s 0 2 13 := by
    have l : ∀ n : Int, (two n).length = 2 := fun n => rfl
    have key : ∀ z : Nat, 9 ≤ z → secondsToTimeString s 0 2 z =
        two (cdiv s 3600) ++ [58] ++ two (cdiv (s - cdiv s 3600 * 3600) 60) ++ [58] ++
          two (s - cdiv s 3600 * 3600 - cdiv (s - cdiv s 3600 * 3600) 60 * 60) ++ [0] := by
      intro z hz
      unfold secondsToTimeString SECS_IN_1_DAY
      rw [if_neg (show ¬ z < 5 by omega), if_neg (by omega)]
      simp only
      rw [if_neg (show ¬ ((2 : Int) < 2 ∨ z < 9) by omega), if_pos (Or.inl (by decide)), if_pos (show (2 : Int) ≠ 0 by decide)]
      rw [if_pos (by simp only [List.length_append, l, List.length_cons, List.length_nil]; omega)]
    rw [key size hz, key 13 (by omega)]
  rw [e]
  exact C15_seconds_roundtrip s 0 hs (by omega) 13 (by omega)

theorem four_full : (4 : Int) ∈ fullStyles := by decide

/-- C90. The texts for the position `time` of a series with the base date `base` and the unit of time
`gran` (seconds, minutes, or minutes a whole number of which make a day) name this instant, before and
after the base date; midnight is 24:00 of the day before. -/
theorem C90_position_partial (time base : Int) (gran : Nat) (dateSize timeSize : Nat)
    (hg : gran = 1 ∨ (60 ∣ gran ∧ gran ∣ 86400)) (hd : 30 ≤ dateSize) (ht : 9 ≤ timeSize)
    (h1 : instantOf firstDay 0 < instantOf base (time * gran))
    (h2 : instantOf base (time * gran) ≤ instantOf lastDay 86400) :
    ∃ texts, getDateAndTime exactYearGuess time gran base dateSize timeSize = some texts ∧
      Names texts (instantOf base (time * gran)) ∧
      timeStringToSeconds (textOf texts.2) ≠ some 0 := by
  have hdv : gran ∣ 86400 := by rcases hg with h | h; · subst h; exact ⟨86400, rfl⟩
                                · exact h.2
  obtain ⟨n, hn⟩ := hdv
  have hgpos : 0 < gran := by rcases Nat.eq_zero_or_pos gran with h | h; · subst h; omega
                              · exact h
  have hnpos : 0 < n := by rcases Nat.eq_zero_or_pos n with h | h; · subst h; omega
                           · exact h
  have hnd : cdiv SECS_IN_1_DAY (gran : Int) = (n : Int) := by
    unfold SECS_IN_1_DAY
    rw [cdiv_nonneg_eq (by omega)]
    have : ((86400 : Nat) : Int) / (gran : Int) = ((86400 / gran : Nat) : Int) := rfl
    rw [show (86400 : Int) = ((86400 : Nat) : Int) from rfl, this, hn, Nat.mul_div_cancel_left _ hgpos]
  have hgn : (gran : Int) * n = 86400 := by rw [← Int.natCast_mul, ← hn]; rfl
  -- the day and the time of the day
  obtain ⟨q, t, hq, ht1, ht2, hqt⟩ : ∃ q t : Int, cdiv time n = q ∧ -(n : Int) < t ∧ t < n ∧ time = q * n + t := by
    refine ⟨cdiv time n, time - cdiv time n * n, rfl, ?_, ?_, by omega⟩
    · rw [cdiv_eq]
      split
      · rename_i h
        have := Int.emod_nonneg time (show (n : Int) ≠ 0 by omega)
        have := Int.mul_ediv_add_emod time n
        rw [Int.mul_comm] at this
        omega
      · have h3 := Int.emod_lt_of_pos (-time) (show (0 : Int) < n by omega)
        have h4 := Int.mul_ediv_add_emod (-time) n
        rw [Int.mul_comm] at h4
        rw [Int.neg_mul]
        omega
    · rw [cdiv_eq]
      split
      · have h3 := Int.emod_lt_of_pos time (show (0 : Int) < n by omega)
        have h4 := Int.mul_ediv_add_emod time n
        rw [Int.mul_comm] at h4
        omega
      · have h3 := Int.emod_nonneg (-time) (show (n : Int) ≠ 0 by omega)
        have h4 := Int.mul_ediv_add_emod (-time) n
        rw [Int.mul_comm] at h4
        rw [Int.neg_mul]
        omega
  obtain ⟨j, k, hj, hk, hk1, hk2, hjk⟩ : ∃ (j : Int) (k : Nat), j = (if t < 1 then base + q - 1 else base + q) ∧
      (k : Int) = (if t < 1 then t + n else t) ∧ 1 ≤ k ∧ k ≤ n ∧ base * n + time = j * n + k := by
    by_cases c : t < 1
    · refine ⟨_, (t + n).toNat, rfl, by rw [if_pos c]; omega, by omega, by omega, ?_⟩
      rw [if_pos c, hqt, Int.sub_mul, Int.add_mul]
      omega
    · refine ⟨_, t.toNat, rfl, by rw [if_neg c]; omega, by omega, by omega, ?_⟩
      rw [if_neg c, hqt, Int.add_mul]
      omega
  have hin : instantOf base (time * gran) = j * 86400 + ((k * gran : Nat) : Int) := by
    unfold instantOf
    rw [← hgn, ← Int.mul_assoc, ← Int.mul_assoc, Int.mul_right_comm base, Int.mul_right_comm j, ← Int.add_mul, hjk, Int.add_mul]
    rfl
  have hkg : k * gran ≤ 86400 := by
    rw [hn, Nat.mul_comm gran]; exact Nat.mul_le_mul_right _ hk2
  have hkg1 : 1 ≤ k * gran := Nat.mul_pos hk1 hgpos
  have hj1 : firstDay ≤ j := by
    rw [hin] at h1; unfold instantOf at h1; omega
  have hj2 : j ≤ lastDay := by
    rw [hin] at h2; unfold instantOf at h2; omega
  obtain ⟨d, hd1, hd2⟩ := C45_julian_roundtrip j 4 dateSize hj1 hj2 four_full hd
  have hval : ∃ text, getDateAndTime exactYearGuess time gran base dateSize timeSize = some (d, text) ∧
      timeStringToSeconds (textOf text) = some ((k * gran : Nat) : Int) := by
    unfold getDateAndTime
    simp only
    rw [if_neg (show ¬ (gran : Int) < 1 by omega), hnd, if_neg (by omega), hq]
    have ht' : time - q * n = t := by omega
    rw [ht', ← hj, ← hk, hd1]
    refine ⟨_, rfl, ?_⟩
    by_cases g1 : gran = 1
    · subst g1
      rw [if_pos (show ((1 : Nat) : Int) = 1 from rfl)]
      rw [seconds_text k (by omega) timeSize (by omega)]
      congr 1; omega
    · rw [if_neg (by omega)]
      obtain ⟨c, hc⟩ := (hg.resolve_left g1).1
      by_cases g2 : gran = 60
      · subst g2
        rw [if_pos (show ((60 : Nat) : Int) = 60 from rfl), hourMin_text k (by omega) timeSize (by omega)]
      · rw [if_neg (by omega)]
        have e : (k : Int) * cdiv (gran : Int) SECS_IN_1_MINUTE = ((k * c : Nat) : Int) := by
          unfold SECS_IN_1_MINUTE
          rw [cdiv_nonneg_eq (by omega), show ((gran : Nat) : Int) / 60 = (c : Int) by omega]
          rfl
        have e2 : k * gran = k * c * 60 := by rw [hc, Nat.mul_comm 60, Nat.mul_assoc]
        rw [e, hourMin_text (k * c) (by omega) timeSize (by omega), e2]
  obtain ⟨text, hv1, hv2⟩ := hval
  refine ⟨(d, text), hv1, ⟨((k * gran : Nat) : Int), by omega, by omega, hv2, ?_⟩, ?_⟩
  · rw [hin]; show instantOf (dateToJulian d) _ = _; rw [hd2]; rfl
  · show timeStringToSeconds (textOf text) ≠ some 0
    rw [hv2]
    intro h
    have := Option.some.inj h
    omega

/-- C90. The texts for a number of minutes after the start of 31Dec1899 name this instant. -/
theorem C90_minutes_partial (mins dateSize timeSize : Nat) (hd : 30 ≤ dateSize) (ht : 5 ≤ timeSize)
    (h2 : instantOf 0 (mins * 60) < instantOf lastDay 86400) :
    ∃ texts, minsToDateTime exactYearGuess mins dateSize timeSize = some texts ∧
      Names texts (instantOf 0 (mins * 60)) := by
  have hf : firstDay ≤ 0 := by decide
  obtain ⟨d, hd1, hd2⟩ := C45_julian_roundtrip ((mins / 1440 : Nat) : Int) 4 dateSize
    (by show firstDay ≤ _; omega) (by show _ ≤ lastDay; unfold instantOf at h2; omega) four_full hd
  refine ⟨(d, minutesToHourMin ((mins % 1440 : Nat) : Int) timeSize), ?_, ((mins % 1440 * 60 : Nat) : Int), by omega, by omega, ?_, ?_⟩
  · unfold minsToDateTime MINS_IN_1_DAY
    simp only
    rw [cdiv_nonneg_eq (by omega), show (mins : Int) / 1440 = ((mins / 1440 : Nat) : Int) from rfl, hd1,
      show (mins : Int) - ((mins / 1440 : Nat) : Int) * 1440 = ((mins % 1440 : Nat) : Int) by omega]
    rfl
  · exact hourMin_text _ (by omega) timeSize ht
  · show instantOf (dateToJulian d) _ = _
    rw [hd2]; unfold instantOf; omega

/-- C90. The texts for a number of milliseconds after the start of 1970 (as `zgetLastWriteTime` gives
them) name the day, and the time of the day up to 4 milliseconds (the text has all three digits, the
reading function sums in single precision). -/
theorem C90_mills_partial (mills dateSize timeSize : Nat) (hd : 30 ≤ dateSize) (ht : 13 ≤ timeSize)
    (h2 : ((mills / 86400000 : Nat) : Int) + julianOf ⟨1970, 1, 1⟩ ≤ lastDay) :
    ∃ texts v, millsToDateTime exactYearGuess mills dateSize timeSize = some texts ∧
      dateToJulian texts.1 = ((mills / 86400000 : Nat) : Int) + julianOf ⟨1970, 1, 1⟩ ∧
      timeStringToSecondsMills (textOf texts.2) = some ((v : Nat) : Int) ∧
      v * 1000 ≤ (mills % 86400000 + 4) * UNIT ∧ mills % 86400000 * UNIT ≤ v * 1000 + 4 * UNIT ∧
      (mills % 1000 ≤ 995 → timeStringToSeconds (textOf texts.2) = some ((mills % 86400000 / 1000 : Nat) : Int)) := by
  have e70 : julianOf ⟨1970, 1, 1⟩ = JULIAN_01JAN1970 := by decide
  have hf : firstDay ≤ 0 := by decide
  rw [e70] at h2 ⊢
  obtain ⟨d, hd1, hd2⟩ := C45_julian_roundtrip (((mills / 86400000 : Nat) : Int) + JULIAN_01JAN1970) 4 dateSize
    (by show firstDay ≤ _; unfold JULIAN_01JAN1970; omega) h2 four_full hd
  have hs : mills / 1000 % 86400 ≤ 86400 := by omega
  have hm : mills % 1000 ≤ 999 := by omega
  obtain ⟨v, e, -, u, l⟩ := C15_mills_close (mills / 1000 % 86400) (mills % 1000) hs hm timeSize ht
  have e1 : mills / 1000 % 86400 * 1000 + mills % 1000 = mills % 86400000 := by omega
  rw [e1] at u l
  refine ⟨(d, secondsToTimeString ((mills / 1000 % 86400 : Nat) : Int) ((mills % 1000 : Nat) : Int) 3 timeSize), v, ?_, hd2, e, u, l, ?_⟩
  · unfold millsToDateTime SECS_IN_1_DAY
    simp only
    rw [cdiv_nonneg_eq (show (0 : Int) ≤ mills by omega), show (mills : Int) / 1000 = ((mills / 1000 : Nat) : Int) from rfl,
      cdiv_nonneg_eq (by omega), show ((mills / 1000 : Nat) : Int) / 86400 = ((mills / 86400000 : Nat) : Int) by omega,
      hd1, show ((mills / 1000 : Nat) : Int) - ((mills / 86400000 : Nat) : Int) * 86400 = ((mills / 1000 % 86400 : Nat) : Int) by omega,
      show (mills : Int) - ((mills / 1000 : Nat) : Int) * 1000 = ((mills % 1000 : Nat) : Int) by omega]
    rfl
  · intro hm5
    have := C15_mills_partial (mills / 1000 % 86400) (mills % 1000) hs hm5 timeSize ht
    rw [show mills % 86400000 / 1000 = mills / 1000 % 86400 by omega]
    exact this

/-! ### Date and time in one text -/

theorem wordPrefix_colon : ∀ s ∈ wordStyles, ∀ m : Fin 12, ∀ d : Fin 31,
    (58 : UInt8) ∉ wordPrefix (m.val + 1) (d.val + 1) s := by
  decide +kernel

theorem digits_colon {b : Bytes} (h : AllDigits b) : (58 : UInt8) ∉ b := by
  intro hc
  have := h 58 hc
  revert this
  decide

theorem year_colon {b : Bytes} {y : Int} (h : YearStr b y) : (58 : UInt8) ∉ b := by
  obtain ⟨ds, _, hds, _, h | h⟩ := h
  · rw [h.1]; exact digits_colon hds
  · rw [h.1, List.mem_cons]
    rintro (h | h)
    · revert h; decide
    · exact digits_colon hds h

theorem date_colon (y m d s : Int) (cap : Nat) (text : Bytes) (hm1 : 1 ≤ m) (hm2 : m ≤ 12)
    (hd1 : 1 ≤ d) (hd2 : d ≤ 31) (hy1 : 0 ≤ y) (hy2 : y < 10000)
    (hs : s ∈ fullStyles) (ht : yearMonthDayToDate y m d s cap = some text) : (58 : UInt8) ∉ text := by
  have hy4 := year_colon (intTo4char_year y (by omega) hy2).2
  have tm := digits_colon (small_two m hm1 (by omega)).1
  have td := digits_colon (small_two d hd1 hd2).1
  have dm := digits_colon (small_decimal m hm1 (by omega)).1
  have dd := digits_colon (small_decimal d hd1 hd2).1
  have key : (58 : UInt8) ∉ (if s = -13 then usgsDate y m d else if s < 0 then numericDate y m d s
      else characterDate y m d s) := by
    unfold fullStyles at hs
    rw [List.mem_append, List.mem_append] at hs
    rcases hs with (hs | hs) | hs
    · have hs0 : 0 ≤ s := by
        have : ∀ s ∈ wordStyles, 0 ≤ s := by decide
        exact this s hs
      rw [if_neg (by omega), if_neg (by omega), characterDate_prefix y m d s hs, List.mem_append]
      obtain ⟨m', rfl⟩ : ∃ m' : Fin 12, m = m'.val + 1 :=
        ⟨⟨(m - 1).toNat, by omega⟩, by show m = ((m - 1).toNat : Int) + 1; omega⟩
      obtain ⟨d', rfl⟩ : ∃ d' : Fin 31, d = d'.val + 1 :=
        ⟨⟨(d - 1).toNat, by omega⟩, by show d = ((d - 1).toNat : Int) + 1; omega⟩
      rintro (h | h)
      · exact wordPrefix_colon s hs m' d' h
      · exact year_colon (yearText_ok y s hs (by omega) (by omega)) h
    · have hs0 : s < -100 := by
        have : ∀ s ∈ numberStyles, s < -100 := by decide
        exact this s hs
      rw [if_neg (by omega), if_pos (by omega)]
      unfold numericDate
      rw [if_pos hs0, if_pos hs0]
      have hdel : (58 : UInt8) ≠ (if s + 100 = -2 ∨ s + 100 = -12 then 45 else 47) := by split <;> decide
      intro h
      simp only [List.mem_append, List.mem_cons] at h
      rcases h with h | h | h | h | h
      · split at h
        · exact tm h
        · exact dm h
      · exact hdel h
      · split at h
        · exact td h
        · exact dd h
      · exact hdel h
      · exact hy4 h
    · rw [if_pos (List.mem_singleton.mp hs)]
      unfold usgsDate
      intro h
      simp only [List.mem_append, List.mem_cons, List.not_mem_nil, or_false] at h
      simp_all
  unfold yearMonthDayToDate at ht
  split at ht
  · exact absurd ht (by simp)
  split at ht
  · exact absurd ht (by simp)
  · simp only [Option.some.injEq] at ht
    rw [← ht]
    intro h
    exact key (List.mem_of_mem_take (List.mem_of_mem_take h))

theorem julian_text (j s : Int) (cap : Nat) (text : Bytes) (h1 : firstDay ≤ j) (h2 : j ≤ lastDay)
    (hs : s ∈ fullStyles) (hcap : 30 ≤ cap) (ht : julianToDate (exactYearGuess j) j s cap = some text) :
    (58 : UInt8) ∉ text ∧ 8 ≤ text.length := by
  obtain ⟨d, hv, hy, hj, hd⟩ := C02_julian_total j h1
  have hv' := hv
  unfold Date.Valid at hv
  have hday : d.day ≤ 31 := by
    have : Spec.monthLen d.year d.month ≤ 31 := by unfold Spec.monthLen; split <;> split <;> omega
    omega
  have hmax : d.year ≤ 9999 := by
    rcases Int.lt_or_le 9999 d.year with h | h
    · exfalso
      have := (C01_julian_order ⟨9999, 12, 31⟩ d (by unfold Date.Valid; decide) hv' (by decide) hy).mpr
        (Or.inl h)
      have h2' : j ≤ julianOf ⟨9999, 12, 31⟩ := h2
      omega
    · exact h
  have hund : j ≠ UNDEFINED_TIME := by
    have : firstDay > UNDEFINED_TIME := by decide
    omega
  unfold julianToDate at ht
  rw [if_neg hund, hd] at ht
  have ht' : yearMonthDayToDate d.year d.month d.day s cap = some text := ht
  exact ⟨date_colon _ _ _ s cap text hv.1 hv.2.1 hv.2.2.1 hday (by omega) (by omega) hs ht',
    fullStyle_length _ _ _ s cap text hv.1 hv.2.1 hv.2.2.1 hday (by omega) (by omega) hs hcap ht'⟩

/-- C90. A date in any full style and a time of the day, written by `getDateTimeString` and put together
with a colon, are read by `spatialDateTime` as this day and this time (without the seconds if the time was
written without). -/
theorem C90_text_partial (j dateStyle timeStyle : Int) (s dateSize timeSize : Nat) (h1 : firstDay ≤ j)
    (h2 : j ≤ lastDay) (hs : s ≤ 86400) (hd : dateStyle ∈ fullStyles) (ht0 : 0 ≤ timeStyle) (ht3 : timeStyle ≤ 3)
    (hds : 30 ≤ dateSize) (hts : 13 ≤ timeSize) :
    ∃ date time, getDateTimeString exactYearGuess j dateStyle s timeStyle dateSize timeSize = some (date, time) ∧
      spatialDateTime (date ++ 58 :: textOf time) =
        some (j, ((if 2 ≤ timeStyle then s else s / 60 * 60 : Nat) : Int), true) := by
  obtain ⟨d, hd1, hd2⟩ := C45_julian_roundtrip j dateStyle dateSize h1 h2 hd hds
  obtain ⟨hc, hl⟩ := julian_text j dateStyle dateSize d h1 h2 hd hds hd1
  refine ⟨d, secondsToTimeString s 0 timeStyle timeSize, ?_, ?_⟩
  · unfold getDateTimeString
    rw [hd1]
    rfl
  have hv : timeStringToSeconds (textOf (secondsToTimeString s 0 timeStyle timeSize)) =
      some ((if 2 ≤ timeStyle then s else s / 60 * 60 : Nat) : Int) := by
    rcases (show timeStyle = 0 ∨ timeStyle = 1 ∨ timeStyle = 2 ∨ timeStyle = 3 by omega) with h | h | h | h
    · rw [if_neg (by omega)]
      exact C15_minutes_roundtrip s 0 hs (by omega) timeSize hts timeStyle (Or.inl h)
    · rw [if_neg (by omega)]
      exact C15_minutes_roundtrip s 0 hs (by omega) timeSize hts timeStyle (Or.inr h)
    · rw [if_pos (by omega), h]
      exact C15_seconds_roundtrip s 0 hs (by omega) timeSize hts
    · rw [if_pos (by omega), h]
      exact C15_mills_partial s 0 hs (by omega) timeSize hts
  generalize (if 2 ≤ timeStyle then s else s / 60 * 60 : Nat) = v at hv ⊢
  generalize textOf (secondsToTimeString s 0 timeStyle timeSize) = t at hv ⊢
  have htl : 1 ≤ t.length := by
    rcases t with _ | ⟨x, xs⟩
    · exfalso
      have h0 : timeStringToSeconds [] = some (-1) := by decide +kernel
      rw [h0] at hv
      have := Option.some.inj hv
      omega
    · simp
  have hu : j ≠ UNDEFINED_TIME := by
    have : firstDay > UNDEFINED_TIME := by decide
    omega
  unfold spatialDateTime
  rw [if_neg (by simp only [List.length_append, List.length_cons]; omega), strchr_append (a := d) (b := t) (x := 58) (fun c h e => hc (e ▸ h))]
  simp only
  rw [if_neg (by intro h; have := Option.some.inj h; omega)]
  have e1 : (d ++ 58 :: t).take ((some d.length).getD 0) = d := by
    simp
  have e2 : (d ++ 58 :: t).drop ((some d.length).getD 0 + 1) = t := by
    simp [List.drop_append]
  rw [e1, e2, hd2, if_neg hu, hv]
  show some (j, (v : Int), decide (¬ (v : Int) < 0)) = _
  rw [decide_eq_true (by omega)]

/-- C90. A text without a colon, or with a colon in front, is refused. -/
theorem C90_refused (text : Bytes) (h : 58 ∉ text ∨ text.head? = some 58) :
    spatialDateTime text = some (UNDEFINED_TIME, UNDEFINED_TIME, false) := by
  unfold spatialDateTime
  split
  · rfl
  rcases h with h | h
  · rw [strchr_none (x := 58) (fun c hc e => h (e ▸ hc))]
    rfl
  · have : strchr text 58 = some 0 := by
      rcases text with _ | ⟨x, xs⟩
      · simp at h
      · rw [Option.some.inj (show some x = some 58 from h)]
        exact strchr_append (a := []) (b := xs) (by simp)
    rw [this]
    rfl

/-! ### Cases -/

example : getDateAndTime exactYearGuess (-1) 60 36525 30 13 = some (str "31Dec1999", str "2359" ++ [0]) := by
  decide +kernel

example : getDateAndTime exactYearGuess 3 3600 36525 30 13 = some (str "01Jan2000", str "0300" ++ [0]) := by
  decide +kernel

/-- The conditions of the theorems are met by usual times. -/
example : (60 ∣ 3600 ∧ 3600 ∣ 86400) ∧ instantOf firstDay 0 < instantOf 36525 (3 * 3600) ∧
    instantOf 36525 (3 * 3600) ≤ instantOf lastDay 86400 ∧
    ((1700000000000 / 86400000 : Nat) : Int) + julianOf ⟨1970, 1, 1⟩ ≤ lastDay := by
  refine ⟨⟨⟨60, by decide⟩, ⟨24, by decide⟩⟩, ?_, ?_, ?_⟩ <;> decide +kernel

example : millsToDateTime exactYearGuess 1700000000123 30 13 =
    some (str "14Nov2023", str "22:13:20.123" ++ [0]) := by decide +kernel

example : spatialDateTime (str "14Nov2023:2400") = some (45243, 86400, true) := by decide +kernel

/-- C90, failing parts of positions: half minutes are all shown as 00:00 ... -/
theorem C90_half_minutes_violation : getDateAndTime exactYearGuess 1000 30 36525 30 13 =
    some (str "01Jan2000", str "0000" ++ [0]) := by decide +kernel

/-- ... and so is every time when the unit is given as 0, for which the function takes minutes; here
minute 61 of the day. -/
theorem C90_default_unit_violation : getDateAndTime exactYearGuess 61 0 36525 30 13 =
    some (str "01Jan2000", str "0000" ++ [0]) := by decide +kernel

/-- C90, failing part of positions: a unit of more than a day is a division by zero. -/
theorem C90_long_unit_violation (time base gran : Int) (ds ts : Nat) (h : 86400 < gran) :
    getDateAndTime exactYearGuess time gran base ds ts = none := by
  unfold getDateAndTime SECS_IN_1_DAY
  simp only
  rw [if_neg (show ¬ gran < 1 by omega), if_pos]
  rw [cdiv_nonneg_eq (by omega)]
  exact Int.ediv_eq_zero_of_lt (by omega) h

/-- C90, failing part of minutes: before the start of 31Dec1899 the text is no time; one minute before is
shown as "000/" of 31Dec1899. -/
theorem C90_negative_minutes_violation : minsToDateTime exactYearGuess (-1) 30 13 =
    some (str "31Dec1899", str "000/" ++ [0]) := by decide +kernel

/-- C90, failing part of milliseconds: before 1970 there is no time, and the day is the next one. -/
theorem C90_negative_mills_violation : millsToDateTime exactYearGuess (-1000) 30 13 =
    some (str "01Jan1970", [0]) := by decide +kernel

end Hec
