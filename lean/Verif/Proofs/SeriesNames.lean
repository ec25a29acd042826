import Verif.Props.Dates
import Verif.Props.Pathnames
import Verif.Props.RenamePaths
import Verif.Model.SeriesFile
/-! The pathnames of the blocks of a series. -/
namespace Hec
open _root_.Spec (Date IsPart join SixParts Holds)
open Hec.Spec (sameUpToCase)

theorem style4_small : ∀ m : Fin 12, ∀ d : Fin 31,
    (dayText ((d : Nat) + 1 : Int) 4 ++ monthText ((m : Nat) + 1 : Int) 4).length = 5 ∧
      (dayText ((d : Nat) + 1 : Int) 4 ++ monthText ((m : Nat) + 1 : Int) 4).all (fun c => c != 47 && c != 0) = true := by
  decide +kernel

theorem style4_text {y m d : Int} (hm1 : 1 ≤ m) (hm2 : m ≤ 12) (hd1 : 1 ≤ d) (hd2 : d ≤ 31) (hy1 : 0 ≤ y) (hy2 : y < 10000) :
    (characterDate y m d 4).length = 9 ∧ IsPart (characterDate y m d 4) := by
  have e : characterDate y m d 4 = (dayText d 4 ++ monthText m 4) ++ yearText y 4 := by
    unfold characterDate
    have h1 : cmod 4 10 = 4 := by decide
    have h2 : cmod 4 3 ≠ 0 := by decide
    simp only [h1]
    rw [if_pos (by decide), if_pos h2, List.append_assoc]
  have hs := style4_small ⟨(m - 1).toNat, by omega⟩ ⟨(d - 1).toNat, by omega⟩
  simp only at hs
  rw [show (((m - 1).toNat : Nat) : Int) + 1 = m by omega, show (((d - 1).toNat : Nat) : Int) + 1 = d by omega] at hs
  have ey : yearText y 4 = zeroPad 4 (decimal y.natAbs) := by
    unfold yearText intTo4char formatZeros
    simp only
    rw [if_pos (by omega), if_neg (by decide), if_neg (by omega), List.take_of_length_le]
    rw [zeroPad_length _ _ (decimal_length _ 4 (by omega) (by omega))]
    exact Nat.le_refl 4
  rw [e, ey]
  have hl := zeroPad_length 4 (decimal y.natAbs) (decimal_length _ 4 (by omega) (by omega))
  refine ⟨by rw [List.length_append, hs.1, hl], fun c hc => ?_⟩
  rcases List.mem_append.mp hc with h | h
  · have := List.all_eq_true.mp hs.2 c h
    simpa using this
  · have := zeroPad_digits 4 _ (decimal_digits _) c h
    revert this
    exact forallByte (fun c => isDigit c = true → c ≠ 47 ∧ c ≠ 0) (by decide +kernel) c

/-- The text of a block date. -/
theorem block_date {j : Int} (h1 : julianOf ⟨100, 1, 1⟩ ≤ j) (h2 : j ≤ julianOf ⟨9999, 12, 31⟩) :
    ∃ t, julianToDate (exactYearGuess j) j 4 20 = some t ∧ t.length = 9 ∧ IsPart t ∧ dateToJulian t = j := by
  have h5 : julianOf ⟨5, 1, 1⟩ ≤ j := by
    have : julianOf ⟨5, 1, 1⟩ ≤ julianOf ⟨100, 1, 1⟩ := by decide +kernel
    omega
  obtain ⟨t, ht, hj⟩ := C45_julian_roundtrip j 4 30 h5 h2 (by decide) (by omega)
  obtain ⟨d, hv, hy, hd, hg⟩ := C02_julian_total j h5
  have hv' := hv
  unfold Date.Valid at hv
  have hday : d.day ≤ 31 := by
    have : Spec.monthLen d.year d.month ≤ 31 := by unfold Spec.monthLen; split <;> split <;> omega
    omega
  have hmax : d.year ≤ 9999 := by
    rcases Int.lt_or_le 9999 d.year with h | h
    · exfalso
      have := (C01_julian_order ⟨9999, 12, 31⟩ d (by unfold Date.Valid; decide) hv' (by decide) hy).mpr (Or.inl h)
      omega
    · exact h
  obtain ⟨k1, k2⟩ := style4_text (y := d.year) (m := d.month) (d := d.day) hv.1 hv.2.1 hv.2.2.1 hday (by omega) (by omega)
  have hund : j ≠ UNDEFINED_TIME := by
    have : julianOf ⟨5, 1, 1⟩ > UNDEFINED_TIME := by decide
    omega
  have key : ∀ cap, 10 ≤ cap → julianToDate (exactYearGuess j) j 4 cap = some (characterDate d.year d.month d.day 4) := by
    intro cap hcap
    unfold julianToDate
    rw [if_neg hund, hg, Option.bind_some]
    unfold yearMonthDayToDate
    simp only
    rw [if_neg (by omega), if_neg (by omega), if_neg (by decide), if_neg (by decide), List.take_take, List.take_of_length_le (by omega)]
  rw [key 30 (by omega)] at ht
  injection ht with ht
  subst ht
  exact ⟨_, key 20 (by omega), k1, k2, hj⟩

/-- The text of the day `j`. -/
def dayName (j : Int) : Bytes := (julianToDate (exactYearGuess j) j 4 20).getD []

theorem dayName_spec {j : Int} (h1 : julianOf ⟨100, 1, 1⟩ ≤ j) (h2 : j ≤ julianOf ⟨9999, 12, 31⟩) :
    julianToDate (exactYearGuess j) j 4 20 = some (dayName j) ∧ (dayName j).length = 9 ∧ IsPart (dayName j) ∧ dateToJulian (dayName j) = j := by
  obtain ⟨t, k1, k2⟩ := block_date h1 h2
  have : dayName j = t := by unfold dayName; rw [k1]; rfl
  rw [this]
  exact ⟨k1, k2⟩

theorem dateToJulian_same {a b : Bytes} (h : Same a b) (ha : a.length ≤ 29) : dateToJulian a = dateToJulian b := by
  have hl := h.length
  unfold dateToJulian dateToYearMonthDay
  rw [List.take_of_length_le ha, List.take_of_length_le (l := b) (by omega), hl]
  unfold Same at h
  unfold upperText
  rw [h]

theorem set_part {ps : List Bytes} (h : SixParts ps) {x : Bytes} (hx : IsPart x) (i : Nat) : SixParts (ps.set i x) := by
  refine ⟨by rw [List.length_set]; exact h.1, fun p hp => ?_⟩
  rcases List.mem_or_eq_of_mem_set hp with h1 | h1
  · exact h.2 p h1
  · rw [h1]; exact hx

/-- A pathname with another D part. -/
theorem join_set {ps : List Bytes} (h : SixParts ps) (x : Bytes) :
    join (ps.set 3 x) = join (ps.take 3) ++ x ++ 47 :: (ps.drop 4).flatMap (· ++ [47]) := by
  have h6 := h.1
  have := join_split (ps.set 3 x) 3 (by rw [List.length_set]; omega)
  rw [this, List.take_set_of_le (by omega), List.getElem_set_self, List.drop_set_of_lt (by omega)]

theorem join_set_length {ps : List Bytes} (h : SixParts ps) {x y : Bytes} (hxy : x.length = y.length) :
    (join (ps.set 3 x)).length = (join (ps.set 3 y)).length := by
  rw [join_set h, join_set h]
  simp only [List.length_append, hxy]

theorem join_set_same {ps : List Bytes} (h : SixParts ps) {x y : Bytes} (hxy : x.length = y.length)
    (hs : sameUpToCase (join (ps.set 3 x)) (join (ps.set 3 y))) : Same x y := by
  have hs := same_iff.mp hs
  unfold Same at hs ⊢
  rw [join_set h, join_set h] at hs
  simp only [List.map_append, List.append_assoc] at hs
  have := List.append_cancel_left hs
  exact (List.append_inj this (by simp [hxy])).1

/-- Blocks have different pathnames. -/
theorem blocks_differ {ps : List Bytes} (h : SixParts ps) {i j : Int} (hi1 : julianOf ⟨100, 1, 1⟩ ≤ i) (hi2 : i ≤ julianOf ⟨9999, 12, 31⟩)
    (hj1 : julianOf ⟨100, 1, 1⟩ ≤ j) (hj2 : j ≤ julianOf ⟨9999, 12, 31⟩) (hne : i ≠ j) :
    ¬ sameUpToCase (join (ps.set 3 (dayName i))) (join (ps.set 3 (dayName j))) := by
  intro hs
  obtain ⟨_, a2, _, a4⟩ := dayName_spec hi1 hi2
  obtain ⟨_, b2, _, b4⟩ := dayName_spec hj1 hj2
  have := dateToJulian_same (join_set_same h (by omega) hs) (by omega)
  omega

theorem set_set (ps : List Bytes) (x y : Bytes) : (ps.set 3 x).set 3 y = ps.set 3 y := by simp

/-- The pathname of the next block, in the array. -/
theorem blockName_spec (m : Around) {ps : List Bytes} (h : SixParts ps) {b : Bytes} (hb : Holds b (join ps)) (hl : b.length = 393) {j : Int}
    (h1 : julianOf ⟨100, 1, 1⟩ ≤ j) (h2 : j ≤ julianOf ⟨9999, 12, 31⟩) (hlen : (join (ps.set 3 (dayName j))).length ≤ 392) :
    ∃ b', blockName m b j = some b' ∧ b'.length = 393 ∧ Holds b' (join (ps.set 3 (dayName j))) ∧ cstr b' = join (ps.set 3 (dayName j)) := by
  obtain ⟨a1, a2, a3, _⟩ := dayName_spec h1 h2
  obtain ⟨b', k1, k2, k3⟩ := C22_set ps h.1 h.2 3 (by omega) b hb (dayName j) m.junk m.before (by omega)
  refine ⟨b', ?_, by omega, k3, cstr_holds k3 (join_nonzero _ (set_part h a3 3).2)⟩
  unfold blockName
  have k1 : zpathnameSetPart (fun j => some (m.before j)) b (dayName j) 4 m.junk = some (b', true) := k1
  rw [a1, Option.bind_some, k1]
  rfl

end Hec
