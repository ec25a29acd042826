import Verif.Props.TsRange
import Verif.Props.Wild
import Verif.Props.Rename
import Verif.Model.FullSet
import Verif.Spec.FullSet
/-! For C94. -/
namespace Hec
set_option linter.unusedSimpArgs false
set_option linter.unusedVariables false
open _root_.Spec (Date Op GoodSizes create join SixParts IsPart Holds Printable Matches Reachable IsBlockName InSeries NamesDay ShortNames DatedRecords SeriesSeed OldMinute)
open Hec.Spec (sameUpToCase)

/-! ### The range of types has no effect -/

theorem catEntries_congr {c : Cfg} {q q' : CatReq} (h1 : q.statusWanted = q'.statusWanted) (h2 : ∀ r, rowFound q r = rowFound q' r) (a : Nat) (bin : Nat → Nat) :
    ∀ fuel ic, catEntries c q a bin fuel ic = catEntries c q' a bin fuel ic := by
  intro fuel
  induction fuel with
  | zero => intro ic; rfl
  | succ n ih =>
    intro ic
    unfold catEntries
    simp only [h1, h2, ih]

theorem catBins_congr {c : Cfg} {q q' : CatReq} (h1 : q.statusWanted = q'.statusWanted) (h2 : ∀ r, rowFound q r = rowFound q' r) (d : Disk) :
    ∀ n a, catBins c q d n a = catBins c q' d n a := by
  intro n
  induction n with
  | zero => intro a; rfl
  | succ n ih =>
    intro a
    unfold catBins
    simp only [catEntries_congr h1 h2, ih]

theorem catBlocks_congr {c : Cfg} {q q' : CatReq} (h1 : q.statusWanted = q'.statusWanted) (h2 : ∀ r, rowFound q r = rowFound q' r) (d : Disk) :
    ∀ n a, catBlocks c q d n a = catBlocks c q' d n a := by
  intro n
  induction n with
  | zero => intro a; rfl
  | succ n ih =>
    intro a
    unfold catBlocks
    simp only [catBins_congr h1 h2, ih]

theorem zcatalog_congr {c : Cfg} {s : Eng} {q q' : CatReq} (h1 : q.statusWanted = q'.statusWanted) (h2 : ∀ r, rowFound q r = rowFound q' r)
    (h3 : q.numberWanted = q'.numberWanted) : zcatalog c s q = zcatalog c s q' := by
  unfold zcatalog catListSize
  rw [catBlocks_congr h1 h2, h3]

theorem full_request {c : Cfg} {s : Eng} (m : FullMem) (pattern : Bytes) :
    zcatalog c s (fullRequest m pattern) = zcatalog c s { everything with wild := (fun p => (wildFound m.before m.u m.junk pattern p).getD false) } := by
  refine zcatalog_congr rfl (fun r => ?_) rfl
  unfold rowFound fullRequest timeFound everything
  simp

/-! ### Parts of pathnames that are the same up to case -/

theorem part_of_same {a b r r' : Bytes} (ha : IsPart a) (hb : IsPart b) (h : Same (a ++ 47 :: r) (b ++ 47 :: r')) : Same a b ∧ Same r r' := by
  induction a generalizing b with
  | nil =>
    cases b with
    | nil => exact ⟨Same.refl _, (List.cons.inj h).2⟩
    | cons y b =>
      exfalso
      have h1 := (List.cons.inj h).1
      exact (hb y (by simp)).1 (toupper_slash y (h1.symm.trans (by decide)))
  | cons x a ih =>
    cases b with
    | nil =>
      exfalso
      have h1 := (List.cons.inj h).1
      exact (ha x (by simp)).1 (toupper_slash x (h1.trans (by decide)))
    | cons y b =>
      have h1 := List.cons.inj h
      obtain ⟨k1, k2⟩ := ih (b := b) (fun z hz => ha z (by simp [hz])) (fun z hz => hb z (by simp [hz])) h1.2
      refine ⟨?_, k2⟩
      unfold Same at *
      rw [List.map_cons, List.map_cons, h1.1, k1]

theorem parts_of_same (ps : List Bytes) : ∀ qs : List Bytes, ps.length = qs.length → (∀ p ∈ ps, IsPart p) → (∀ q ∈ qs, IsPart q) →
    Same (ps.flatMap (· ++ [47])) (qs.flatMap (· ++ [47])) → ∀ (i : Nat) (p q : Bytes), ps[i]? = some p → qs[i]? = some q → Same p q := by
  induction ps with
  | nil => intro qs _ _ _ _ i p q h; simp at h
  | cons a ps ih =>
    intro qs hl hp hq h i p q hi hj
    cases qs with
    | nil => cases hl
    | cons b qs =>
      rw [List.flatMap_cons, List.flatMap_cons, List.append_assoc, List.append_assoc] at h
      obtain ⟨k1, k2⟩ := part_of_same (hp a (by simp)) (hq b (by simp)) h
      cases i with
      | zero =>
        simp only [List.getElem?_cons_zero, Option.some.injEq] at hi hj
        subst hi; subst hj
        exact k1
      | succ i =>
        rw [List.getElem?_cons_succ] at hi hj
        exact ih qs (by simpa using hl) (fun p hp' => hp p (by simp [hp'])) (fun p hp' => hq p (by simp [hp'])) k2 i p q hi hj

/-- The parts of pathnames that are the same up to case are. -/
theorem join_parts {ps qs : List Bytes} (hp : SixParts ps) (hq : SixParts qs) (h : sameUpToCase (join ps) (join qs)) {i : Nat} {p q : Bytes} (hi : ps[i]? = some p)
    (hj : qs[i]? = some q) : sameUpToCase p q := by
  have h := same_iff.mp h
  refine same_iff.mpr (parts_of_same ps qs (by rw [hp.1, hq.1]) hp.2 hq.2 ?_ i p q hi hj)
  exact (List.cons.inj h).2

/-! ### The loops -/

theorem days_of_paths {m : FullMem} {P : CatRow → Int → Prop} : ∀ rows : List CatRow, (∀ r ∈ rows, ∃ j, dayOfPath m r.path = some j ∧ P r j) →
    ∃ js, daysOfPaths m rows = some js ∧ (∀ r ∈ rows, ∃ j ∈ js, P r j) ∧ ∀ j ∈ js, ∃ r ∈ rows, P r j := by
  intro rows
  induction rows with
  | nil => intro _; exact ⟨[], rfl, by simp, by simp⟩
  | cons r rows ih =>
    intro h
    obtain ⟨j, h1, h2⟩ := h r (by simp)
    obtain ⟨js, k1, k2, k3⟩ := ih fun r hr => h r (by simp [hr])
    refine ⟨j :: js, by unfold daysOfPaths; rw [h1, k1]; rfl, ?_, ?_⟩
    · intro x hx
      rcases List.mem_cons.mp hx with rfl | hx
      · exact ⟨j, by simp, h2⟩
      · obtain ⟨y, y1, y2⟩ := k2 x hx
        exact ⟨y, by simp [y1], y2⟩
    · intro y hy
      rcases List.mem_cons.mp hy with rfl | hy
      · exact ⟨r, by simp, h2⟩
      · obtain ⟨x, x1, x2⟩ := k3 y hy
        exact ⟨x, by simp [x1], x2⟩

theorem fold_min (js : List Int) : ∀ j : Int, js.foldl (fun a b => if b < a then b else a) j ∈ j :: js ∧
    ∀ x ∈ j :: js, js.foldl (fun a b => if b < a then b else a) j ≤ x := by
  induction js with
  | nil => intro j; simp
  | cons y js ih =>
    intro j
    rw [List.foldl_cons]
    obtain ⟨k1, k2⟩ := ih (if y < j then y else j)
    generalize List.foldl (fun a b => if b < a then b else a) (if y < j then y else j) js = z at *
    have hz := k2 _ (List.mem_cons_self)
    constructor
    · rcases List.mem_cons.mp k1 with h | h
      · rw [h]; split <;> simp
      · simp [h]
    · intro x hx
      rcases List.mem_cons.mp hx with rfl | hx
      · split at hz <;> omega
      · rcases List.mem_cons.mp hx with rfl | hx
        · split at hz <;> omega
        · exact k2 x (by simp [hx])

theorem fold_max (js : List Int) : ∀ j : Int, js.foldl (fun a b => if b > a then b else a) j ∈ j :: js ∧
    ∀ x ∈ j :: js, x ≤ js.foldl (fun a b => if b > a then b else a) j := by
  induction js with
  | nil => intro j; simp
  | cons y js ih =>
    intro j
    rw [List.foldl_cons]
    obtain ⟨k1, k2⟩ := ih (if y > j then y else j)
    generalize List.foldl (fun a b => if b > a then b else a) (if y > j then y else j) js = z at *
    have hz := k2 _ (List.mem_cons_self)
    constructor
    · rcases List.mem_cons.mp k1 with h | h
      · rw [h]; split <;> simp
      · simp [h]
    · intro x hx
      rcases List.mem_cons.mp hx with rfl | hx
      · split at hz <;> omega
      · rcases List.mem_cons.mp hx with rfl | hx
        · split at hz <;> omega
        · exact k2 x (by simp [hx])

/-! ### The day in the pathname -/

theorem dayName_big {j : Int} (h1 : julianOf ⟨100, 1, 1⟩ ≤ j) (h2 : j ≤ julianOf ⟨9999, 12, 31⟩) : julianToDate (exactYearGuess j) j 4 129 = some (dayName j) := by
  obtain ⟨k1, k2, _⟩ := dayName_spec h1 h2
  revert k1
  unfold julianToDate
  split
  · intro h; cases h
  · cases julianToYearMonthDay (exactYearGuess j) j with
    | none => intro h; cases h
    | some x =>
      rw [Option.bind_some, Option.bind_some]
      unfold yearMonthDayToDate
      simp only
      split
      · intro h; cases h
      · split
        · intro h; cases h
        · intro h
          injection h with h
          rw [← h] at k2
          rw [← h]
          generalize (if (4 : Int) = -13 then usgsDate x.1 x.2.1 x.2.2 else if (4 : Int) < 0 then numericDate x.1 x.2.1 x.2.2 4 else characterDate x.1 x.2.1 x.2.2 4) = t at *
          rw [List.length_take] at k2
          have : (List.take 29 t).length = 9 := by omega
          rw [List.take_of_length_le (l := List.take 29 t) (by omega), List.take_of_length_le (l := List.take 29 t) (by omega)]

theorem day_of_path (m : FullMem) {qs : List Bytes} (h : SixParts qs) (hs : ∀ x ∈ qs, x.length ≤ 128) {d : Bytes} (hd : qs[3]? = some d) :
    dayOfPath m (join qs) = some (dateToJulian d) := by
  obtain ⟨b, k1, k2, k3⟩ := getPart_short qs h.1 h.2 hs 3 (by omega) (List.replicate 129 m.u) (by simp) m.junk
  have hi : 3 < qs.length := by rw [h.1]; omega
  have e : qs[3] = d := by rw [List.getElem?_eq_getElem hi] at hd; injection hd
  unfold dayOfPath
  have k1' : zpathnameGetPart (join qs) 4 (List.replicate 129 m.u) m.junk = some (b, ((qs[3]).length : Int)) := k1
  rw [k1', Option.map_some]
  simp only
  rw [cstr_holds k3 (fun c hc => (h.2 _ (List.getElem_mem hi) c hc).2), e]

theorem path_with_day (m : FullMem) {qs : List Bytes} (h : SixParts qs) (hp : ∀ x ∈ qs, Printable x) {b : Bytes} (hb : Holds b (join qs)) (hbl : b.length = 393) {d : Bytes}
    (hd : qs[3]? = some d) (hd9 : d.length = 9) (hfit : (join qs).length ≤ 392) {j : Int} (h1 : julianOf ⟨100, 1, 1⟩ ≤ j) (h2 : j ≤ julianOf ⟨9999, 12, 31⟩) (hpj : Printable (dayName j)) :
    ∃ b', pathWithDay m b j = some (b', join (qs.set 3 (dayName j))) ∧ b'.length = 393 ∧ Holds b' (join (qs.set 3 (dayName j))) ∧
      SixParts (qs.set 3 (dayName j)) ∧ (∀ x ∈ qs.set 3 (dayName j), Printable x) ∧ (join (qs.set 3 (dayName j))).length ≤ 392 := by
  obtain ⟨_, n2, n3, n4⟩ := dayName_spec h1 h2
  have hi : 3 < qs.length := by rw [h.1]; omega
  have e : qs[3] = d := by rw [List.getElem?_eq_getElem hi] at hd; injection hd
  have hset : qs.set 3 d = qs := by rw [← e]; exact List.set_getElem_self hi
  have hlen : (join (qs.set 3 (dayName j))).length = (join qs).length := by
    rw [join_set_length h (x := dayName j) (y := d) (by omega), hset]
  obtain ⟨b', k1, k2, k3⟩ := setPart_spec qs h.1 h.2 3 (by omega) b hb (dayName j) m.junk m.before (Or.inl (by rw [e]; omega)) (by omega)
  have k1' : zpathnameSetPart m.before b (dayName j) 4 m.junk = some (b', true) := k1
  have h6 := set_part h n3 3
  have hpr : ∀ x ∈ qs.set 3 (dayName j), Printable x := by
    intro x hx
    rcases List.mem_or_eq_of_mem_set hx with h | rfl
    · exact hp x h
    · exact hpj
  obtain ⟨f, c1, c2, c3⟩ := clean_join h6 hpr (b := List.replicate 393 m.u) (by rw [List.length_replicate]; omega)
  refine ⟨b', ?_, by omega, k3, h6, hpr, by omega⟩
  unfold pathWithDay
  rw [dayName_big h1 h2, Option.getD_some, k1', Option.bind_some]
  simp only
  rw [cstr_holds k3 (join_nonzero _ h6.2), c1, Option.map_some]
  simp only
  rw [cstr_holds c3 (join_nonzero _ h6.2)]

theorem style4_letters : ∀ m : Fin 12, ∀ d : Fin 31,
    (dayText ((d : Nat) + 1 : Int) 4 ++ monthText ((m : Nat) + 1 : Int) 4).all (fun c => decide (32 ≤ c ∧ c ≤ 126)) = true := by
  decide +kernel

theorem style4_printable {y m d : Int} (hm1 : 1 ≤ m) (hm2 : m ≤ 12) (hd1 : 1 ≤ d) (hd2 : d ≤ 31) (hy1 : 0 ≤ y) (hy2 : y < 10000) : Printable (characterDate y m d 4) := by
  have e : characterDate y m d 4 = (dayText d 4 ++ monthText m 4) ++ yearText y 4 := by
    unfold characterDate
    have h1 : cmod 4 10 = 4 := by decide
    have h2 : cmod 4 3 ≠ 0 := by decide
    simp only [h1]
    rw [if_pos (by decide), if_pos h2, List.append_assoc]
  have hs := style4_letters ⟨(m - 1).toNat, by omega⟩ ⟨(d - 1).toNat, by omega⟩
  simp only at hs
  rw [show (((m - 1).toNat : Nat) : Int) + 1 = m by omega, show (((d - 1).toNat : Nat) : Int) + 1 = d by omega] at hs
  have ey : yearText y 4 = zeroPad 4 (decimal y.natAbs) := by
    unfold yearText intTo4char formatZeros
    simp only
    rw [if_pos (by omega), if_neg (by decide), if_neg (by omega), List.take_of_length_le]
    rw [zeroPad_length _ _ (decimal_length _ 4 (by omega) (by omega))]
    exact Nat.le_refl 4
  rw [e, ey]
  intro c hc
  rcases List.mem_append.mp hc with h | h
  · have := List.all_eq_true.mp hs c h
    simpa using this
  · have := zeroPad_digits 4 _ (decimal_digits _) c h
    revert this
    exact forallByte (fun c => isDigit c = true → 32 ≤ c ∧ c ≤ 126) (by decide +kernel) c

theorem dayName_printable {j : Int} (h1 : julianOf ⟨100, 1, 1⟩ ≤ j) (h2 : j ≤ julianOf ⟨9999, 12, 31⟩) : Printable (dayName j) := by
  obtain ⟨k1, k2, _⟩ := dayName_spec h1 h2
  have h5 : julianOf ⟨5, 1, 1⟩ ≤ j := by
    have : julianOf ⟨5, 1, 1⟩ ≤ julianOf ⟨100, 1, 1⟩ := by decide +kernel
    omega
  obtain ⟨d, hv, hy, hd, hg⟩ := C02_julian_total j h5
  have hv' := hv
  unfold Date.Valid at hv
  have hday : d.day ≤ 31 := by
    have : Spec.monthLen d.year d.month ≤ 31 := by unfold Spec.monthLen; split <;> split <;> omega
    omega
  have hmax : d.year ≤ 9999 := by
    rcases Int.lt_or_le 9999 d.year with h | h
    · exfalso
      have := (C01_julian_order ⟨9999, 12, 31⟩ d (by unfold Date.Valid; decide) hv' (by decide) hy).mpr (Or.inl h)
      omega
    · exact h
  have hp := style4_printable (y := d.year) (m := d.month) (d := d.day) hv.1 hv.2.1 hv.2.2.1 hday (by omega) (by omega)
  have hund : j ≠ UNDEFINED_TIME := by
    have : julianOf ⟨5, 1, 1⟩ > UNDEFINED_TIME := by decide
    omega
  unfold julianToDate at k1
  rw [if_neg hund, hg, Option.bind_some] at k1
  unfold yearMonthDayToDate at k1
  simp only at k1
  rw [if_neg (by omega), if_neg (by omega), if_neg (by decide), if_neg (by decide)] at k1
  injection k1 with k1
  rw [← k1]
  intro c hc
  exact hp c (List.mem_of_mem_take (List.mem_of_mem_take hc))

/-! ### The pattern -/

theorem findDash_le (d : Bytes) : ∀ i, findDash d = some i → i + 3 ≤ d.length := by
  induction d with
  | nil => intro i h; cases h
  | cons c cs ih =>
    intro i h
    unfold findDash at h
    split at h
    · injection h with h
      subst h
      rename_i hp
      have := (List.isPrefixOf_iff_prefix.mp hp).length_le
      simpa using this
    · cases hc : findDash cs with
      | none => rw [hc] at h; cases h
      | some k =>
        rw [hc] at h
        injection h with h
        have := ih k hc
        have h : k + 1 = i := h
        simp only [List.length_cons]
        omega

theorem dates_fit {d : Bytes} (h : d.length ≤ 22) : datesFit d = true := by
  unfold datesFit
  split
  · rfl
  · split
    · rfl
    · rename_i i hi
      have := findDash_le d i hi
      rw [if_neg (by omega)]
      split
      · rfl
      · rw [decide_eq_true_eq]; omega

theorem same_set {ps : List Bytes} {i : Nat} {e e0 : Bytes} (h0 : ps[i]? = some e0) (h : sameUpToCase e e0) : sameUpToCase (join (ps.set i e)) (join ps) := by
  refine same_join (by rw [List.length_set]) fun k a b ha hb => ?_
  by_cases hk : i = k
  · subst hk
    have hi : i < ps.length := by
      rcases Nat.lt_or_ge i ps.length with h | h
      · exact h
      · rw [List.getElem?_eq_none h] at h0; cases h0
    rw [List.getElem?_set_self hi] at ha
    injection ha with ha
    subst ha
    rw [h0] at hb
    injection hb with hb
    subst hb
    exact h
  · rw [List.getElem?_set_ne hk, hb] at ha
    injection ha with ha
    subst ha
    exact same_iff.mpr (Same.refl _)

theorem same_isPart {a b : Bytes} (h : sameUpToCase a b) (hb : IsPart b) : IsPart a := part_same (same_iff.mp h).symm hb

theorem time_window (m : FullMem) {ps : List Bytes} (h : SeriesSeed ps) {b : Bytes} (hb : Holds b (join ps)) (hbl : b.length = 393) :
    ∃ b' e e0, pathTimeWindow m b = some b' ∧ b'.length = 393 ∧ ps[4]? = some e0 ∧ sameUpToCase e e0 ∧ Holds b' (join (ps.set 4 e)) := by
  have h6 := h.six
  have hi : 4 < ps.length := by rw [h6.1]; omega
  have he0 : ps[4]? = some ps[4] := List.getElem?_eq_getElem hi
  have hself : ps.set 4 ps[4] = ps := List.set_getElem_self hi
  have hc : cstr b = join ps := cstr_holds hb (join_nonzero _ h6.2)
  obtain ⟨eb, k1, k2, k3⟩ := getPart_short ps h6.1 h6.2 (fun p hp => (h.short p hp).1) 4 (by omega) (List.replicate 129 m.u) (by simp) m.junk
  have k1' : zpathnameGetPart (join ps) 5 (List.replicate 129 m.u) m.junk = some (eb, ((ps[4]).length : Int)) := k1
  have hce : cstr eb = ps[4] := cstr_holds k3 (fun c hc => (h6.2 _ (List.getElem_mem hi) c hc).2)
  have stay : ∃ b' e e0, some b = some b' ∧ b'.length = 393 ∧ ps[4]? = some e0 ∧ sameUpToCase e e0 ∧ Holds b' (join (ps.set 4 e)) :=
    ⟨b, ps[4], ps[4], rfl, hbl, he0, same_iff.mpr (Same.refl _), by rw [hself]; exact hb⟩
  unfold pathTimeWindow
  rw [hc, k1', Option.bind_some]
  simp only
  split
  · exact stay
  · rw [hce]
    cases hep : ePartToSeconds 7 ps[4] with
    | none => exact stay
    | some x =>
      obtain ⟨st, secs, name⟩ := x
      simp only
      have key : ∃ b' e e0, (if st = 0 then Option.map (fun x => x.fst) (zpathnameSetPart m.before b name 5 m.junk) else some b) = some b' ∧ b'.length = 393 ∧
          ps[4]? = some e0 ∧ sameUpToCase e e0 ∧ Holds b' (join (ps.set 4 e)) := by
        split
        · next hst =>
          subst hst
          have hn := h.epart _ _ _ he0 hep
          have hnl : name.length = (ps[4]).length := (same_iff.mp hn).length
          have hl : (join (ps.set 4 name)).length = (join ps).length := (same_iff.mp (same_set he0 hn)).length
          have := h.fits
          obtain ⟨b', w1, w2, w3⟩ := setPart_spec ps h6.1 h6.2 4 (by omega) b hb name m.junk m.before (Or.inl (by omega)) (by omega)
          have w1' : zpathnameSetPart m.before b name 5 m.junk = some (b', true) := w1
          exact ⟨b', name, ps[4], by rw [w1']; rfl, by omega, he0, hn, w3⟩
        · exact stay
      obtain ⟨b', e, e0, w1, w2, w3, w4, w5⟩ := key
      rw [w1, Option.bind_some]
      have he : IsPart e := same_isPart w4 (h6.2 _ (List.mem_of_getElem? w3))
      have h6' := set_part h6 he 4
      rw [cstr_holds w5 (join_nonzero _ h6'.2)]
      have hi3 : 3 < (ps.set 4 e).length := by rw [h6'.1]; omega
      have hshort : ∀ p ∈ ps.set 4 e, p.length ≤ 128 := by
        intro p hp
        rcases List.mem_or_eq_of_mem_set hp with h' | rfl
        · exact (h.short p h').1
        · rw [(same_iff.mp w4).length]; exact (h.short _ (List.mem_of_getElem? w3)).1
      obtain ⟨db, d1, d2, d3⟩ := getPart_short (ps.set 4 e) h6'.1 h6'.2 hshort 3 (by omega) (List.replicate 129 m.u) (by simp) m.junk
      have d1' : zpathnameGetPart (join (ps.set 4 e)) 4 (List.replicate 129 m.u) m.junk = some (db, (((ps.set 4 e)[3]).length : Int)) := d1
      rw [d1', Option.bind_some]
      simp only
      rw [cstr_holds d3 (fun c hc => (h6'.2 _ (List.getElem_mem hi3) c hc).2)]
      have hd : ps[3]? = some (ps.set 4 e)[3] := by
        rw [List.getElem_set_ne (by decide)]
        exact List.getElem?_eq_getElem _
      rw [if_pos (dates_fit (h.dpart _ hd))]
      exact ⟨b', e, e0, rfl, w2, w3, w4, w5⟩

theorem no_star_iff {q p : Bytes} (h : 42 ∉ q) : Matches q p ↔ sameUpToCase q p := by
  constructor
  · intro hm
    cases hm with
    | all => simp at h
    | exact _ _ h => exact h
    | startsWith _ _ _ => simp at h
    | endsWith _ _ _ => simp at h
    | contains _ => simp at h
  · intro hs
    refine Matches.exact (fun hh => h ?_) (fun hh => h ?_) hs
    · exact List.mem_of_mem_head? hh
    · exact List.mem_of_getLast? hh

/-- The pattern finds the records of the series. -/
theorem wild_iff (m : FullMem) {ps : List Bytes} (h : SeriesSeed ps) {e e0 : Bytes} (he0 : ps[4]? = some e0) (he : sameUpToCase e e0) {qs : List Bytes} (hq : SixParts qs)
    (hs : ∀ x ∈ qs, x.length ≤ 128) :
    (wildFound m.before m.u m.junk (join ((ps.set 4 e).set 3 [42])) (join qs)).getD false = true ↔ InSeries ps (join qs) := by
  have h6 := h.six
  have hep : IsPart e := same_isPart he (h6.2 _ (List.mem_of_getElem? he0))
  have h6' := set_part h6 hep 4
  have hstar : IsPart [42] := by intro c hc; simp at hc; subst hc; decide
  have h6'' := set_part h6' hstar 3
  have hlen4 : (ps.set 4 e).length = 6 := by rw [List.length_set]; exact h6.1
  have h42 : 42 ∉ e := by
    intro hm
    have : (42 : UInt8) ∈ e0.map toupper := by
      rw [← same_iff.mp he]; exact List.mem_map.mpr ⟨42, hm, by decide⟩
    obtain ⟨y, y1, y2⟩ := List.mem_map.mp this
    have : y = 42 := by revert y2; exact forallByte (fun y => toupper y = 42 → y = 42) (by decide +kernel) y
    subst this
    exact (h.short _ (List.mem_of_getElem? he0)).2.1 y1
  have hel : e.length ≤ 128 := by rw [(same_iff.mp he).length]; exact (h.short _ (List.mem_of_getElem? he0)).1
  have hmem : ∀ x ∈ (ps.set 4 e).set 3 [42], x = [42] ∨ (x.length ≤ 128 ∧ 42 ∉ x) := by
    intro x hx
    rcases List.mem_or_eq_of_mem_set hx with hx | rfl
    · rcases List.mem_or_eq_of_mem_set hx with hx | rfl
      · exact Or.inr ⟨(h.short x hx).1, (h.short x hx).2.1⟩
      · exact Or.inr ⟨hel, h42⟩
    · exact Or.inl rfl
  obtain ⟨f, w1, w2⟩ := C49_wild_partial m.before m.u m.junk ((ps.set 4 e).set 3 [42]) qs h6''.1 hq.1
    (fun q hq' => ⟨h6''.2 q hq', by rcases hmem q hq' with h' | h'; (rw [h']; decide); exact h'.1⟩)
    (fun p hp => ⟨hq.2 p hp, hs p hp⟩)
    (fun i q p x a b c l => by
      rcases hmem q (List.mem_of_getElem? a) with rfl | h'
      · injection c with _ c; subst c; simp
      · rw [c] at h'; simp at h')
    (fun i p a b => by
      rcases hmem _ (List.mem_of_getElem? a) with h' | h'
      · simp at h'
      · simp at h')
  rw [w1, Option.getD_some, w2]
  have hget : ∀ i, i ≠ 3 → ((ps.set 4 e).set 3 [42])[i]? = (ps.set 4 e)[i]? := fun i hi => List.getElem?_set_ne (Ne.symm hi)
  have hsame4 : ∀ (i : Nat) (a b : Bytes), (ps.set 4 e)[i]? = some a → ps[i]? = some b → sameUpToCase a b := by
    intro i a b ha hb
    by_cases hi : i = 4
    · subst hi
      rw [List.getElem?_set_self (by rw [h6.1]; omega)] at ha
      injection ha with ha; subst ha
      rw [he0] at hb; injection hb with hb; subst hb
      exact he
    · rw [List.getElem?_set_ne (Ne.symm hi), hb] at ha
      injection ha with ha; subst ha
      exact same_iff.mpr (Same.refl _)
  have hex : ∀ (l : List Bytes) (i : Nat), l.length = 6 → i < 6 → ∃ a, l[i]? = some a := fun l i hl hi => ⟨_, List.getElem?_eq_getElem (by omega)⟩
  have hlt : ∀ (l : List Bytes) (i : Nat) (a : Bytes), l.length = 6 → l[i]? = some a → i < 6 := by
    intro l i a hl ha
    rcases Nat.lt_or_ge i 6 with h' | h'
    · exact h'
    · rw [List.getElem?_eq_none (by omega)] at ha; cases ha
  constructor
  · intro hm
    obtain ⟨d, hd⟩ := hex qs 3 hq.1 (by omega)
    have hdp : IsPart d := hq.2 d (List.mem_of_getElem? hd)
    refine ⟨d, hdp, same_join (by rw [List.length_set, hq.1, h6.1]) fun i a b ha hb => ?_⟩
    by_cases hi : i = 3
    · subst hi
      rw [List.getElem?_set_self (by rw [h6.1]; omega)] at hb
      rw [hd] at ha
      injection ha with ha; injection hb with hb
      subst ha; subst hb
      exact same_iff.mpr (Same.refl _)
    · rw [List.getElem?_set_ne (Ne.symm hi)] at hb
      have hi6 := hlt ps i b h6.1 hb
      obtain ⟨x, hx⟩ := hex (ps.set 4 e) i hlen4 hi6
      have hx' := hx
      rw [← hget i hi] at hx'
      have := hm i x a hx' ha
      have hxs : 42 ∉ x := by
        rcases List.mem_or_eq_of_mem_set (List.mem_of_getElem? hx) with h' | rfl
        · exact (h.short x h').2.1
        · exact h42
      exact sameUp_trans (sameUp_symm ((no_star_iff hxs).mp this)) (hsame4 i x b hx hb)
  · rintro ⟨d, hd1, hd2⟩ i q p hqi hpi
    by_cases hi : i = 3
    · subst hi
      rw [List.getElem?_set_self (by rw [hlen4]; omega)] at hqi
      injection hqi with hqi; subst hqi
      exact Matches.all
    · rw [hget i hi] at hqi
      have hi6 := hlt qs i p hq.1 hpi
      obtain ⟨b, hb⟩ := hex ps i h6.1 hi6
      have hb' : (ps.set 3 d)[i]? = some b := by rw [List.getElem?_set_ne (Ne.symm hi)]; exact hb
      have hqs : 42 ∉ q := by
        rcases List.mem_or_eq_of_mem_set (List.mem_of_getElem? hqi) with h' | rfl
        · exact (h.short q h').2.1
        · exact h42
      exact (no_star_iff hqs).mpr (sameUp_trans (hsame4 i q b hqi hb) (sameUp_symm (join_parts hq (set_part h6 hd1 3) hd2 hpi hb')))

end Hec
