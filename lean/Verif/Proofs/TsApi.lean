import Verif.Props.SeriesFile
import Verif.Props.FPartCases
import Verif.Props.Times
import Verif.Props.Periods
import Verif.Proofs.Api
import Verif.Spec.TsApi
/-! Pathnames, times and windows of the public interface for regular series. -/
namespace Hec
set_option linter.unusedSimpArgs false
set_option linter.unusedVariables false
open _root_.Spec (Date Period RegInterval IsPart join SixParts Holds Printable TextOf PathFor SeriesName TsMemOk blockLength Ascii NoBlankEnd)

/-! ### pathnames -/

theorem printable_byte {c : UInt8} (h : 32 ≤ c ∧ c ≤ 126) : cleanKeep c = true := by
  revert h
  exact forallByte (fun c => 32 ≤ c ∧ c ≤ 126 → cleanKeep c = true) (by decide +kernel) c

theorem printable_ascii {s : Bytes} (h : Printable s) : Ascii s := by
  intro c hc
  have := h c hc
  revert this
  exact forallByte (fun c => 32 ≤ c ∧ c ≤ 126 → 1 ≤ c.toNat ∧ c.toNat ≤ 127) (by decide +kernel) c

theorem filter_printable {s : Bytes} (h : Printable s) : s.filter cleanKeep = s := List.filter_eq_self.mpr fun c hc => printable_byte (h c hc)

theorem join_printable {ps : List Bytes} (h : ∀ p ∈ ps, Printable p) : Printable (join ps) := by
  intro c hc
  unfold join at hc
  rcases List.mem_cons.mp hc with e | e
  · subst e; decide
  · obtain ⟨p, hp, hc⟩ := List.mem_flatMap.mp e
    rcases List.mem_append.mp hc with e | e
    · exact h p hp c e
    · simp only [List.mem_singleton] at e; subst e; decide

theorem cleanText_part (p rest : Bytes) (h : ∀ c ∈ p, c ≠ 47) (n : Nat) (hn : n + 1 < 7 ∨ rest = []) :
    cleanText n (p ++ 47 :: rest) = p ++ 47 :: cleanText (n + 1) rest := by
  induction p with
  | nil =>
    simp only [List.nil_append, cleanText, if_true]
    split
    · rename_i h7
      rcases hn with hn | hn
      · omega
      · subst hn; rfl
    · rfl
  | cons c cs ih =>
    simp only [List.cons_append, cleanText]
    rw [if_neg (h c (List.mem_cons_self ..)), ih (fun x hx => h x (List.mem_cons_of_mem _ hx))]

theorem cleanText_parts : ∀ (ps : List Bytes) (n : Nat), (∀ p ∈ ps, ∀ c ∈ p, c ≠ 47) → n + ps.length ≤ 7 → cleanText n (ps.flatMap (· ++ [47])) = ps.flatMap (· ++ [47]) := by
  intro ps
  induction ps with
  | nil => intros; rfl
  | cons p ps ih =>
    intro n h hn
    simp only [List.flatMap_cons, List.append_assoc, List.singleton_append] at hn ⊢
    simp only [List.length_cons] at hn
    rw [cleanText_part p _ (h p (List.mem_cons_self ..)), ih (n + 1) (fun q hq => h q (List.mem_cons_of_mem _ hq)) (by omega)]
    cases ps with
    | nil => right; rfl
    | cons q qs => left; simp only [List.length_cons] at hn; omega

theorem clean_join {ps : List Bytes} (h : SixParts ps) (hp : ∀ p ∈ ps, Printable p) {b : Bytes} (hb : (join ps).length < b.length) :
    ∃ b', zpathnameClean b (join ps) = some (b', (join ps).length) ∧ b'.length = b.length ∧ Holds b' (join ps) := by
  have e : cleanText 0 ((join ps).filter cleanKeep) = join ps := by
    rw [filter_printable (join_printable hp)]
    unfold join
    simp only [cleanText, if_true]
    rw [if_neg (by decide), cleanText_parts ps 1 (fun p hp c hc => (h.2 p hp c hc).1) (by rw [h.1]; decide)]
  have := C23_clean_partial b (join ps)
  rw [e] at this
  exact this hb

theorem malloc_join {ps : List Bytes} (h : SixParts ps) : mallocAndCopyPath (join ps) = join ps := by
  have := C50_trailing_blanks _ h 0
  rwa [show List.replicate 0 (32 : UInt8) = [] from rfl, List.append_nil] at this

theorem getLast_join {ps : List Bytes} (h : ps ≠ []) : (join ps).getLast? = some 47 := by
  unfold join
  obtain ⟨l, x, rfl⟩ : ∃ l x, ps = l ++ [x] := ⟨ps.dropLast, ps.getLast h, (List.dropLast_concat_getLast h).symm⟩
  rw [List.flatMap_append, ← List.cons_append, List.getLast?_append]
  simp

theorem copy_join {ps : List Bytes} (h : SixParts ps) (hp : ∀ p ∈ ps, Printable p) : mallocAndCopy (join ps) = join ps := by
  refine copy_same (printable_ascii (join_printable hp)) ?_
  unfold NoBlankEnd
  rw [getLast_join (by intro e; rw [e] at h; exact absurd h.1 (by decide))]
  decide

theorem style104_small : ∀ m : Fin 12, ∀ d : Fin 31,
    (dayText ((d : Nat) + 1 : Int) 104 ++ monthText ((m : Nat) + 1 : Int) 104).length = 5 ∧
      (dayText ((d : Nat) + 1 : Int) 104 ++ monthText ((m : Nat) + 1 : Int) 104).all (fun c => c != 47 && 32 ≤ c && c ≤ 126) = true := by
  decide +kernel

theorem style104_text {y m d : Int} (hm1 : 1 ≤ m) (hm2 : m ≤ 12) (hd1 : 1 ≤ d) (hd2 : d ≤ 31) (hy1 : 0 ≤ y) (hy2 : y < 10000) :
    (characterDate y m d 104).length = 9 ∧ IsPart (characterDate y m d 104) ∧ Printable (characterDate y m d 104) := by
  have e : characterDate y m d 104 = (dayText d 104 ++ monthText m 104) ++ yearText y 104 := by
    unfold characterDate
    have h1 : cmod 104 10 = 4 := by decide
    have h2 : cmod 4 3 ≠ 0 := by decide
    simp only [h1]
    rw [if_pos (by decide), if_pos h2, List.append_assoc]
  have hs := style104_small ⟨(m - 1).toNat, by omega⟩ ⟨(d - 1).toNat, by omega⟩
  simp only at hs
  rw [show (((m - 1).toNat : Nat) : Int) + 1 = m by omega, show (((d - 1).toNat : Nat) : Int) + 1 = d by omega] at hs
  have ey : yearText y 104 = zeroPad 4 (decimal y.natAbs) := by
    unfold yearText intTo4char formatZeros
    simp only
    rw [if_pos (by omega), if_neg (by decide), if_neg (by omega), List.take_of_length_le]
    rw [zeroPad_length _ _ (decimal_length _ 4 (by omega) (by omega))]
    exact Nat.le_refl 4
  rw [e, ey]
  have hl := zeroPad_length 4 (decimal y.natAbs) (decimal_length _ 4 (by omega) (by omega))
  have hall : ∀ c ∈ (dayText d 104 ++ monthText m 104) ++ zeroPad 4 (decimal y.natAbs), (c ≠ 47 ∧ c ≠ 0) ∧ 32 ≤ c ∧ c ≤ 126 := by
    intro c hc
    rcases List.mem_append.mp hc with h | h
    · have := List.all_eq_true.mp hs.2 c h
      revert this
      exact forallByte (fun c => (c != 47 && 32 ≤ c && c ≤ 126) = true → (c ≠ 47 ∧ c ≠ 0) ∧ 32 ≤ c ∧ c ≤ 126) (by decide +kernel) c
    · have := zeroPad_digits 4 _ (decimal_digits _) c h
      revert this
      exact forallByte (fun c => isDigit c = true → (c ≠ 47 ∧ c ≠ 0) ∧ 32 ≤ c ∧ c ≤ 126) (by decide +kernel) c
  exact ⟨by rw [List.length_append, hs.1, hl], fun c hc => (hall c hc).1, fun c hc => (hall c hc).2⟩

/-- The date that goes into the internal pathname. -/
theorem day104 {j : Int} (h1 : julianOf ⟨100, 1, 1⟩ ≤ j) (h2 : j ≤ julianOf ⟨9999, 12, 31⟩) :
    ∃ t, julianToDate (exactYearGuess j) j 104 129 = some t ∧ t.length = 9 ∧ IsPart t ∧ Printable t := by
  have h5 : julianOf ⟨5, 1, 1⟩ ≤ j := by
    have : julianOf ⟨5, 1, 1⟩ ≤ julianOf ⟨100, 1, 1⟩ := by decide +kernel
    omega
  obtain ⟨d, hv, hy, hd, hg⟩ := C02_julian_total j h5
  have hv' := hv
  unfold Date.Valid at hv
  have hday : d.day ≤ 31 := by
    have : Spec.monthLen d.year d.month ≤ 31 := by unfold Spec.monthLen; split <;> split <;> omega
    omega
  have hmax : d.year ≤ 9999 := by
    rcases Int.lt_or_le 9999 d.year with h | h
    · exfalso
      have := (C01_julian_order ⟨9999, 12, 31⟩ d (by unfold Date.Valid; decide) hv' (by decide) hy).mpr (Or.inl h)
      omega
    · exact h
  obtain ⟨k1, k2, k3⟩ := style104_text (y := d.year) (m := d.month) (d := d.day) hv.1 hv.2.1 hv.2.2.1 hday (by omega) (by omega)
  have hund : j ≠ UNDEFINED_TIME := by
    have : julianOf ⟨5, 1, 1⟩ > UNDEFINED_TIME := by decide
    omega
  refine ⟨_, ?_, k1, k2, k3⟩
  unfold julianToDate
  rw [if_neg hund, hg, Option.bind_some]
  unfold yearMonthDayToDate
  simp only
  rw [if_neg (by omega), if_neg (by omega), if_neg (by decide), if_neg (by decide), List.take_take, List.take_of_length_le (by omega)]

/-- Names of intervals are short and printable. -/
theorem interval_name {e : Bytes} {k i : Int} {name : Bytes} (h : ePartToSeconds 7 e = some (k, i, name)) :
    name.length ≤ 10 ∧ IsPart name ∧ Printable name := by
  have key : ∀ x ∈ intervalTable 7, x.1.length ≤ 10 ∧ (x.1.all fun c => c != 47 && 32 ≤ c && c ≤ 126) = true := by decide +kernel
  unfold ePartToSeconds at h
  simp only at h
  split at h
  · cases h
  · rename_i x hx
    injection h with h
    have hn : x.1 = name := by injection h with h1 h2; injection h2
    subst hn
    obtain ⟨k1, k2⟩ := key x (List.mem_of_find?_eq_some hx)
    have hall : ∀ c ∈ x.1, (c ≠ 47 ∧ c ≠ 0) ∧ 32 ≤ c ∧ c ≤ 126 := by
      intro c hc
      have := List.all_eq_true.mp k2 c hc
      revert this
      exact forallByte (fun c => (c != 47 && 32 ≤ c && c ≤ 126) = true → (c ≠ 47 ∧ c ≠ 0) ∧ 32 ≤ c ∧ c ≤ 126) (by decide +kernel) c
    exact ⟨k1, fun c hc => (hall c hc).1, fun c hc => (hall c hc).2⟩

theorem join_six (a b c d e f : Bytes) : (join [a, b, c, d, e, f]).length = a.length + b.length + c.length + d.length + e.length + f.length + 7 := by
  unfold join; simp; omega

theorem six_list {ps : List Bytes} (h : SixParts ps) : ∃ a b c d e f, ps = [a, b, c, d, e, f] := by
  match ps, h.1 with
  | [a, b, c, d, e, f], _ => exact ⟨a, b, c, d, e, f, rfl⟩

theorem printable_set {ps : List Bytes} (h : ∀ p ∈ ps, Printable p) {x : Bytes} (hx : Printable x) (i : Nat) : ∀ p ∈ ps.set i x, Printable p := by
  intro p hp
  rcases List.mem_or_eq_of_mem_set hp with h1 | h1
  · exact h p h1
  · rw [h1]; exact hx

theorem short_set {ps : List Bytes} (h : ∀ p ∈ ps, p.length ≤ 128) {x : Bytes} (hx : x.length ≤ 128) (i : Nat) : ∀ p ∈ ps.set i x, p.length ≤ 128 := by
  intro p hp
  rcases List.mem_or_eq_of_mem_set hp with h1 | h1
  · exact h p h1
  · rw [h1]; exact hx

/-- The pathname and interval that ztsProcessTimes works with. -/
theorem tsPath_gen {ps : List Bytes} {kind secs : Int} {path name : Bytes} (hn : SeriesName ps)
    (made : ∃ y e : Bytes, path = join ((ps.set 3 y).set 4 e) ∧ IsPart y ∧ IsPart e ∧ Printable y ∧ Printable e ∧ y.length ≤ 128 ∧ 4 ≤ e.length ∧ e.length ≤ 128 ∧
      ePartToSeconds 7 e = some (kind, secs, name) ∧ ps.getD 4 [] = (if e.head? = some 126 then 126 :: name else name) ∧ (4 < y.length → (y.take 4).map toupper ≠ [84, 83, 45, 80]))
    {m : TsMem} (hm : TsMemOk m) :
    mallocAndCopyPath path = path ∧ 10 ≤ path.length ∧
    ∃ y e b, path = join ((ps.set 3 y).set 4 e) ∧ IsPart y ∧ Printable y ∧ y.length ≤ 128 ∧ IsPart e ∧ Printable e ∧ e.length ≤ 128 ∧
      tsPath m path = some (if kind = 0 then .regular secs b else .irregular (-secs) b) ∧ Holds b (join (ps.set 3 y)) ∧ (join (ps.set 3 [])).length + 9 < b.length := by
  obtain ⟨y, e, rfl, hy, he, py, pe, ly, le4, le, hE, hname, hpat⟩ := made
  have hs1 := set_part hn.six hy 3
  have hs2 := set_part hs1 he 4
  have hP := printable_set (printable_set hn.printable py 3) pe 4
  have hL := short_set (short_set hn.length ly 3) le 4
  obtain ⟨n1, n2, n3⟩ := interval_name hE
  obtain ⟨pa, pb, pc, pd, pe', pf, rfl⟩ := six_list hn.six
  have hname : pe' = (if e.head? = some 126 then 126 :: name else name) := hname
  have n1 : pe'.length ≤ 11 := by
    rw [hname]; split
    · simp only [List.length_cons]; omega
    · omega
  have hlen : (join (([pa, pb, pc, pd, pe', pf].set 3 y).set 4 e)).length = pa.length + pb.length + pc.length + y.length + e.length + pf.length + 7 := join_six ..
  refine ⟨malloc_join hs2, by omega, y, e, ?_⟩
  obtain ⟨b1, c1, c2, c3⟩ := clean_join hs2 hP (b := List.replicate ((join (([pa, pb, pc, pd, pe', pf].set 3 y).set 4 e)).length + 20) 0) (by simp)
  rw [List.length_replicate] at c2
  have hc1 : cstr b1 = join (([pa, pb, pc, pd, pe', pf].set 3 y).set 4 e) := cstr_holds c3 (join_nonzero _ hs2.2)
  obtain ⟨eb, g1, g2, g3⟩ := getPart_short _ hs2.1 hs2.2 hL 4 (by omega) m.ePart hm.ePart m.junk
  have hel : ((([pa, pb, pc, pd, pe', pf].set 3 y).set 4 e)[4]'(by simp)) = e := rfl
  rw [hel] at g1 g3
  have hce : cstr eb = e := cstr_holds g3 fun c hc => (he c hc).2
  have hroom : (join ((([pa, pb, pc, pd, pe', pf].set 3 y).set 4 e).set 4 pe')).length < b1.length := by
    have : (join ((([pa, pb, pc, pd, pe', pf].set 3 y).set 4 e).set 4 pe')).length = pa.length + pb.length + pc.length + y.length + pe'.length + pf.length + 7 := join_six ..
    omega
  obtain ⟨b2, s1, s2, s3⟩ := C22_set _ hs2.1 hs2.2 4 (by omega) b1 c3 pe' m.junk m.heap hroom
  have s3 : Holds b2 (join [pa, pb, pc, y, pe', pf]) := s3
  have hs3 : SixParts [pa, pb, pc, y, pe', pf] := hs1
  have hc2 : cstr b2 = join [pa, pb, pc, y, pe', pf] := cstr_holds s3 (join_nonzero _ hs3.2)
  obtain ⟨db, d1, d2, d3⟩ := getPart_short _ hs3.1 hs3.2 (short_set hn.length ly 3) 3 (by omega) m.dPart hm.dPart m.junk
  have hdl : ([pa, pb, pc, y, pe', pf][3]'(by simp)) = y := rfl
  rw [hdl] at d1 d3
  have hcd : cstr db = y := cstr_holds d3 fun c hc => (hy c hc).2
  refine ⟨b2, rfl, hy, py, ly, he, pe, le, ?_, s3, ?_⟩
  · unfold tsPath
    rw [c1, Option.bind_some]
    simp only
    rw [hc1]
    have g1 : zpathnameGetPart (join (([pa, pb, pc, pd, pe', pf].set 3 y).set 4 e)) 5 m.ePart m.junk = some (eb, (e.length : Int)) := g1
    rw [g1, Option.bind_some]
    simp only
    rw [if_neg (by omega), hce, hE]
    simp only
    have s1 : zpathnameSetPart (fun j => some (m.heap j)) b1 pe' 5 m.junk = some (b2, true) := s1
    rw [← hname, s1, Option.bind_some]
    simp only
    rw [hc2]
    have d1 : zpathnameGetPart (join [pa, pb, pc, y, pe', pf]) 4 m.dPart m.junk = some (db, (y.length : Int)) := d1
    rw [d1, Option.map_some]
    simp only
    rw [if_neg]
    rintro ⟨h4, hcmp⟩
    rw [hcd] at hcmp
    have hl4 : (y.take 4).length = 4 := by rw [List.length_take]; omega
    have := (compare_iff (y.take 4) PATTERN_START (by rw [hl4]; rfl)).mp (by rw [hl4]; exact hcmp)
    exact hpat (by omega) (by rw [this]; decide)
  · have : (join ([pa, pb, pc, pd, pe', pf].set 3 [])).length = pa.length + pb.length + pc.length + 0 + pe'.length + pf.length + 7 := join_six ..
    omega

theorem tsPath_spec {ps : List Bytes} {secs : Int} {path : Bytes} (hn : SeriesName ps) (hp : PathFor ps secs path) {m : TsMem} (hm : TsMemOk m) :
    mallocAndCopyPath path = path ∧ 10 ≤ path.length ∧
    ∃ y e b, path = join ((ps.set 3 y).set 4 e) ∧ IsPart y ∧ Printable y ∧ y.length ≤ 128 ∧ IsPart e ∧ Printable e ∧ e.length ≤ 128 ∧
      tsPath m path = some (.regular secs b) ∧ Holds b (join (ps.set 3 y)) ∧ (join (ps.set 3 [])).length + 9 < b.length := by
  obtain ⟨y, e, h1, h2, h3, h4, h5, h6, h7, h8, h9, h10⟩ := hp.made
  refine tsPath_gen (kind := 0) hn ⟨y, e, h1, h2, h3, h4, h5, h6, h7, h8, h9, ?_, h10⟩ hm
  rw [if_neg]
  intro hh
  unfold ePartToSeconds at h9
  simp only at h9
  split at h9
  · cases h9
  · rename_i x hx
    injection h9 with h9
    injection h9 with h9 _
    have hb : (e.head? == some 126) = true := by rw [hh]; rfl
    rw [if_pos hb] at h9
    have hp : ∀ s, ¬ pseudoBlock 7 s > 0 := by
      intro s; unfold pseudoBlock; split <;> (try split) <;> (try split) <;> (try split) <;> (try split) <;> decide
    rw [if_neg (hp _)] at h9
    cases h9

theorem internal_spec {ps : List Bytes} (hn : SeriesName ps) {y : Bytes} (hy : IsPart y) (py : Printable y) {b : Bytes} (hb : Holds b (join (ps.set 3 y)))
    (hl : (join (ps.set 3 [])).length + 9 < b.length) (m : TsMem) {j : Int} (h1 : julianOf ⟨100, 1, 1⟩ ≤ j) (h2 : j ≤ julianOf ⟨9999, 12, 31⟩) :
    ∃ internal, internalPath m b j = some internal ∧ Spec.NamesSeries ps internal := by
  obtain ⟨t, t1, t2, t3, t4⟩ := day104 h1 h2
  have hs := set_part hn.six hy 3
  have hlen : (join (ps.set 3 t)).length = blockLength ps := block_length hn.six t2
  obtain ⟨b', k1, k2, k3⟩ := C22_set _ hs.1 hs.2 3 (by omega) b hb t m.junk m.heap (by rw [set_set, hlen]; exact hl)
  rw [set_set] at k3
  have hs' := set_part hn.six t3 3
  refine ⟨join (ps.set 3 t), ?_, t, t3, rfl, by rw [hlen]; exact hn.fits⟩
  unfold internalPath
  have k1 : zpathnameSetPart (fun j => some (m.heap j)) b t 4 m.junk = some (b', true) := k1
  rw [t1, Option.bind_some, k1, Option.map_some]
  simp only
  rw [cstr_holds k3 (join_nonzero _ hs'.2), copy_join hs' (printable_set hn.printable t4 3)]

theorem splitBar_chars : ∀ (f p : Bytes), p ∈ Spec.splitBar f → ∀ c ∈ p, c ∈ f
  | [], p, hp, c, hc => by
    simp only [Spec.splitBar, List.mem_singleton] at hp
    subst hp; cases hc
  | x :: f, p, hp, c, hc => by
    unfold Spec.splitBar at hp
    split at hp
    · rcases List.mem_cons.mp hp with h | h
      · subst h; cases hc
      · exact List.mem_cons_of_mem _ (splitBar_chars f p h c hc)
    · cases hs : Spec.splitBar f with
      | nil =>
        rw [hs] at hp
        simp only [List.mem_singleton] at hp
        subst hp
        simp only [List.mem_singleton] at hc
        subst hc; exact List.mem_cons_self ..
      | cons q qs =>
        rw [hs] at hp
        simp only at hp
        rcases List.mem_cons.mp hp with h | h
        · subst h
          rcases List.mem_cons.mp hc with e | e
          · subst e; exact List.mem_cons_self ..
          · exact List.mem_cons_of_mem _ (splitBar_chars f q (by rw [hs]; exact List.mem_cons_self ..) c e)
        · exact List.mem_cons_of_mem _ (splitBar_chars f p (by rw [hs]; exact List.mem_cons_of_mem _ h) c hc)

theorem tagOf_chars {p : Bytes} {t : UInt8 × Bytes} (h : Spec.tagOf p = some t) : ∀ c ∈ t.2, c ∈ p := by
  unfold Spec.tagOf at h
  split at h
  · injection h with h
    subst h
    intro c hc
    exact List.mem_cons_of_mem _ (List.mem_cons_of_mem _ hc)
  · cases h

theorem canonical_part {f : Bytes} (h : IsPart f) : IsPart (Spec.canonical f) := by
  have hpiece : ∀ p ∈ Spec.pieces f, ∀ c ∈ p, c ∈ f := fun p hp => splitBar_chars f p (List.mem_filter.mp hp).1
  intro c hc
  unfold Spec.canonical at hc
  rcases List.mem_append.mp hc with hc | hc
  · obtain ⟨l, hl, hc⟩ := List.mem_flatMap.mp hc
    obtain ⟨t, ht, hc⟩ := List.mem_flatMap.mp hc
    obtain ⟨ht1, ht2⟩ := List.mem_filter.mp ht
    obtain ⟨p, hp, hpt⟩ := List.mem_filterMap.mp ht1
    rcases List.mem_cons.mp hc with e | hc
    · have ht2 : t.1 = l := by simpa using ht2
      rw [e, ht2]
      clear hc ht ht2 e
      revert hl
      exact forallByte (fun l => l ∈ ([67, 78, 84, 82, 86] : Bytes) → l ≠ 47 ∧ l ≠ 0) (by decide +kernel) l
    · rcases List.mem_cons.mp hc with e | hc
      · subst e; decide
      · rcases List.mem_append.mp hc with hc | hc
        · exact h c (hpiece p hp c (tagOf_chars hpt c hc))
        · simp only [List.mem_singleton] at hc
          subst hc; decide
  · obtain ⟨p, hp, hc⟩ := List.mem_flatten.mp hc
    exact h c (hpiece p (List.mem_filter.mp hp).1 c hc)

/-- The pathname of the struct after the tags have been put in order. -/
theorem normalized_spec {ps : List Bytes} (hn : SeriesName ps) {y e : Bytes} (hy : IsPart y) (ly : y.length ≤ 128) (he : IsPart e) (le : e.length ≤ 128)
    {m : TsMem} (hm : TsMemOk m) :
    ∃ f, IsPart f ∧ tsNormalized m (join ((ps.set 3 y).set 4 e)) = some (some (join (((ps.set 3 y).set 4 e).set 5 f))) := by
  have hs := set_part (set_part hn.six hy 3) he 4
  have hL := short_set (short_set hn.length ly 3) le 4
  have key := C65_pathname hs hL hm.parts m.junk
  have hF : ((ps.set 3 y).set 4 e).getD 5 [] = ps.getD 5 [] := by
    obtain ⟨pa, pb, pc, pd, pe', pf, rfl⟩ := six_list hn.six
    rfl
  rw [hF] at key
  unfold tsNormalized
  rw [key, Option.map_some]
  have ht := hn.tags
  have hset := C65_set (ps.getD 5 [])
  cases hnf : normalizeFPart (ps.getD 5 []) with
  | mk st o =>
    rw [hnf] at ht hset
    simp only at ht
    have same : ∃ f, IsPart f ∧ join ((ps.set 3 y).set 4 e) = join (((ps.set 3 y).set 4 e).set 5 f) := by
      refine ⟨ps.getD 5 [], ?_, ?_⟩
      · obtain ⟨pa, pb, pc, pd, pe', pf, rfl⟩ := six_list hn.six
        exact hn.six.2 pf (by simp)
      · obtain ⟨pa, pb, pc, pd, pe', pf, rfl⟩ := six_list hn.six
        rfl
    split
    · rename_i g heq
      injection heq with e1 e2; subst e1; subst e2
      have hg := ((C65_normal_form _ g).1 hnf).2
      refine ⟨g, ?_, rfl⟩
      rw [hg]
      refine canonical_part ?_
      obtain ⟨pa, pb, pc, pd, pe', pf, rfl⟩ := six_list hn.six
      exact hn.six.2 pf (by simp)
    · rename_i st' o' hne heq
      injection heq with e1 e2; subst e1; subst e2
      rw [if_pos ht]
      obtain ⟨f, f1, f2⟩ := same
      refine ⟨f, f1, ?_⟩
      rw [← f2]; rfl

theorem elev_spec {ps : List Bytes} (hn : SeriesName ps) (hc : ((ps.getD 2 []).take 4).map toupper ≠ ELEVATION) {y e f : Bytes} (hy : IsPart y) (ly : y.length ≤ 128) (he : IsPart e) (le : e.length ≤ 128)
    (hf : IsPart f) {m : TsMem} (hm : TsMemOk m) : pathnameIsElevTs m (join (((ps.set 3 y).set 4 e).set 5 f)) = some false := by
  have hs := set_part (set_part (set_part hn.six hy 3) he 4) hf 5
  obtain ⟨b, g1, g2⟩ := getPart_spec _ hs.1 hs.2 2 (by omega) m.cPart (by rw [hm.cPart]; exact Nat.le_refl _) m.junk
  obtain ⟨pa, pb, pc, pd, pe', pf, rfl⟩ := six_list hn.six
  have hel : (((([pa, pb, pc, pd, pe', pf].set 3 y).set 4 e).set 5 f)[2]'(by simp)) = pc := rfl
  rw [hel, List.take_of_length_le (hn.length pc (by simp))] at g2
  rw [hel] at g1
  unfold pathnameIsElevTs
  have g1 : zpathnameGetPart (join ((([pa, pb, pc, pd, pe', pf].set 3 y).set 4 e).set 5 f)) 3 m.cPart m.junk = some (b, ((min pc.length 128 : Nat) : Int)) := g1
  rw [g1, Option.map_some]
  simp only
  rw [cstr_holds g2 (fun c hc => (hn.six.2 pc (by simp) c hc).2)]
  have hc : (pc.take 4).map toupper ≠ ELEVATION := hc
  rw [decide_eq_false hc]

/-! ### times -/

theorem apiTime_spec {date time : Bytes} {t : Int × Int} (h : TextOf date time t) (ht1 : 1 ≤ t.2) (ht2 : t.2 ≤ 86400) (hu : julianOf ⟨5, 1, 1⟩ ≤ t.1) :
    ∃ t0, apiTime date time = some t0 ∧ t0.1 = dateToJulian date ∧ cleanTime t0.1 t0.2 1 = t ∧ isTimeDefined t = true := by
  obtain ⟨s, h1, h2, h3, h4, h5⟩ := h.says
  have hund : julianOf ⟨5, 1, 1⟩ > UNDEFINED_TIME + 1 := by decide
  refine ⟨(dateToJulian date, s), ?_, rfl, ?_, ?_⟩
  · unfold apiTime
    rw [if_pos (List.length_pos_iff.mpr h.hasTime), h1, Option.map_some, if_pos (List.length_pos_iff.mpr h.hasDate)]
  · have hT : IsTime (dateToJulian date) s := ⟨by omega, by omega⟩
    obtain ⟨a1, a2, a3⟩ := cleanTime_secs hT
    have : (cleanTime (dateToJulian date) s 1).1 = t.1 := by omega
    have : (cleanTime (dateToJulian date) s 1).2 = t.2 := by omega
    exact Prod.ext ‹_› ‹_›
  · unfold isTimeDefined
    have h1 : ¬ t.1 = UNDEFINED_TIME := by omega
    have h2 : ¬ t.2 < 0 := by omega
    simp [h1, h2]

theorem time_secs (r : RegInterval) (k : Int) : 1 ≤ (r.time julianOf k).2 ∧ (r.time julianOf k).2 ≤ 86400 := by
  cases r with
  | fixed i => simp only [RegInterval.time]; omega
  | period p => simp only [RegInterval.time]; omega

/-- The offset of a standard time is 0. -/
theorem std_offset {r : RegInterval} (hr : r.Ok) {k : Int} (hk : InRange r k) : (ztsOffsetAdjustToStandard r.secs (r.time julianOf k).1 (r.time julianOf k).2).1 = 0 := by
  obtain ⟨t1, t2⟩ := time_secs r k
  cases r with
  | fixed i =>
    obtain ⟨hi, hd⟩ := hr
    have hle : i ≤ 86400 := Int.le_of_dvd (by decide) hd
    have hJ : julianOf ⟨100, 1, 1⟩ ≤ (k * i - 1) / 86400 := by
      have : julianOf ⟨100, 1, 1⟩ * 86400 < k * i := hk
      omega
    have hJ2 : UNDEFINED_TIME < julianOf ⟨100, 1, 1⟩ := by decide
    simp only [RegInterval.time, RegInterval.secs] at *
    have hc := cleanTime_normal (j := (k * i - 1) / 86400) t1 t2
    have key := C11_offset_intraday_gen i ((k * i - 1) / 86400) ((k * i - 1) % 86400 + 1) hi hd ⟨by omega, by omega⟩ (by rw [hc]; simp only; omega)
    simp only at key
    rw [key.2.2.1, offset_intraday hi hle (by rw [hc]; exact t1), hc]
    simp only
    obtain ⟨P, hP⟩ := hd
    have h1 : (k * i - 1) % 86400 + 1 = k * i - 86400 * ((k * i - 1) / 86400) := by omega
    rw [h1, hP]
    have : k * i - i * P * ((k * i - 1) / (i * P)) = i * (k - P * ((k * i - 1) / (i * P))) := by
      rw [Int.mul_sub, Int.mul_assoc, Int.mul_comm k i]
    rw [this]
    exact Int.mul_emod_right i _
  | period p =>
    have hk : 100 ≤ (p.endDate k).year := hk
    simp only [RegInterval.time, RegInterval.secs]
    rw [(C11_standard p k (by omega)).2]

theorem gran_dvd {g x : Int} (hg : g ∣ x) (hx : 0 ≤ x) (h1 : 1 ≤ g) : cdiv x g * g = x := by
  unfold cdiv
  rw [Int.tdiv_eq_ediv_of_nonneg hx]
  exact Int.ediv_mul_cancel hg

/-- The times given: counted in granules from the base, they are the standard times. -/
theorem times_spec {r : RegInterval} (hr : r.Ok) {a : Int} (ha : InRange r a) {gran base : Int} (hg : gran = 1 ∨ gran = 60) (hd : gran ∣ r.secs) (n : Nat) :
    ∀ k : Nat, k < n → base * 86400 + ((regTimes r.secs (r.time julianOf a).1 (r.time julianOf a).2 0 gran base n)[k]?).getD 0 * gran =
      (r.time julianOf (a + k)).1 * 86400 + (r.time julianOf (a + k)).2 := by
  intro k hk
  obtain ⟨code, jbOf, edge, n0, Gr, hrange, hdate, hnib⟩ := grid_of r hr
  have hlt := hrange a ha
  have hstd := Gr.std a hlt
  have hsecs : 1 ≤ r.secs := by
    cases r with
    | fixed i => exact hr.1
    | period p => cases p <;> decide
  have hoff : ztsOffsetAdjustToOffset 0 r.secs (r.time julianOf a).1 (r.time julianOf a).2 = r.time julianOf a := by
    unfold ztsOffsetAdjustToOffset
    rw [if_neg (by omega)]
    simp only
    rw [if_pos trivial, hstd]
  have h86 : cdiv 86400 gran * gran = 86400 := gran_dvd (by rcases hg with h | h <;> subst h <;> decide) (by decide) (by omega)
  have hS : ∀ j : Nat, gran ∣ (r.time julianOf (a + j)).2 := by
    intro j
    cases r with
    | fixed i =>
      simp only [RegInterval.time, RegInterval.secs] at hd ⊢
      have hx : gran ∣ (a + j) * i := Int.dvd_trans hd (Int.dvd_mul_left _ _)
      rcases hg with h | h
      · subst h; exact Int.one_dvd _
      · subst h; omega
    | period p =>
      simp only [RegInterval.time]
      rcases hg with h | h <;> subst h <;> decide
  have hat : ∀ j : Nat, (((r.time julianOf (a + j)).1 - base) * cdiv 86400 gran + cdiv (r.time julianOf (a + j)).2 gran) * gran =
      ((r.time julianOf (a + j)).1 - base) * 86400 + (r.time julianOf (a + j)).2 := by
    intro j
    rw [Int.add_mul, Int.mul_assoc, h86, gran_dvd (hS j) (by have := (time_secs r (a + j)).1; omega) (by omega)]
  have hinc : ∀ j : Nat, incrementTime r.secs j (r.time julianOf a).1 (r.time julianOf a).2 = r.time julianOf (a + j) := fun j => Gr.inc a j hlt (by omega)
  unfold regTimes
  simp only [Int.lt_irrefl, if_false, ne_eq, not_true_eq_false]
  rw [hoff, if_neg (show ¬ gran < 1 by omega)]
  split
  · rename_i hle
    rw [List.getElem?_map, List.getElem?_range hk, Option.map_some, Option.getD_some]
    have h0 := hinc 0
    simp only [Int.natCast_zero, Int.add_zero, Int.ofNat_zero] at h0
    rw [h0, Int.add_mul, Int.mul_assoc, gran_dvd hd (by omega) (by omega)]
    have h1 := hat 0
    simp only [Int.natCast_zero, Int.add_zero, Int.ofNat_zero] at h1
    rw [h1]
    cases r with
    | fixed i =>
      simp only [RegInterval.time, RegInterval.secs]
      have e1 : (a * i - 1) / 86400 * 86400 + ((a * i - 1) % 86400 + 1) = a * i := by omega
      have e2 : ((a + k) * i - 1) / 86400 * 86400 + (((a + k) * i - 1) % 86400 + 1) = (a + k) * i := by omega
      rw [e2, Int.add_mul]
      generalize (k : Int) * i = z at *
      omega
    | period p =>
      exfalso
      revert hle
      cases p <;> decide
  · rw [List.getElem?_map, List.getElem?_range hk, Option.map_some, Option.getD_some, hinc k, hat k]
    omega

end Hec
