import Verif.Proofs.Open
/-!
Names of DSS files (C84) and opening them (C85).
-/
namespace Hec
set_option linter.unusedSimpArgs false
set_option linter.unusedVariables false
set_option synthInstance.maxSize 1000
set_option synthInstance.maxHeartbeats 200000
open _root_.Spec (HasExtension NoQuotes quoted WordIs IsDss7 after)

/-! ### Names -/

/-- C84.  A name with the extension is taken as it is, any other gets ".dss" at its end. -/
theorem C84_name {n : Bytes} (h : NoQuotes n) (hl : n.length ≤ 1019) :
    (HasExtension n → dssName n = some n) ∧ (¬ HasExtension n → dssName n = some (n ++ [46, 100, 115, 115])) :=
  ⟨fun he => dssName_ext h he (by omega), fun he => dssName_bare h he hl⟩

/-- C84.  Quotes around a name make no difference, unless the name is nothing but the extension. -/
theorem C84_quotes_partial {n : Bytes} (h : NoQuotes n) (hl : n.length ≤ 1019) (hne : HasExtension n ∨ ¬ HasExtension (97 :: n)) :
    dssName (quoted n) = dssName n := by
  by_cases h4 : 4 < n.length
  · rw [dssName_quoted h4 (by omega), dssName_plain h, show n.take 1023 = n from List.take_of_length_le (by omega)]
  · have hx : ¬ HasExtension n := by
      rintro ⟨stem, d, s, t, rfl, h1, _⟩
      cases stem with
      | nil => exact h1 rfl
      | cons a l => simp at h4
    rw [dssName_bare h hx hl]
    refine dssName_quoted_short (by omega) (fun d s t hn hc => ?_) h.2.1
    rcases hne with hne | hne
    · exact hx hne
    · exact hne ⟨[97], d, s, t, by rw [hn]; rfl, by simp, hc.1, hc.2.1, hc.2.2⟩

theorem noQuotes_dss {n : Bytes} (h : NoQuotes n) : NoQuotes (n ++ [46, 100, 115, 115]) := by
  obtain ⟨h0, h1, h2⟩ := h
  refine ⟨by simp, ?_, ?_⟩
  · cases n with
    | nil => exact absurd rfl h0
    | cons a l => exact h1
  · rw [show n ++ [46, 100, 115, 115] = (n ++ [46, 100, 115]) ++ [115] by simp, List.getLast?_concat]
    decide

theorem extension_dss {n : Bytes} (h : n ≠ []) : HasExtension (n ++ [46, 100, 115, 115]) :=
  ⟨n, 100, 115, 115, rfl, h, Or.inr rfl, Or.inr rfl, Or.inr (Or.inl rfl)⟩

/-- C84.  The name that comes out, given again, comes out the same. -/
theorem C84_again {n m : Bytes} (h : NoQuotes n) (hl : n.length ≤ 1019) (hm : dssName n = some m) : dssName m = some m := by
  by_cases he : HasExtension n
  · rw [(C84_name h hl).1 he] at hm
    injection hm with hm
    rw [← hm]; exact (C84_name h hl).1 he
  · rw [(C84_name h hl).2 he] at hm
    injection hm with hm
    rw [← hm]
    exact dssName_ext (noQuotes_dss h) (extension_dss h.1) (by simp; omega)

/-- C84.  With and without extension, with and without quotes: opening is the same in all respects, and so is asking
for the version. -/
theorem C84_spellings_partial {n : Bytes} (h : NoQuotes n) (hl : n.length ≤ 1015) (he : ¬ HasExtension n) (hne : ¬ HasExtension (97 :: n))
    (p : Place) (fresh : Bytes) (access : Nat) :
    ∀ x ∈ [n ++ [46, 100, 115, 115], quoted n, quoted (n ++ [46, 100, 115, 115])],
      zopenFile p fresh x access = zopenFile p fresh n access ∧ zgetFileVersion p x = zgetFileVersion p n := by
  have key : ∀ x, dssName x = dssName n →
      zopenFile p fresh x access = zopenFile p fresh n access ∧ zgetFileVersion p x = zgetFileVersion p n := by
    intro x hx
    unfold zopenFile zgetFileVersion zfileName
    rw [hx]
    exact ⟨rfl, rfl⟩
  have e0 := (C84_name h (by omega)).2 he
  have e1 : dssName (n ++ [46, 100, 115, 115]) = some (n ++ [46, 100, 115, 115]) := C84_again h (by omega) e0
  intro x hx
  simp only [List.mem_cons, List.not_mem_nil, or_false] at hx
  rcases hx with rfl | rfl | rfl
  · exact key _ (by rw [e0, e1])
  · exact key _ (C84_quotes_partial h (by omega) (Or.inr hne))
  · refine key _ ?_
    rw [C84_quotes_partial (noQuotes_dss h) (by simp; omega) (Or.inl (extension_dss h.1)), e0, e1]

/-- C84 fails: the name ".dss" gets the extension once more, and in quotes it does not. -/
theorem C84_bare_extension_violation : dssName DOT_DSS = some (DOT_DSS ++ DOT_DSS) ∧ dssName (quoted DOT_DSS) = some DOT_DSS := by decide

/-- C84 fails for all names that are too long: what comes behind the first 1023 characters does not matter, so that
different names are the same file. -/
theorem C84_long_violation {n m : Bytes} (hn : NoQuotes n) (hm : NoQuotes m) (h1 : HasExtension n) (h2 : HasExtension m)
    (h : n.take 1023 = m.take 1023) : dssName n = dssName m := by
  rw [dssName_plain hn, dssName_plain hm, if_pos ((extension_iff n).mpr h1), if_pos ((extension_iff m).mpr h2), h]

/-- C84 fails for names of 1020 to 1023 characters without extension: they do not get the whole extension. -/
theorem C84_cut_violation {n : Bytes} (h : NoQuotes n) (he : ¬ HasExtension n) (h1 : 1020 ≤ n.length) (h2 : n.length ≤ 1023) :
    ∃ m, dssName n = some m ∧ m.length = 1023 ∧ m ≠ n ++ [46, 100, 115, 115] := by
  refine ⟨n ++ DOT_DSS.take (1023 - n.length), ?_, ?_, ?_⟩
  · rw [dssName_plain h, if_neg (fun hc => he ((extension_iff n).mp hc)), List.take_of_length_le h2]
    unfold stringCat
    rw [if_neg (by decide)]
    simp only
    rw [if_pos (Or.inr (by omega))]
    rw [show 1024 - n.length - 1 = 1023 - n.length by omega]
  · rw [List.length_append, List.length_take]
    show n.length + min _ 4 = _
    omega
  · intro hc
    have := congrArg List.length hc
    rw [List.length_append, List.length_append, List.length_take] at this
    change n.length + min _ 4 = n.length + 4 at this
    omega

/-- C84 fails: an empty name makes the program read in front of it. -/
theorem C84_empty_violation (p : Place) (fresh : Bytes) (access : Nat) : zopenFile p fresh [] access = none := rfl

/-! ### Opening -/

theorem put_same (fs : Files) (n b : Bytes) : fs.put n b n = some b := by unfold Files.put; rw [if_pos rfl]
theorem put_other (fs : Files) {n m : Bytes} (b : Bytes) (h : m ≠ n) : fs.put n b m = fs m := by unfold Files.put; rw [if_neg h]

/-- What opening does to the files. -/
theorem open_cases (p : Place) (fresh f : Bytes) (access : Nat) {fs : Files} {r : OpenRes} (h : zopenFile p fresh f access = some (fs, r)) :
    (r ≠ .created ∧ fs = p.files) ∨
      (r = .created ∧ access ≠ 1 ∧ ∃ full perm, zfileName p f = some (full, perm, false) ∧ fs full = some fresh ∧ (∀ n, n ≠ full → fs n = p.files n)) := by
  unfold zopenFile at h
  obtain ⟨⟨full, perm, ex⟩, hz, h⟩ := Option.bind_eq_some_iff.mp h
  simp only at h
  by_cases hp : perm = 2
  · rw [if_pos hp] at h
    injection h with h; injection h with h1 h2
    exact Or.inl ⟨by rw [← h2]; decide, h1.symm⟩
  rw [if_neg hp] at h
  by_cases hr : ex = false ∧ access = 1
  · rw [if_pos hr] at h
    injection h with h; injection h with h1 h2
    exact Or.inl ⟨by rw [← h2]; decide, h1.symm⟩
  rw [if_neg hr] at h
  generalize hacc : (if access ≠ 1 ∧ perm = 1 then 1 else access) = acc at h
  generalize hmode : (if acc = 4 then 10 else if acc = 1 then 0 else if ex = true then 2 else 10) = mode at h
  by_cases ho : p.opens full mode = false
  · rw [if_pos ho] at h
    injection h with h; injection h with h1 h2
    exact Or.inl ⟨by rw [← h2]; decide, h1.symm⟩
  rw [if_neg ho] at h
  cases hd : zopenDisk p.files full mode with
  | none =>
    rw [hd] at h
    injection h with h; injection h with h1 h2
    exact Or.inl ⟨by rw [← h2]; decide, h1.symm⟩
  | some fs' =>
    rw [hd] at h
    simp only at h
    cases ex with
    | true =>
      have hsame : fs' = p.files := by
        unfold zopenDisk at hd
        unfold zfileName at hz
        obtain ⟨nm, _, hz⟩ := Option.map_eq_some_iff.mp hz
        simp only at hz
        generalize hg : (match p.real nm with | none => nm | some r => r).take 1023 = g at hz
        cases hc : p.files g with
        | none => rw [hc] at hz; simp at hz
        | some content =>
          rw [hc] at hz
          injection hz with hz1 hz2
          rw [← hz1, hc] at hd
          injection hd with hd
          exact hd.symm
      rw [if_pos rfl] at h
      obtain ⟨ok, _, h⟩ := Option.map_eq_some_iff.mp h
      injection h with h1 h2
      refine Or.inl ⟨?_, by rw [← h1]; exact hsame⟩
      rw [← h2]
      split <;> decide
    | false =>
      rw [if_neg (by decide)] at h
      by_cases hf : openFlags mode % 4 = 0
      · rw [if_pos hf] at h
        injection h with h; injection h with h1 h2
        refine Or.inl ⟨by rw [← h2]; decide, ?_⟩
        rw [← h1]
        have hm : mode = 0 := by
          rw [← hmode] at hf
          rw [← hmode]
          by_cases c4 : acc = 4
          · rw [if_pos c4] at hf; exact absurd hf (by decide)
          · rw [if_neg c4] at hf ⊢
            by_cases c1 : acc = 1
            · rw [if_pos c1]
            · rw [if_neg c1] at hf
              simp only [Bool.false_eq_true, if_false] at hf
              exact absurd hf (by decide)
        unfold zopenDisk at hd
        cases hc : p.files full with
        | none => rw [hc, hm] at hd; simp [openFlags] at hd
        | some content => rw [hc] at hd; injection hd with hd; exact hd.symm
      · rw [if_neg hf] at h
        injection h with h; injection h with h1 h2
        refine Or.inr ⟨h2.symm, fun ha => hr ⟨rfl, ha⟩, full, perm, hz, by rw [← h1]; exact put_same _ _ _, fun n hn => ?_⟩
        rw [← h1, put_other _ _ hn]
        unfold zopenDisk at hd
        cases hc : p.files full with
        | none =>
          rw [hc] at hd
          simp only at hd
          split at hd
          · injection hd with hd
            rw [← hd, put_other _ _ hn]
          · cases hd
        | some content => rw [hc] at hd; injection hd with hd; rw [hd]

/-- What zfileName says of the file. -/
theorem fileName_exists {p : Place} {f full : Bytes} {perm : Nat} {ex : Bool} (h : zfileName p f = some (full, perm, ex)) :
    (ex = true → ∃ content, p.files full = some content ∧ content ≠ []) ∧ (ex = false → p.files full = none ∨ p.files full = some []) := by
  unfold zfileName at h
  obtain ⟨nm, _, h⟩ := Option.map_eq_some_iff.mp h
  simp only at h
  generalize hg : (match p.real nm with | none => nm | some r => r).take 1023 = g at h
  cases hc : p.files g with
  | none =>
    rw [hc] at h
    injection h with h1 h2
    injection h2 with h2 h3
    rw [← h3, ← h1]
    exact ⟨(fun h => by cases h), fun _ => Or.inl hc⟩
  | some content =>
    rw [hc] at h
    injection h with h1 h2
    injection h2 with h2 h3
    rw [← h3, ← h1]
    refine ⟨fun h => ⟨content, hc, ?_⟩, fun h => Or.inr ?_⟩
    · rintro rfl; simp at h
    · rw [hc]
      congr 1
      rw [decide_eq_false_iff_not] at h
      exact List.length_eq_zero_iff.mp (by omega)

/-- C85.  Opening never changes a file that exists and is not empty, whatever it is, and whatever the access. -/
theorem C85_not_harmed (p : Place) (fresh f : Bytes) (access : Nat) {fs : Files} {r : OpenRes}
    (h : zopenFile p fresh f access = some (fs, r)) {n content : Bytes} (hn : p.files n = some content) (hc : content ≠ []) :
    fs n = some content := by
  rcases open_cases p fresh f access h with ⟨_, h1⟩ | ⟨_, _, full, perm, h1, h2, h3⟩
  · rw [h1]; exact hn
  · by_cases hf : n = full
    · exfalso
      subst hf
      rcases (fileName_exists h1).2 rfl with h4 | h4
      · rw [hn] at h4; cases h4
      · rw [hn] at h4; injection h4 with h4; exact hc h4
    · rw [h3 n hf]; exact hn

/-- C85.  If no file is created, all files are as they were; read access never creates one. -/
theorem C85_unchanged (p : Place) (fresh f : Bytes) (access : Nat) {fs : Files} {r : OpenRes}
    (h : zopenFile p fresh f access = some (fs, r)) (hr : r ≠ .created ∨ access = 1) : fs = p.files ∧ r ≠ .created := by
  rcases open_cases p fresh f access h with ⟨h1, h2⟩ | ⟨h1, h2, _⟩
  · exact ⟨h2, h1⟩
  · rcases hr with hr | hr
    · exact absurd h1 hr
    · exact absurd hr h2

theorem permRead_true {b : Bytes} {w : Nat} (h : zpermReadOk b w = some true) :
    800 ≤ b.length ∧ asLong (wordAt b 99) = -97531 ∧ 20 ≤ asLong (wordAt b 23) ∧ asLong (wordAt b 23) ≤ 1000 ∧
      (w ≠ 0 → 100 ≤ toInt32 w ∧ toInt32 w ≤ 5000000 ∧ 8 * toInt32 w ≤ b.length) := by
  unfold zpermReadOk at h
  simp only at h
  generalize hs : (if w = 0 then (100 : Int) else toInt32 w) = size at h
  by_cases c1 : 2 ^ 31 - 3 ≤ size
  · rw [if_pos c1] at h; cases h
  rw [if_neg c1] at h
  by_cases c2 : size + 3 < 0
  · rw [if_pos c2] at h; cases h
  rw [if_neg c2] at h
  by_cases c3 : size < 5
  · rw [if_pos c3] at h; cases h
  rw [if_neg c3] at h
  by_cases c4 : 10000000 < 2 * size
  · rw [if_pos c4] at h; cases h
  rw [if_neg c4] at h
  by_cases c5 : (b.length : Int) < 8 * size
  · rw [if_pos c5] at h; cases h
  rw [if_neg c5] at h
  by_cases c6 : size < 99
  · rw [if_pos c6] at h; cases h
  rw [if_neg c6] at h
  by_cases c7 : size = 99
  · rw [if_pos c7] at h; cases h
  rw [if_neg c7] at h
  injection h with h
  rw [Bool.and_eq_true, Bool.and_eq_true, decide_eq_true_eq, decide_eq_true_eq, decide_eq_true_eq] at h
  refine ⟨by omega, h.1.1, h.1.2, h.2, fun hw => ?_⟩
  rw [if_neg hw] at hs
  subst hs
  exact ⟨by omega, by omega, by omega⟩

theorem permRead_ok {b : Bytes} {w : Nat} (h : 100 ≤ toInt32 w) (h1 : toInt32 w ≤ 5000000) (h2 : 8 * toInt32 w ≤ b.length) (hw : w ≠ 0)
    (h3 : asLong (wordAt b 99) = -97531) (h4 : 20 ≤ asLong (wordAt b 23)) (h5 : asLong (wordAt b 23) ≤ 1000) :
    zpermReadOk b w = some true := by
  unfold zpermReadOk
  simp only
  rw [if_neg hw, if_neg (by omega), if_neg (by omega), if_neg (by omega), if_neg (by omega), if_neg (by omega), if_neg (by omega),
    if_neg (by omega), decide_eq_true h3, decide_eq_true h4, decide_eq_true h5]
  rfl

theorem byte16 (b : Bytes) (x : UInt8) : (b.drop 16).take 1 = [x] ↔ b[16]? = some x := by
  rw [← List.head?_drop]
  cases b.drop 16 with
  | nil => simp
  | cons a l => simp

/-- C85.  What the file must be to be accepted.  Missing for "if and only if": the size of the header may be 0 as well,
or have anything in the upper half of its word. -/
theorem accepted_iff (b : Bytes) :
    (IsDss7 b → acceptFile b = some true) ∧
    (acceptFile b = some true → b.take 4 = [90, 68, 83, 83] ∧ b[16]? = some 55 ∧ 800 ≤ b.length ∧ WordIs b 99 (-97531) ∧
      (∃ k : Int, WordIs b 23 k ∧ 20 ≤ k ∧ k ≤ 1000) ∧ (∀ n : Int, WordIs b 1 n → 1 ≤ n → n < 2 ^ 31 → IsDss7 b)) := by
  constructor
  · rintro ⟨h1, h2, ⟨n, h3, h4, h5, h6⟩, h7, k, h8, h9, h10⟩
    unfold acceptFile
    rw [if_neg (by omega), if_neg (by rw [h1]; exact fun h => h rfl), if_neg (by rw [(byte16 b 55).mpr h2]; exact fun h => h rfl)]
    rw [wordIs_iff b _ _ (by omega)] at h3 h7 h8
    have hw : wordAt b 1 = n := by
      have := wordAt_lt b 1
      unfold asLong at h3
      split at h3 <;> omega
    rw [hw]
    have ht : toInt32 n = n := toInt32_small (by omega)
    exact permRead_ok (by rw [ht]; omega) (by rw [ht]; omega) (by rw [ht]; omega) (by omega) h7 (by rw [h8]; exact h9) (by rw [h8]; exact h10)
  · intro h
    unfold acceptFile at h
    by_cases c1 : b.length < 32
    · rw [if_pos c1] at h
      have := (permRead_true h).1
      omega
    rw [if_neg c1] at h
    by_cases c2 : b.take 4 ≠ ZDSS
    · rw [if_pos c2] at h; cases h
    rw [if_neg c2] at h
    by_cases c3 : (b.drop 16).take 1 ≠ [55]
    · rw [if_pos c3] at h; cases h
    rw [if_neg c3] at h
    obtain ⟨k1, k2, k3, k4, k5⟩ := permRead_true h
    have e1 : b.take 4 = [90, 68, 83, 83] := Decidable.not_not.mp c2
    have e2 : b[16]? = some 55 := (byte16 b 55).mp (Decidable.not_not.mp c3)
    have e3 : WordIs b 99 (-97531) := (wordIs_iff b 99 _ (by omega)).mpr k2
    have e4 : ∃ k : Int, WordIs b 23 k ∧ 20 ≤ k ∧ k ≤ 1000 := ⟨_, (wordIs_iff b 23 _ (by omega)).mpr rfl, k3, k4⟩
    refine ⟨e1, e2, k1, e3, e4, fun n h1 h2 h3 => ⟨e1, e2, ⟨n.toNat, ?_, ?_, ?_, ?_⟩, e3, e4⟩⟩
    · rw [Int.toNat_of_nonneg (by omega)]; exact h1
    all_goals
      rw [wordIs_iff b _ _ (by omega)] at h1
      have hw : (wordAt b 1 : Int) = n := by
        have := wordAt_lt b 1
        unfold asLong at h1
        split at h1 <;> omega
      have := k5 (by omega)
      rw [toInt32_small (by omega)] at this
      omega

/-- What opening an existing file comes to. -/
theorem open_existing {p : Place} {fresh f full content : Bytes} {access perm : Nat} (hz : zfileName p f = some (full, perm, true))
    (hperm : perm ≠ 2) (hc : p.files full = some content) (ho : ∀ m, p.opens full m = true) :
    zopenFile p fresh f access = (acceptFile content).map fun ok => (p.files, if ok then .opened else .refused) := by
  unfold zopenFile
  rw [hz, Option.bind_some]
  simp only
  rw [if_neg hperm, if_neg (by simp)]
  generalize hacc : (if access ≠ 1 ∧ perm = 1 then 1 else access) = acc
  generalize hmode : (if acc = 4 then 10 else if acc = 1 then 0 else if (true : Bool) = true then 2 else 10) = mode
  rw [if_neg (by rw [ho]; decide)]
  unfold zopenDisk
  rw [hc]
  simp

/-- C85.  A DSS file of version 7 that may be read is opened, with every access, and no file changes. -/
theorem C85_opened {p : Place} {fresh f full content : Bytes} {access perm : Nat} (hz : zfileName p f = some (full, perm, true))
    (hperm : perm ≠ 2) (hc : p.files full = some content) (ho : ∀ m, p.opens full m = true) (hd : IsDss7 content) :
    zopenFile p fresh f access = some (p.files, .opened) := by
  rw [open_existing hz hperm hc ho, (accepted_iff content).1 hd]
  rfl

/-- C85.  A file that is opened begins with "ZDSS", is of version 7, and has its end flag and a possible size of bins; and
if the size of its header is a positive int, it is a DSS file of version 7 in all respects. -/
theorem C85_only_dss_partial {p : Place} {fresh f : Bytes} {access : Nat} {fs : Files} (h : zopenFile p fresh f access = some (fs, .opened)) :
    ∃ full perm b, zfileName p f = some (full, perm, true) ∧ p.files full = some b ∧ b.take 4 = [90, 68, 83, 83] ∧ b[16]? = some 55 ∧
      800 ≤ b.length ∧ WordIs b 99 (-97531) ∧ (∃ k : Int, WordIs b 23 k ∧ 20 ≤ k ∧ k ≤ 1000) ∧
      ∀ n : Int, WordIs b 1 n → 1 ≤ n → n < 2 ^ 31 → IsDss7 b := by
  unfold zopenFile at h
  obtain ⟨⟨full, perm, ex⟩, hz, h⟩ := Option.bind_eq_some_iff.mp h
  simp only at h
  by_cases hp : perm = 2
  · rw [if_pos hp] at h; cases h
  rw [if_neg hp] at h
  by_cases hr : ex = false ∧ access = 1
  · rw [if_pos hr] at h; cases h
  rw [if_neg hr] at h
  generalize hacc : (if access ≠ 1 ∧ perm = 1 then 1 else access) = acc at h
  generalize hmode : (if acc = 4 then 10 else if acc = 1 then 0 else if ex = true then 2 else 10) = mode at h
  by_cases ho : p.opens full mode = false
  · rw [if_pos ho] at h; cases h
  rw [if_neg ho] at h
  cases hd : zopenDisk p.files full mode with
  | none => rw [hd] at h; cases h
  | some fs' =>
    rw [hd] at h
    simp only at h
    cases ex with
    | false =>
      rw [if_neg (by decide)] at h
      split at h <;> cases h
    | true =>
      rw [if_pos rfl] at h
      obtain ⟨ok, ha, h⟩ := Option.map_eq_some_iff.mp h
      cases ok with
      | false => simp at h
      | true =>
        obtain ⟨content, hc, _⟩ := (fileName_exists hz).1 rfl
        rw [hc] at ha
        exact ⟨full, perm, content, hz, hc, (accepted_iff content).2 ha⟩

/-- C85.  The version of an opened file is 7. -/
theorem C85_version {p : Place} {fresh f : Bytes} {access : Nat} {fs : Files} (h : zopenFile p fresh f access = some (fs, .opened))
    (ho : ∀ n, p.opens n 0 = true) : zgetFileVersion p f = some 7 := by
  obtain ⟨full, perm, b, h1, h2, h3, h4, h5, _⟩ := C85_only_dss_partial h
  unfold zgetFileVersion
  rw [h1, Option.map_some]
  simp only
  rw [if_neg (by decide), if_neg (by rw [ho]; decide), h2]
  simp only [Option.getD_some]
  rw [if_neg (by omega), if_neg (by rw [h3]; exact fun h => h rfl), List.head?_drop, h4]
  rfl

/-- C85.  A file of another version, or one that is no DSS file, is neither opened nor replaced. -/
theorem C85_other_version {p : Place} {fresh f : Bytes} {access : Nat} {fs : Files} {r : OpenRes} {v : Int}
    (hv : zgetFileVersion p f = some v) (h7 : v ≠ 7) (h0 : v ≠ 0) (ho : ∀ n, p.opens n 0 = true)
    (h : zopenFile p fresh f access = some (fs, r)) : r = .refused ∧ fs = p.files := by
  cases r with
  | opened =>
    rw [C85_version h ho] at hv
    injection hv with hv
    exact absurd hv.symm h7
  | created =>
    rcases open_cases p fresh f access h with ⟨h1, _⟩ | ⟨_, _, full, perm, h1, _⟩
    · exact absurd rfl h1
    · unfold zgetFileVersion at hv
      rw [h1] at hv
      simp only [Option.map_some, if_true] at hv
      injection hv with hv
      exact absurd hv.symm h0
  | refused => exact ⟨rfl, (C85_unchanged p fresh f access h (Or.inl (by decide))).1⟩

/-- C85.  Where there is no file, or an empty one that may be written, a new one is made, and that one is opened from then on; the
other files stay as they are.  `fresh` is what a new file has in it. -/
theorem C85_created {p : Place} {fresh f full : Bytes} {access : Nat} (hz : zfileName p f = some (full, 0, false)) (ha : access ≠ 1)
    (ho : ∀ m, p.opens full m = true) (hp : p.permission full ≠ 2) (hf : IsDss7 fresh) :
    ∃ fs, zopenFile p fresh f access = some (fs, .created) ∧ fs full = some fresh ∧ (∀ n, n ≠ full → fs n = p.files n) ∧
      ∀ again, zopenFile (after p fs) fresh f again = some (fs, .opened) := by
  have hopen : ∃ fs, zopenFile p fresh f access = some (fs, .created) := by
    unfold zopenFile
    rw [hz, Option.bind_some]
    simp only
    rw [if_neg (by decide), if_neg (fun h => ha h.2), if_neg (fun h : access ≠ 1 ∧ (0 : Nat) = 1 => absurd h.2 (by decide))]
    have hm : (if access = 4 then 10 else if access = 1 then 0 else if (false : Bool) = true then 2 else 10) = 10 := by
      by_cases c4 : access = 4
      · rw [if_pos c4]
      · rw [if_neg c4, if_neg ha, if_neg (by decide)]
    rw [hm, if_neg (by rw [ho]; decide)]
    unfold zopenDisk
    cases p.files full with
    | none => exact ⟨_, rfl⟩
    | some c => exact ⟨_, rfl⟩
  obtain ⟨fs, h⟩ := hopen
  rcases open_cases p fresh f access h with ⟨h1, _⟩ | ⟨_, _, full', perm, h1, h2, h3⟩
  · exact absurd rfl h1
  · rw [hz] at h1
    injection h1 with h1
    injection h1 with h1 _
    subst h1
    refine ⟨fs, h, h2, h3, fun again => ?_⟩
    have hne : 0 < fresh.length := by
      obtain ⟨h1, _⟩ := hf
      cases fresh with
      | nil => cases h1
      | cons a l => simp
    have hz' : zfileName (after p fs) f = some (full, p.permission full, true) := by
      unfold zfileName at hz ⊢
      obtain ⟨nm, hn, hz⟩ := Option.map_eq_some_iff.mp hz
      rw [hn, Option.map_some]
      simp only at hz ⊢
      have hg : (match p.real nm with | none => nm | some r => r).take 1023 = full := by
        revert hz
        generalize (match p.real nm with | none => nm | some r => r).take 1023 = g
        intro hz
        cases hc : p.files g with
        | none => rw [hc] at hz; injection hz with hz _
        | some c => rw [hc] at hz; injection hz with hz _
      show some (match fs ((match p.real nm with | none => nm | some r => r).take 1023) with
        | none => ((match p.real nm with | none => nm | some r => r).take 1023, 0, false)
        | some content => ((match p.real nm with | none => nm | some r => r).take 1023,
            p.permission ((match p.real nm with | none => nm | some r => r).take 1023), decide (0 < content.length))) = _
      rw [hg, h2]
      simp only [decide_eq_true hne]
    exact C85_opened hz' hp h2 ho hf

/-- C85 fails: a file that says that its header has 5 to 98 words makes the program read outside of its memory, whatever else
is in the file. -/
theorem C85_header_size_violation {p : Place} {fresh f full b : Bytes} {access perm : Nat} (hz : zfileName p f = some (full, perm, true))
    (hperm : perm ≠ 2) (hc : p.files full = some b) (ho : ∀ m, p.opens full m = true) (h1 : b.take 4 = [90, 68, 83, 83])
    (h2 : b[16]? = some 55) {n : Nat} (hn : WordIs b 1 n) (h5 : 5 ≤ n) (h98 : n ≤ 98) (hl : 8 * n ≤ b.length) :
    zopenFile p fresh f access = none := by
  rw [open_existing hz hperm hc ho]
  have : acceptFile b = none := by
    unfold acceptFile
    rw [if_neg (by omega), if_neg (by rw [h1]; exact fun h => h rfl), if_neg (by rw [(byte16 b 55).mpr h2]; exact fun h => h rfl)]
    rw [wordIs_iff b _ _ (by omega)] at hn
    have hw : wordAt b 1 = n := by
      have := wordAt_lt b 1
      unfold asLong at hn
      split at hn <;> omega
    rw [hw]
    unfold zpermReadOk
    simp only
    rw [if_neg (show ¬ n = 0 by omega), toInt32_small (by omega), if_neg (by omega), if_neg (by omega), if_neg (by omega), if_neg (by omega),
      if_neg (by omega), if_pos (by omega)]
  rw [this]
  rfl

/-! ### Cases -/

/-- The header of a DSS file: 100 words, with bins of 200 words. -/
def aHeader : Bytes :=
  [90, 68, 83, 83, 0, 0, 0, 0] ++ [100, 0, 0, 0, 0, 0, 0, 0] ++ [55, 45, 73, 83, 0, 0, 0, 0] ++ List.replicate (8 * 20) 0 ++ [200, 0, 0, 0, 0, 0, 0, 0] ++
    List.replicate (8 * 75) 0 ++ [5, 131, 254, 255, 255, 255, 255, 255]

theorem aHeader_dss : IsDss7 aHeader := by
  have hl : aHeader.length = 800 := by decide +kernel
  refine ⟨by decide +kernel, by decide +kernel, ⟨100, ?_, by decide, by decide, by rw [hl]; decide⟩, ?_, 200, ?_, by decide, by decide⟩
  · rw [wordIs_iff _ _ _ (by omega)]; decide +kernel
  · rw [wordIs_iff _ _ _ (by omega)]; decide +kernel
  · rw [wordIs_iff _ _ _ (by omega)]; decide +kernel

/-- "a" -/
def nameA : Bytes := [97]

/-- An empty computer where all may be done. -/
def room : Place := ⟨fun _ => none, fun _ => none, fun _ => 0, fun _ _ => true⟩

/-- The conditions of C84 and C85 are met: "a", "a.dss", and both in quotes are created as one file, which is opened again. -/
example : NoQuotes nameA ∧ ¬ HasExtension nameA ∧ ¬ HasExtension (97 :: nameA) := by
  refine ⟨by unfold NoQuotes nameA; decide, ?_, ?_⟩
  · rw [← extension_iff]; decide
  · rw [← extension_iff]; decide

example : ∃ fs, zopenFile room aHeader nameA 0 = some (fs, .created) ∧ fs [97, 46, 100, 115, 115] = some aHeader ∧
    ∀ again, zopenFile (after room fs) aHeader nameA again = some (fs, .opened) := by
  obtain ⟨fs, h1, h2, _, h3⟩ := C85_created (p := room) (f := nameA) (full := [97, 46, 100, 115, 115]) (access := 0) (by decide) (by decide)
    (fun _ => rfl) (by decide) aHeader_dss
  exact ⟨fs, h1, h2, h3⟩

/-- A computer with a text file, an old DSS file and an empty file. -/
def mixed : Place where
  files := fun n =>
    if n = [97, 46, 100, 115, 115] then some [72, 105] else if n = [98, 46, 100, 115, 115] then some (aHeader.set 16 54)
    else if n = [99, 46, 100, 115, 115] then some [] else none
  real := fun _ => none
  permission := fun _ => 0
  opens := fun _ _ => true

/-- They are refused, refused, and replaced. -/
example : ((zopenFile mixed aHeader [97] 0).map (·.2), zgetFileVersion mixed [97], (zopenFile mixed aHeader [98] 0).map (·.2),
      zgetFileVersion mixed [98], (zopenFile mixed aHeader [99] 0).map (·.2), zgetFileVersion mixed [99], (zopenFile mixed aHeader [99] 1).map (·.2)) =
      (some .refused, some (-4), some .refused, some 6, some .created, some 0, some .refused) := by decide +kernel

/-- A file with a header of 50 words meets the conditions of the violation. -/
example : WordIs (aHeader.set 8 50) 1 50 ∧ acceptFile (aHeader.set 8 50) = none := by
  constructor
  · rw [wordIs_iff _ _ _ (by decide +kernel)]; decide +kernel
  · decide +kernel

end Hec
