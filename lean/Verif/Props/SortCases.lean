import Verif.Props.SortOrder
import Verif.Props.CopyCases
import Verif.Props.UndeleteCases
/-! The sorted catalog (C86, C87): cases that meet the hypotheses, and what happens without them. -/
namespace Hec
set_option synthInstance.maxSize 1000
set_option synthInstance.maxHeartbeats 200000
set_option maxRecDepth 10000
open _root_.Spec (Op run runs Allowed AllAllowed Plain Reachable GoodSizes create join SixParts SortName ShortLines SortHistory PlainPart ColumnsFit NotBehind SeriesBlock
  stored oddHeaders)

variable {hdrSize maxHash binSize : Nat} {mul : Nat → Nat}

theorem memLe_antisymm : ∀ (a b : Bytes), memLe a b = true → memLe b a = true → a = b := by
  intro a
  induction a with
  | nil => intro b _ h; cases b with | nil => rfl | cons _ _ => simp [memLe] at h
  | cons x a ih =>
    intro b h1 h2
    cases b with
    | nil => simp [memLe] at h1
    | cons y b =>
      simp only [memLe] at h1 h2
      by_cases hxy : x = y
      · subst hxy; simp only [if_true] at h1 h2; rw [ih b h1 h2]
      · simp only [if_neg hxy, if_neg (Ne.symm hxy), decide_eq_true_eq] at h1 h2; omega

theorem lineLe_antisymm (a b : Bytes) (h1 : lineLe a b = true) (h2 : lineLe b a = true) : a = b := by
  cases a with
  | nil => cases b with | nil => rfl | cons _ _ => simp [lineLe] at h2
  | cons x a =>
    cases b with
    | nil => simp [lineLe] at h1
    | cons y b =>
      simp only [lineLe] at h1 h2
      by_cases hxy : x = y
      · subst hxy; simp only [if_true] at h1 h2; rw [memLe_antisymm a b h1 h2]
      · simp only [if_neg hxy, if_neg (Ne.symm hxy), decide_eq_true_eq] at h1 h2; omega

/-- What sorting gives, when the sorted lines are known. -/
theorem sort_is {T S : List Bytes} (hp : S.isPerm T = true) (hs : S.Pairwise fun a b => lineLe a b = true) : T.mergeSort lineLe = S := by
  have h1 : (T.mergeSort lineLe).Perm S := (List.mergeSort_perm _ _).trans (List.isPerm_iff.mp hp).symm
  exact h1.eq_of_pairwise (fun a b _ _ h3 h4 => lineLe_antisymm a b h3 h4) (List.pairwise_mergeSort lineLe_trans lineLe_total T) hs

theorem sorted_as {s : Eng} {h : SortHdr} {e : SortEnv} {rows : List CatRow} {S : List Bytes} (hp : S.isPerm (splitLines (linesFile (sortTexts e e.width 0 rows))) = true)
    (hs : S.Pairwise fun a b => lineLe a b = true) {ns : List Int} (hn : readSequence rows.length (linesFile S) = some ns) :
    (sortFully s h e rows).rows = ns.map (rowNumber rows) ∧ (sortFully s h e rows).number = rows.length := by
  unfold sortFully sortfiles
  rw [sort_is hp hs, hn]
  exact ⟨rfl, rfl⟩

/-- All calls of a history. -/
theorem sort_calls {ok : SortEnv → List CatRow → Prop} {c : Cfg} {s0 : Eng} (ops : List Op) : ∀ {past : List Op} {s s' : Eng} {h : SortHdr} {ress : List Res},
    SortHistory ok c s0 past s h → AllAllowed c past s ops → runs c s ops = some (s', ress) → ∃ h', SortHistory ok c s0 (past ++ ops) s' h' := by
  induction ops with
  | nil =>
    intro past s s' h ress R _ hr
    simp only [runs, Option.some.injEq, Prod.mk.injEq] at hr
    obtain ⟨rfl, _⟩ := hr
    exact ⟨h, by rw [List.append_nil]; exact R⟩
  | cons op ops ih =>
    intro past s s' h ress R ha hr
    simp only [runs] at hr
    obtain ⟨p, hp, hr⟩ := Option.bind_eq_some_iff.mp hr
    obtain ⟨q, hq, he⟩ := Option.map_eq_some_iff.mp hr
    simp only [Prod.mk.injEq] at he
    obtain ⟨rfl, _⟩ := he
    have := ih (SortHistory.call R ha.1 hp) (ha.2 p.1 p.2 hp) hq
    simpa using this

/-- As long as nothing was sorted, there is no list. -/
theorem sort_calls_none {ok : SortEnv → List CatRow → Prop} {c : Cfg} {s0 : Eng} (ops : List Op) : ∀ {past : List Op} {s s' : Eng} {ress : List Res},
    (∀ op ∈ ops, ∀ o n v, op ≠ .rename o n v) → SortHistory ok c s0 past s ⟨0, []⟩ → AllAllowed c past s ops → runs c s ops = some (s', ress) →
    SortHistory ok c s0 (past ++ ops) s' ⟨0, []⟩ := by
  induction ops with
  | nil =>
    intro past s s' ress _ R _ hr
    simp only [runs, Option.some.injEq, Prod.mk.injEq] at hr
    obtain ⟨rfl, _⟩ := hr
    rw [List.append_nil]; exact R
  | cons op ops ih =>
    intro past s s' ress hno R ha hr
    simp only [runs] at hr
    obtain ⟨p, hp, hr⟩ := Option.bind_eq_some_iff.mp hr
    obtain ⟨q, hq, he⟩ := Option.map_eq_some_iff.mp hr
    simp only [Prod.mk.injEq] at he
    obtain ⟨rfl, _⟩ := he
    have h0 : sortAfter op p.2 s p.1 ⟨0, []⟩ = ⟨0, []⟩ := by
      cases op with
      | write r => simp [sortAfter]
      | delete r => simp [sortAfter]
      | undelete r => simp [sortAfter]
      | rename o n v => exact absurd rfl (hno _ (by simp) o n v)
    have h1 := SortHistory.call R ha.1 hp
    rw [h0] at h1
    have := ih (fun o ho => hno o (by simp [ho])) h1 (ha.2 p.1 p.2 hp) hq
    simpa using this

/-- Every reachable file is one of those in C86 and C87, with some state of the list. -/
theorem sort_reachable {ok : SortEnv → List CatRow → Prop} {c : Cfg} {s0 s : Eng} {past : List Op} (R : Reachable c s0 past s) : ∃ h, SortHistory ok c s0 past s h := by
  obtain ⟨h1, ress, h2⟩ := R
  obtain ⟨h', k⟩ := sort_calls past (SortHistory.new (ok := ok)) h1 h2
  exact ⟨h', by simpa using k⟩

/-! ### Violations -/

/-- A row for a block of a series at `A`, `B`, `FLOW`. -/
def blockRow (d e f : Bytes) (address dataType : Nat) : CatRow := ⟨join [[65], [66], [70, 76, 79, 87], d, e, f], address, dataType, 0, 0⟩

def jan2000 : Bytes := [48, 49, 74, 65, 78, 50, 48, 48, 48]
def feb2000 : Bytes := [48, 49, 70, 69, 66, 50, 48, 48, 48]
def oneHour : Bytes := [49, 72, 79, 85, 82]
def irMonth : Bytes := [73, 82, 45, 77, 79, 78, 84, 72]
def obs : Bytes := [79, 66, 83]

/-- The greatest lengths of the parts, as in the header of a file with these rows: A, B, C, F, E, D. -/
def widths (l : List Nat) (k : Nat) : Nat := l.getD k 0

def sortEnv (l : List Nat) : SortEnv := ⟨widths l, fun _ => none, 0, true⟩

/-- C87, the date.  Two blocks of one series, with an F part of three characters: February comes before January.  The column of
the D part is as wide as the longest F part (zcatalogInternal.c:250-255), so only the blank and the digits 001 of both dates are compared; then
the order in the file decides. -/
theorem C87_date_violation (s : Eng) (h : SortHdr) :
    (sortFully s h (sortEnv [1, 1, 4, 3, 5, 9]) [blockRow feb2000 oneHour obs 100 100, blockRow jan2000 oneHour obs 120 100]).rows =
      [some (blockRow feb2000 oneHour obs 100 100), some (blockRow jan2000 oneHour obs 120 100)] := by
  refine (sorted_as (S := sortTexts (sortEnv [1, 1, 4, 3, 5, 9]) (sortEnv [1, 1, 4, 3, 5, 9]).width 0 [blockRow feb2000 oneHour obs 100 100, blockRow jan2000 oneHour obs 120 100])
    (ns := [0, 1]) ?_ ?_ ?_).1.trans ?_
  · decide +kernel
  · decide +kernel
  · decide +kernel
  · decide +kernel

/-- Two F parts of eleven characters that differ in the last one. -/
def runOf (b : UInt8) : Bytes := [70, 79, 82, 69, 67, 65, 83, 84, 58, 48, b]

/-- C87, the F part.  Its column is as wide as the longest D part, 9 characters and one more: the eleventh character
of the F part does not count, `FORECAST:02` comes before `FORECAST:01`. -/
theorem C87_F_violation (s : Eng) (h : SortHdr) :
    (sortFully s h (sortEnv [1, 1, 4, 11, 5, 9]) [blockRow jan2000 oneHour (runOf 50) 100 100, blockRow jan2000 oneHour (runOf 49) 120 100]).rows =
      [some (blockRow jan2000 oneHour (runOf 50) 100 100), some (blockRow jan2000 oneHour (runOf 49) 120 100)] := by
  refine (sorted_as (S := sortTexts (sortEnv [1, 1, 4, 11, 5, 9]) (sortEnv [1, 1, 4, 11, 5, 9]).width 0
    [blockRow jan2000 oneHour (runOf 50) 100 100, blockRow jan2000 oneHour (runOf 49) 120 100]) (ns := [0, 1]) ?_ ?_ ?_).1.trans ?_
  · decide +kernel
  · decide +kernel
  · decide +kernel
  · decide +kernel

/-- January, an irregular series, February. -/
def mixedRows : List CatRow := [blockRow jan2000 oneHour (runOf 49) 100 100, blockRow jan2000 irMonth (runOf 49) 120 110, blockRow feb2000 oneHour (runOf 49) 140 100]

/-- C87, regular and irregular series in one file: the intervals of irregular series are negative numbers, one character longer.  The first one that is met
makes the column of the interval wider, for the records behind it only (zcatSortPath.c:125-129).  A block in front of it (January) is then
listed behind the blocks of the same series that come later in the file (February). -/
theorem C87_interval_violation (s : Eng) (h : SortHdr) :
    (sortFully s h (sortEnv [1, 1, 4, 11, 8, 9]) mixedRows).rows = [some (blockRow jan2000 irMonth (runOf 49) 120 110), some (blockRow feb2000 oneHour (runOf 49) 140 100), some (blockRow jan2000 oneHour (runOf 49) 100 100)] := by
  refine (sorted_as (S := ((sortTexts (sortEnv [1, 1, 4, 11, 8, 9]) (sortEnv [1, 1, 4, 11, 8, 9]).width 0 mixedRows).drop 1) ++
    ((sortTexts (sortEnv [1, 1, 4, 11, 8, 9]) (sortEnv [1, 1, 4, 11, 8, 9]).width 0 mixedRows).take 1)) (ns := [1, 2, 0]) ?_ ?_ ?_).1.trans ?_
  · decide +kernel
  · decide +kernel
  · decide +kernel
  · decide +kernel

/-- C86: pathnames without six parts.  Nothing is written for them but the end of the line, which is read as the number 0: the first
record is given out for each of them. -/
theorem C86_parts_violation (s : Eng) (h : SortHdr) :
    (sortFully s h (sortEnv [1, 1, 0, 0, 0, 0]) [⟨pA, 100, 100, 0, 0⟩, ⟨pB, 120, 100, 0, 0⟩]).rows = [some ⟨pA, 100, 100, 0, 0⟩, some ⟨pA, 100, 100, 0, 0⟩] := by
  refine (sorted_as (S := [[], []]) (ns := [0, 0]) ?_ ?_ ?_).1.trans ?_
  · decide +kernel
  · decide +kernel
  · decide +kernel
  · decide +kernel

/-- A pathname with three parts of 128 characters. -/
def longRow (b : UInt8) (address : Nat) : CatRow := ⟨join [List.replicate 128 b, List.replicate 128 65, List.replicate 128 65, [], [], []], address, 300, 0, 0⟩

/-- C86: long parts.  The lines of the file are read into 400 characters (zcatInternalSort.c:388); longer ones are taken for two.  Of
three records the first one is given out twice, the second one not at all. -/
theorem C86_long_violation (s : Eng) (h : SortHdr) :
    (sortFully s h (sortEnv [128, 128, 128, 0, 0, 0]) [longRow 67 100, longRow 66 200, longRow 65 300]).number = 3 ∧
    (sortFully s h (sortEnv [128, 128, 128, 0, 0, 0]) [longRow 67 100, longRow 66 200, longRow 65 300]).rows = [some (longRow 67 100), some (longRow 65 300), some (longRow 67 100)] := by
  have h := sorted_as (s := s) (h := h) (e := sortEnv [128, 128, 128, 0, 0, 0]) (rows := [longRow 67 100, longRow 66 200, longRow 65 300]) (S := (sortTexts (sortEnv [128, 128, 128, 0, 0, 0]) (sortEnv [128, 128, 128, 0, 0, 0]).width 0 [longRow 67 100, longRow 66 200, longRow 65 300]).reverse)
    (ns := [0, 2, 0]) (by decide +kernel) (by decide +kernel) (by decide +kernel)
  refine ⟨h.2, h.1.trans ?_⟩
  decide +kernel

/-! The list. -/

/-- All records of a status. -/
def sortAll (status : Nat) : SortReq := ⟨status, 0, 0, fun _ => true, true⟩

/-- Two records, one deleted. -/
def oneDeleted : List Op := [.write (req nA [] [] [1]), .write (req nB [] [] [2]), .delete nB]

theorem oneDeleted_plain : Plain [] oneDeleted := by
  simp [oneDeleted, Plain, req, oddHeaders, nA, nB, Op.deletes, join]

/-- Their rows in the catalogs. -/
def delRow : CatRow := (((runs tiny.1 tiny.2 oneDeleted).bind fun p => zcatalog tiny.1 p.1 (sortAll REC_STATUS_DELETED).inner).bind fun l => l.head?).getD ⟨[], 0, 0, 0, 0⟩
def liveRow : CatRow := (((runs tiny.1 tiny.2 oneDeleted).bind fun p => zcatalog tiny.1 p.1 (sortAll REC_STATUS_VALID).inner).bind fun l => l.head?).getD ⟨[], 0, 0, 0, 0⟩

/-- C86, deleted records.  A sorted catalog of the deleted records of a file that has as many deleted records as others stores their addresses as the list of all
records (zcatInternalSort.c:349, 435).  The next sorted catalog, of the records of the file, returns 1 and a list with no pathname in it (NULL). -/
theorem C86_deleted_violation : ∃ s ress h1 got1, runs tiny.1 tiny.2 oneDeleted = some (s, ress) ∧ SortHistory (fun _ _ => True) tiny.1 tiny.2 oneDeleted s h1 ∧
    zcatInternalSort tiny.1 s h1 (sortEnv [1, 1, 1, 1, 1, 1]) (sortAll REC_STATUS_DELETED) = some got1 ∧
    (zcatInternalSort tiny.1 s got1.hdr (sortEnv [1, 1, 1, 1, 1, 1]) (sortAll REC_STATUS_VALID)).map (fun g => (g.number, g.rows)) = some (1, [none]) ∧
    (zcatalog tiny.1 s everything).map (·.map (·.path)) = some [nA] := by
  obtain ⟨s, ress, h, _⟩ := C27_last_write_partial (mul := id) tiny_good oneDeleted oneDeleted_plain
  have h' : runs tiny.1 tiny.2 oneDeleted = some (s, ress) := h
  have R : SortHistory (fun _ _ => True) tiny.1 tiny.2 oneDeleted s ⟨0, []⟩ := by
    have := sort_calls_none (ok := fun _ _ => True) oneDeleted (by simp [oneDeleted]) SortHistory.new (plain_allowed (create_OK tiny_good) oneDeleted oneDeleted_plain) h
    simp only [List.nil_append] at this
    exact this
  have f : ((runs tiny.1 tiny.2 oneDeleted).map fun p => (zcatalog tiny.1 p.1 (sortAll REC_STATUS_DELETED).inner, zcatalog tiny.1 p.1 (sortAll REC_STATUS_VALID).inner,
      p.1.hdr.numberRecords, (zcatalog tiny.1 p.1 everything).map (·.map (·.path)))) =
      some (some [⟨nB, delRow.address, delRow.dataType, delRow.lastWrite, delRow.dates⟩], some [liveRow], 1, some [nA]) := by decide +kernel
  rw [h', Option.map_some, Option.some.injEq] at f
  simp only [Prod.mk.injEq] at f
  obtain ⟨f1, f2, f3, f4⟩ := f
  have hs : ∀ r ∈ [(⟨nB, delRow.address, delRow.dataType, delRow.lastWrite, delRow.dates⟩ : CatRow)], Sortable r.path := by
    intro r hr
    rw [List.mem_singleton.mp hr]
    exact ⟨by decide +kernel, by unfold Lettered; decide +kernel⟩
  obtain ⟨out, o1, o2⟩ := sortFully_perm s ⟨0, []⟩ (sortEnv [1, 1, 1, 1, 1, 1]) _ hs (by decide) (by simp)
  rw [List.perm_singleton.mp o1] at o2
  have e1 : zcatInternalSort tiny.1 s ⟨0, []⟩ (sortEnv [1, 1, 1, 1, 1, 1]) (sortAll REC_STATUS_DELETED) =
      some ⟨1, [some ⟨nB, delRow.address, delRow.dataType, delRow.lastWrite, delRow.dates⟩], ⟨1, [delRow.address]⟩⟩ := by
    unfold zcatInternalSort
    rw [f1, Option.map_some]
    simp only [show ¬ ((sortAll REC_STATUS_DELETED).useList = true ∧ (0 : Nat) = 1) from by simp, if_false]
    rw [o2, f3]
    rfl
  refine ⟨s, ress, ⟨0, []⟩, _, h', R, e1, ?_, f4⟩
  unfold zcatInternalSort
  rw [f2, Option.map_some]
  simp only [show (sortAll REC_STATUS_VALID).useList = true ∧ (1 : Nat) = 1 from ⟨rfl, rfl⟩, if_true, List.length_cons, List.length_nil, and_self]
  rw [if_neg (by omega), if_neg (by omega)]
  decide +kernel

/-! ### Cases that meet the hypotheses -/

/-- Two records, sorted with the list stored, then one of them written over. -/
def written2 : List Op := [.write (req nB [] [] [1]), .write (req nA [] [] [2])]
def again : Op := .write (req nB [] [] [3, 4, 5])

theorem written2_plain : Plain [] (written2 ++ [again]) := by
  simp [written2, again, Plain, req, oddHeaders, nA, nB, Op.deletes, join]

theorem nA_sort : SortName nA := ⟨[[65], [], [], [], [], []], ⟨rfl, by unfold Spec.IsPart; decide⟩, rfl, by decide⟩
theorem nB_sort : SortName nB := ⟨[[66], [], [], [], [], []], ⟨rfl, by unfold Spec.IsPart; decide⟩, rfl, by decide⟩

/-- A history with a sorted catalog in it, after which the list is still marked as good, with two addresses; the hypotheses of C86 hold. -/
example : ∃ s h, SortHistory (fun _ _ => True) tiny.1 tiny.2 (written2 ++ [again]) s h ∧ h.status = 1 ∧ h.list.length = 2 ∧ ShortLines (sortEnv [1, 0, 0, 0, 0, 0]).width ∧
    ∀ rows, zcatalog tiny.1 s (sortAll REC_STATUS_VALID).inner = some rows → rows.length = 2 ∧ ∀ row ∈ rows, SortName row.path := by
  have hpl : Plain [] written2 := by simp [written2, Plain, req, oddHeaders, nA, nB, Op.deletes, join]
  obtain ⟨s, ress, h, _⟩ := C27_last_write_partial (mul := id) tiny_good written2 hpl
  obtain ⟨t, ress', h', _⟩ := C27_last_write_partial (mul := id) tiny_good (written2 ++ [again]) written2_plain
  have h1 : runs tiny.1 tiny.2 written2 = some (s, ress) := h
  have h2 : runs tiny.1 tiny.2 (written2 ++ [again]) = some (t, ress') := h'
  have R : SortHistory (fun _ _ => True) tiny.1 tiny.2 written2 s ⟨0, []⟩ := by
    have := sort_calls_none (ok := fun _ _ => True) written2 (by simp [written2]) SortHistory.new (plain_allowed (create_OK tiny_good) written2 hpl) h
    simp only [List.nil_append] at this
    exact this
  have hrun : ∃ res, run tiny.1 s again = some (t, res) := by
    obtain ⟨q, hq⟩ : ∃ q, run tiny.1 s again = some q := by
      cases hq : run tiny.1 s again with
      | some q => exact ⟨q, rfl⟩
      | none =>
        exfalso
        have hd : ((runs tiny.1 tiny.2 written2).bind fun p => (run tiny.1 p.1 again).map (·.2)) = some .ok := by decide +kernel
        rw [h1, Option.bind_some, hq] at hd
        exact absurd hd (by simp)
    have := runs_one_more h1 hq
    rw [h2, Option.some.injEq, Prod.mk.injEq] at this
    refine ⟨q.2, ?_⟩
    rw [hq, this.1]
  have f : ((runs tiny.1 tiny.2 written2).map fun p => ((zcatalog tiny.1 p.1 (sortAll REC_STATUS_VALID).inner).map (·.map (·.path)), p.1.hdr.numberRecords)) = some (some [nB, nA], 2) := by decide +kernel
  have f' : ((runs tiny.1 tiny.2 (written2 ++ [again])).map fun p => ((zcatalog tiny.1 p.1 (sortAll REC_STATUS_VALID).inner).map (·.map (·.path)), p.1.hdr.numberRecords)) = some (some [nB, nA], 2) := by decide +kernel
  rw [h1, Option.map_some, Option.some.injEq, Prod.mk.injEq] at f
  rw [h2, Option.map_some, Option.some.injEq, Prod.mk.injEq] at f'
  have names : ∀ rows : List CatRow, rows.map (·.path) = [nB, nA] → rows.length = 2 ∧ ∀ row ∈ rows, SortName row.path := by
    intro rows hrows
    refine ⟨by have := congrArg List.length hrows; simpa using this, fun row hr => ?_⟩
    have : row.path ∈ [nB, nA] := by rw [← hrows]; exact List.mem_map_of_mem hr
    simp only [List.mem_cons, List.not_mem_nil, or_false] at this
    rcases this with h | h <;> rw [h]
    · exact nB_sort
    · exact nA_sort
  obtain ⟨rows, hr, hp⟩ := Option.map_eq_some_iff.mp f.1
  obtain ⟨n1, n2⟩ := names rows hp
  obtain ⟨out, o1, o2⟩ := sortFully_perm s ⟨0, []⟩ (sortEnv [1, 0, 0, 0, 0, 0]) rows (fun r hr => name_sortable (n2 r hr)) (by decide) (by omega)
  have hsort : zcatInternalSort tiny.1 s ⟨0, []⟩ (sortEnv [1, 0, 0, 0, 0, 0]) (sortAll REC_STATUS_VALID) =
      some ⟨rows.length, out.map some, ⟨1, out.map (·.address)⟩⟩ := by
    unfold zcatInternalSort
    rw [hr, Option.map_some]
    simp only [show ¬ ((sortAll REC_STATUS_VALID).useList = true ∧ (0 : Nat) = 1) from by simp, if_false]
    rw [o2, if_pos ⟨rfl, by rw [n1, f.2]⟩]
  have R1 := SortHistory.catalog (e := sortEnv [1, 0, 0, 0, 0, 0]) R rfl (fun _ _ => rfl) (by unfold ShortLines; decide) (fun rows' hr' => by
    rw [hr, Option.some.injEq] at hr'
    subst hr'
    exact ⟨by omega, n2, trivial⟩) hsort
  obtain ⟨res, hrun⟩ := hrun
  have ha : Allowed tiny.1 written2 s again := by
    have hall := plain_allowed (create_OK (mul := id) tiny_good) (written2 ++ [again]) (past := []) (s := tiny.2) written2_plain
    have key : ∀ (ops pre : List Op) (u : Eng) (rs : List Res), AllAllowed tiny.1 pre u (ops ++ [again]) → runs tiny.1 u ops = some (s, rs) → Allowed tiny.1 (pre ++ ops) s again := by
      intro ops
      induction ops with
      | nil =>
        intro pre u rs k1 k2
        simp only [runs, Option.some.injEq, Prod.mk.injEq] at k2
        rw [List.append_nil, ← k2.1]; exact k1.1
      | cons o ops ih =>
        intro pre u rs h1 h2
        simp only [runs] at h2
        obtain ⟨p, hp, h2⟩ := Option.bind_eq_some_iff.mp h2
        obtain ⟨q, hq, he⟩ := Option.map_eq_some_iff.mp h2
        simp only [Prod.mk.injEq] at he
        have := ih (pre ++ [o]) p.1 q.2 (h1.2 p.1 p.2 hp) (by rw [hq, ← he.1])
        simpa using this
    have := key written2 [] tiny.2 ress hall h1
    simpa using this
  have R2 := SortHistory.call R1 ha hrun
  have hnr : t.hdr.numberRecords = s.hdr.numberRecords := by rw [f'.2, f.2]
  have hafter : sortAfter again res s t ⟨1, out.map (·.address)⟩ = ⟨1, out.map (·.address)⟩ := by
    simp [again, sortAfter, hnr]
  rw [hafter] at R2
  refine ⟨t, _, R2, rfl, by rw [List.length_map, o1.length_eq, n1], by unfold ShortLines; decide, fun rows' hr' => ?_⟩
  rw [hr', Option.map_some, Option.some.injEq] at f'
  exact names rows' f'.1

/-- A pathname has one list of parts. -/
theorem join_unique {ps ps' : List Bytes} (h : SixParts ps) (h' : SixParts ps') (he : join ps = join ps') : ps = ps' := by
  apply List.ext_getElem (by rw [h.1, h'.1])
  intro k k1 k2
  have hk : k < 6 := by have := h.1; omega
  have e1 := sortPart_join h 0 k hk
  have e2 := sortPart_join h' 0 k hk
  rw [he, e2] at e1
  rw [List.getD_eq_getElem?_getD, List.getD_eq_getElem?_getD, List.getElem?_eq_getElem k1, List.getElem?_eq_getElem k2] at e1
  exact e1.symm

/-- The columns are wide enough for the pathnames of that history, so that it is one for C87 too. -/
example (rows : List CatRow) (h : rows.map (·.path) = [nB, nA]) : ColumnsFit (sortEnv [1, 0, 0, 0, 0, 0]) rows := by
  intro row hr ps h6 hp k hk h3
  have hm : row.path ∈ [nB, nA] := by rw [← h]; exact List.mem_map_of_mem hr
  have key : ∀ b : UInt8, (b = 65 ∨ b = 66) → join ps = join [[b], [], [], [], [], []] → PlainPart ps[k] ∧ ps[k].length ≤ (sortEnv [1, 0, 0, 0, 0, 0]).width k := by
    intro b hb he
    have := join_unique h6 ⟨rfl, by unfold Spec.IsPart; rcases hb with rfl | rfl <;> decide⟩ he
    subst this
    have hnil : PlainPart [] := ⟨fun _ h => (by cases h), by simp [Spec.NoBlankEnd]⟩
    match k, h3 with
    | 0, _ => exact ⟨(by show PlainPart [b]; unfold PlainPart Spec.NoBlankEnd; rcases hb with rfl | rfl <;> decide), Nat.le_refl 1⟩
    | 1, _ => exact ⟨hnil, Nat.le_refl 0⟩
    | 2, _ => exact ⟨hnil, Nat.le_refl 0⟩
  simp only [List.mem_cons, List.not_mem_nil, or_false] at hm
  rcases hm with h | h
  · exact key 66 (Or.inr rfl) (by rw [← hp, h]; rfl)
  · exact key 65 (Or.inl rfl) (by rw [← hp, h]; rfl)

/-- The hypotheses of the order for series: two blocks with an F part of ten characters. -/
def runTen : Bytes := [70, 79, 82, 69, 67, 65, 83, 84, 58, 49]

theorem blockRow_ok {d : Bytes} {day : Nat} {address : Nat} (hd : dateToJulian d = (day : Int)) (h6 : SixParts [[65], [66], [70, 76, 79, 87], d, oneHour, runTen]) (hs : day + 10 ^ 7 < 10 ^ 10) (hl : d.length ≤ 128) :
    SeriesBlock (sortEnv [1, 1, 4, 10, 5, 9]) (blockRow d oneHour runTen address 100) [[65], [66], [70, 76, 79, 87], d, oneHour, runTen] 3600 day :=
  ⟨h6, rfl, ⟨by simp [blockRow], by simp [blockRow]⟩, ⟨((ePartToSeconds 7 oneHour).get!).1, ((ePartToSeconds 7 oneHour).get!).2.2, by
    show ePartToSeconds 7 oneHour = _; decide +kernel⟩, hd, ⟨by omega, hs⟩, ⟨hl, by show oneHour.length ≤ 128; decide⟩, by
    show PlainPart (runTen.take 10); unfold PlainPart Spec.NoBlankEnd; decide +kernel⟩

example : ∃ day1 day2, SeriesBlock (sortEnv [1, 1, 4, 10, 5, 9]) (blockRow feb2000 oneHour runTen 100 100) [[65], [66], [70, 76, 79, 87], feb2000, oneHour, runTen] 3600 day2 ∧
    SeriesBlock (sortEnv [1, 1, 4, 10, 5, 9]) (blockRow jan2000 oneHour runTen 120 100) [[65], [66], [70, 76, 79, 87], jan2000, oneHour, runTen] 3600 day1 ∧ day1 < day2 ∧
    ShortLines (sortEnv [1, 1, 4, 10, 5, 9]).width ∧ 10 ≤ (sortEnv [1, 1, 4, 10, 5, 9]).width 3 :=
  ⟨(dateToJulian jan2000).toNat, (dateToJulian feb2000).toNat,
    blockRow_ok (by decide +kernel) ⟨rfl, by unfold Spec.IsPart; decide⟩ (by decide +kernel) (by decide), blockRow_ok (by decide +kernel) ⟨rfl, by unfold Spec.IsPart; decide⟩ (by decide +kernel) (by decide),
    by decide +kernel, by unfold ShortLines; decide, by decide⟩

/-- And the order then: January first. -/
example (s : Eng) (h : SortHdr) : (sortFully s h (sortEnv [1, 1, 4, 10, 5, 9]) [blockRow feb2000 oneHour runTen 100 100, blockRow jan2000 oneHour runTen 120 100]).rows =
    [some (blockRow jan2000 oneHour runTen 120 100), some (blockRow feb2000 oneHour runTen 100 100)] := by
  refine (sorted_as (S := (sortTexts (sortEnv [1, 1, 4, 10, 5, 9]) (sortEnv [1, 1, 4, 10, 5, 9]).width 0 [blockRow feb2000 oneHour runTen 100 100, blockRow jan2000 oneHour runTen 120 100]).reverse)
    (ns := [1, 0]) ?_ ?_ ?_).1.trans ?_
  · decide +kernel
  · decide +kernel
  · decide +kernel
  · decide +kernel

end Hec
