import Verif.Proofs.Crc
import Verif.Props.TsInfo
import Verif.Props.CopyCases
/-!
The check sum of the data of a record (C76).
-/
namespace Hec
set_option linter.unusedSimpArgs false
set_option linter.unusedVariables false
open _root_.Spec (Op GoodSizes create runs Plain lastWritten crc32 wordBytes dataInts ThirdFits IsOldName)

theorem intsToBytes_words (l : List UInt32) : intsToBytes l = l.flatMap wordBytes := by
  unfold intsToBytes
  congr 1

theorem intsToBytes_app (a b : List UInt32) : intsToBytes (a ++ b) = intsToBytes a ++ intsToBytes b := by
  unfold intsToBytes; rw [List.flatMap_append]

theorem recordCRC_eq {R : Rec} (h : ThirdFits R) (v : UInt32) : recordCRC R v = some (crcBlock v (intsToBytes (dataInts R))) := by
  unfold recordCRC dataInts
  simp only [intsToBytes_app, crcBlock_append]
  rcases h with h | h
  · rw [if_pos h, h]
    simp [intsToBytes, crcBlock]
  · by_cases h0 : R.v3 = []
    · rw [if_pos h0, h0]
      simp [intsToBytes, crcBlock]
    · rw [if_neg h0, if_pos (by omega), List.take_of_length_le (by omega)]
      rfl

theorem recordCRC_spec {R : Rec} (h : ThirdFits R) (v : UInt32) : recordCRC R v = some (UInt32.ofNat (crc32 v.toNat ((dataInts R).flatMap wordBytes))) := by
  rw [recordCRC_eq h, intsToBytes_words, ← crcBlock_spec, UInt32.ofNat_toNat]

/-- The pathname is used as it is. -/
theorem crc_read {c : Cfg} {s : Eng} {q : Bytes} (hm : mallocAndCopyPath q = q) (ho : ∀ front e rest, ¬ IsOldName q front e rest) (v : UInt32) :
    zgetDataCRC c s q v = (zread c s q).bind fun r => match r with | none => some 0 | some R => recordCRC R v := by
  unfold zgetDataCRC
  rw [hm, zreadName_plain (notOld_none ho)]
  cases zread c s q with
  | none => rfl
  | some r => cases r <;> rfl

/-- C76: after a history of writes and deletes the check sum of a pathname is the CRC-32 (continued from the number given) of the data written
last under it, and 0 if there is no record. -/
theorem C76_crc32_partial {hdrSize maxHash binSize : Nat} {mul : Nat → Nat} (g : GoodSizes hdrSize maxHash binSize) (ops : List Op) (hp : Plain [] ops)
    {q : Bytes} (hl : q.length ≤ 392) (hm : mallocAndCopyPath q = q) (ho : ∀ front e rest, ¬ IsOldName q front e rest)
    (h3 : ∀ R, lastWritten q ops = some R → ThirdFits R) (v : UInt32) :
    ∃ s ress, runs (create hdrSize maxHash binSize mul).1 (create hdrSize maxHash binSize mul).2 ops = some (s, ress) ∧
      zgetDataCRC (create hdrSize maxHash binSize mul).1 s q v =
        some ((lastWritten q ops).elim 0 fun R => UInt32.ofNat (crc32 v.toNat ((dataInts R).flatMap wordBytes))) := by
  obtain ⟨s, ress, hr, h⟩ := C27_last_write_partial (mul := mul) g ops hp
  refine ⟨s, ress, hr, ?_⟩
  rw [crc_read hm ho, h q hl]
  cases hw : lastWritten q ops with
  | none => rfl
  | some R => exact recordCRC_spec (h3 R hw) v

/-- Some bytes in four places next to each other are replaced: the check sum is another. -/
theorem C76_burst (v : UInt32) (front back x y : Bytes) (h : x.length = y.length) (h4 : x.length ≤ 4) (hne : x ≠ y) :
    crcBlock v (front ++ x ++ back) ≠ crcBlock v (front ++ y ++ back) := by
  intro he
  simp only [crcBlock_append] at he
  exact hne (crcBlock_four _ h h4 (crcBlock_inj _ he))

theorem flat_set (l : List UInt32) (k : Nat) (hk : k < l.length) (w : UInt32) :
    intsToBytes (l.set k w) = intsToBytes (l.take k) ++ intsToBytes [w] ++ intsToBytes (l.drop (k + 1)) := by
  rw [List.set_eq_take_append_cons_drop, if_pos hk, intsToBytes_app, List.append_assoc]
  rfl

theorem leNum_word (w : UInt32) : leNum (intsToBytes [w]) = w.toNat := by
  have hlt := w.toNat_lt
  simp only [intsToBytes, List.flatMap_cons, List.flatMap_nil, List.append_nil, leNum, byteOf, ofNat8]
  omega

theorem word_ne {a b : UInt32} (h : a ≠ b) : intsToBytes [a] ≠ intsToBytes [b] := by
  intro he
  have := congrArg leNum he
  rw [leNum_word, leNum_word] at this
  exact h (UInt32.toNat_inj.mp this)

/-- C76: two files (or two states of one file) in which the data of the record differ in one int, wherever it is: the check sums are different.
Values of float and int records, and quality flags, are such ints. -/
theorem C76_one_value {c : Cfg} {s s' : Eng} {q : Bytes} (hm : mallocAndCopyPath q = q) (ho : ∀ front e rest, ¬ IsOldName q front e rest)
    {R R' : Rec} (h : zread c s q = some (some R)) (h' : zread c s' q = some (some R')) (h3 : ThirdFits R) (h3' : ThirdFits R')
    {k : Nat} (hk : k < (dataInts R).length) {w : UInt32} (hw : w ≠ (dataInts R)[k]) (hd : dataInts R' = (dataInts R).set k w) (v : UInt32) :
    ∃ a b, zgetDataCRC c s q v = some a ∧ zgetDataCRC c s' q v = some b ∧ a ≠ b := by
  refine ⟨_, _, by rw [crc_read hm ho, h]; exact recordCRC_eq h3 v, by rw [crc_read hm ho, h']; exact recordCRC_eq h3' v, ?_⟩
  rw [hd, flat_set _ _ hk]
  have h0 : intsToBytes (dataInts R) = intsToBytes ((dataInts R).take k) ++ intsToBytes [(dataInts R)[k]] ++ intsToBytes ((dataInts R).drop (k + 1)) := by
    have := flat_set _ k hk (dataInts R)[k]
    rwa [List.set_getElem_self] at this
  rw [h0]
  exact C76_burst v _ _ _ _ rfl (by simp [intsToBytes]) (word_ne (fun h => hw h.symm))

/-- C76: equal data have equal check sums, whatever the pathnames, files and headers. -/
theorem C76_equal {c c' : Cfg} {s s' : Eng} {q q' : Bytes} (hm : mallocAndCopyPath q = q) (ho : ∀ front e rest, ¬ IsOldName q front e rest)
    (hm' : mallocAndCopyPath q' = q') (ho' : ∀ front e rest, ¬ IsOldName q' front e rest)
    {R R' : Rec} (h : zread c s q = some (some R)) (h' : zread c' s' q' = some (some R')) (h3 : ThirdFits R) (h3' : ThirdFits R')
    (hd : dataInts R' = dataInts R) (v : UInt32) : zgetDataCRC c s q v = zgetDataCRC c' s' q' v := by
  rw [crc_read hm ho, crc_read hm' ho', h, h']
  show recordCRC R v = recordCRC R' v
  rw [recordCRC_eq h3, recordCRC_eq h3', hd]

theorem crc_zeros (n : Nat) : crcBlock 0 (List.replicate n 0) = 0 := by
  induction n with
  | zero => rfl
  | succ n ih =>
    show crcBlock (crcByte 0 0) (List.replicate n 0) = 0
    have : crcByte 0 0 = 0 := by decide
    rw [this]; exact ih

theorem ints_zeros (n : Nat) : intsToBytes (List.replicate n 0) = List.replicate (4 * n) 0 := by
  induction n with
  | zero => rfl
  | succ n ih =>
    show [byteOf 0 0, byteOf 0 1, byteOf 0 2, byteOf 0 3] ++ intsToBytes (List.replicate n 0) = _
    rw [ih, show [byteOf 0 0, byteOf 0 1, byteOf 0 2, byteOf 0 3] = List.replicate 4 (0 : UInt8) by decide, List.replicate_append_replicate]
    congr 1
    omega

/-- C76, failing part: from 0, the number with which the catalog starts, all records of zeros have the check sum 0, however many zeros they are,
which is also that of a record that does not exist. -/
theorem C76_zeros_violation {R : Rec} (h3 : ThirdFits R) (hz : ∀ w ∈ dataInts R, w = 0) : recordCRC R 0 = some 0 := by
  rw [recordCRC_eq h3, List.eq_replicate_of_mem hz, ints_zeros, crc_zeros]

/-- C76, failing part: a change of one half of a double can be made up for by the other half: for every other first half there is a second
half with which the check sum is the same, in every record. -/
theorem C76_double_violation (lo hi lo' : UInt32) : ∃ hi', ∀ (v : UInt32) (R : Rec) (front back : List UInt32), R.v3 = [] →
    recordCRC { R with v1 := front ++ [lo, hi] ++ back } v = recordCRC { R with v1 := front ++ [lo', hi'] ++ back } v := by
  refine ⟨crcBits 32 (lo ^^^ lo') ^^^ hi, fun v R front back h3 => ?_⟩
  unfold recordCRC
  simp only [h3, if_true]
  congr 3
  have one : ∀ (u w : UInt32), crcBlock u (intsToBytes [w]) = crcBits 32 (u ^^^ w) := by
    intro u w
    have h4 : (intsToBytes [w]).length = 4 := rfl
    rw [crcBlock_short _ _ (by rw [h4]; omega), h4]
    congr 2
    rw [leNum_word, UInt32.ofNat_toNat]
  simp only [intsToBytes_app, crcBlock_append]
  congr 1
  have two : ∀ (u a b : UInt32), crcBlock u (intsToBytes [a, b]) = crcBits 32 (crcBits 32 (u ^^^ a) ^^^ b) := by
    intro u a b
    rw [show [a, b] = [a] ++ [b] from rfl, intsToBytes_app, crcBlock_append, one, one]
  rw [two, two]
  congr 1
  generalize crcBlock v (intsToBytes front) = u
  rw [← UInt32.xor_assoc, ← crcBits_xor]
  congr 2
  rw [UInt32.xor_assoc, ← UInt32.xor_assoc lo', UInt32.xor_comm lo', UInt32.xor_assoc lo, UInt32.xor_self, UInt32.xor_zero]

/-- C76, failing part: if there is a third array that is shorter than the first, memory behind it is read. -/
theorem C76_third_array_violation {R : Rec} (h : R.v3 ≠ []) (hl : R.v3.length < R.v1.length) (v : UInt32) : recordCRC R v = none := by
  unfold recordCRC
  simp only
  rw [if_neg h, if_neg (by omega)]
  rfl

/-- C76, failing part: what of a third array is behind the length of the first is not seen, and neither is the internal header (units, type, interval). -/
theorem C76_unseen_violation (R : Rec) (ih v3 v3' : List UInt32) (h : R.v1.length ≤ v3.length) (h' : R.v1.length ≤ v3'.length) (h0 : R.v1 ≠ [])
    (he : v3.take R.v1.length = v3'.take R.v1.length) (v : UInt32) :
    recordCRC { R with v3 := v3 } v = recordCRC { R with ih := ih, v3 := v3' } v := by
  have hp : 0 < R.v1.length := List.length_pos_iff.mpr h0
  have n1 : v3 ≠ [] := by intro h2; rw [h2] at h; exact h0 (List.length_eq_zero_iff.mp (Nat.le_zero.mp h))
  have n2 : v3' ≠ [] := by intro h2; rw [h2] at h'; exact h0 (List.length_eq_zero_iff.mp (Nat.le_zero.mp h'))
  unfold recordCRC
  simp only
  rw [if_neg n1, if_neg n2, if_pos h, if_pos h', he]

/-- The hypotheses are met: a record of two floats, overwritten with one of them changed. -/
theorem crc_case : ∃ p p', runs tiny.1 tiny.2 [.write (req nA [1] [] [3, 4])] = some p ∧ runs tiny.1 p.1 [.write (req nA [1] [] [3, 5])] = some p' ∧
    ∃ a b, zgetDataCRC tiny.1 p.1 nA 7 = some a ∧ zgetDataCRC tiny.1 p'.1 nA 7 = some b ∧ a ≠ b := by
  have h : ((runs tiny.1 tiny.2 [.write (req nA [1] [] [3, 4])]).bind fun p => (runs tiny.1 p.1 [.write (req nA [1] [] [3, 5])]).bind fun p' =>
      (zread tiny.1 p.1 nA).bind fun r => r.bind fun R => (zread tiny.1 p'.1 nA).bind fun r' => r'.map fun R' => (dataInts R, R.v3, dataInts R', R'.v3)) =
    some ([3, 4], [], [3, 5], []) := by decide +kernel
  obtain ⟨p, hp, h⟩ := Option.bind_eq_some_iff.mp h
  obtain ⟨p', hp', h⟩ := Option.bind_eq_some_iff.mp h
  obtain ⟨r, hr, h⟩ := Option.bind_eq_some_iff.mp h
  obtain ⟨R, hR, h⟩ := Option.bind_eq_some_iff.mp h
  obtain ⟨r', hr', h⟩ := Option.bind_eq_some_iff.mp h
  obtain ⟨R', hR', h⟩ := Option.map_eq_some_iff.mp h
  subst hR hR'
  obtain ⟨h1, h2, h3, h4⟩ : dataInts R = [3, 4] ∧ R.v3 = [] ∧ dataInts R' = [3, 5] ∧ R'.v3 = [] := by
    have h' := Option.some.inj h
    refine ⟨congrArg (·.1) h', congrArg (·.2.1) h', congrArg (·.2.2.1) h', congrArg (·.2.2.2) h'⟩
  exact ⟨p, p', hp, hp', C76_one_value (k := 1) (w := 5) (by decide +kernel) (fun f e x ho => by
    have := (compatible_iff nA _).mpr ⟨f, e, x, ho, rfl⟩
    rw [show ztsPathCompatible nA = none by decide +kernel] at this
    cases this) hr hr' (Or.inl h2) (Or.inl h4) (by rw [h1]; decide) (by simp [h1]) (by rw [h1, h3]; rfl) 7⟩

/-- C76, failing part: a third array that is shorter than the first is written and read without an error, but the check sum reads behind it. -/
theorem C76_third_case_violation :
    ((runs tiny.1 tiny.2 [.write { req nA [1] [] [3, 4] with v3 := [6] }]).bind fun p => (zread tiny.1 p.1 nA).map fun r => (r.map dataInts, zgetDataCRC tiny.1 p.1 nA 0)) =
      some (some [3, 4, 6], none) := by
  decide +kernel

end Hec
