import Verif.Proofs.Hash
import Verif.Spec.Names
/-!
Property theorems: C21 (pathname hash) and C24 (case insensitive comparison).
-/
namespace Hec

set_option maxRecDepth 200000 in
theorem toupper_eq_iff (a b : UInt8) : toupper a = toupper b ↔
    (a = b ∨ (97 ≤ a ∧ a ≤ 122 ∧ b + 32 = a) ∨ (97 ≤ b ∧ b ≤ 122 ∧ a + 32 = b)) := by
  have key : ∀ c : UInt8, 97 ≤ c ∧ c ≤ 122 → (c - 32) + 32 = c ∧ ¬ (97 ≤ c - 32 ∧ c - 32 ≤ 122) := by
    intro c
    refine uint8_all (P := fun c => 97 ≤ c ∧ c ≤ 122 → (c - 32) + 32 = c ∧ ¬ (97 ≤ c - 32 ∧ c - 32 ≤ 122)) ?_ c
    decide
  have sub : ∀ c d : UInt8, c + 32 = d → c = d - 32 := fun c d h => by rw [← h]; simp
  unfold toupper
  by_cases ha : 97 ≤ a ∧ a ≤ 122
  · by_cases hb : 97 ≤ b ∧ b ≤ 122
    · simp only [ha, hb, and_self, if_true]
      constructor
      · intro h
        left
        have h1 := (key a ha).1
        have h2 := (key b hb).1
        rw [h] at h1
        rw [← h1, ← h2]
        simp
      · rintro (h | ⟨-, -, h⟩ | ⟨-, -, h⟩)
        · rw [h]
        · exact absurd (sub _ _ h ▸ hb) (key a ha).2
        · exact absurd (sub _ _ h ▸ ha) (key b hb).2
    · simp only [ha, hb, and_self, if_true, if_false]
      constructor
      · intro h
        right; left
        exact ⟨trivial, trivial, by rw [← h]; exact (key a ha).1⟩
      · rintro (h | ⟨-, -, h⟩ | ⟨h1, h2, -⟩)
        · exact absurd (h ▸ ha) hb
        · exact (sub _ _ h).symm
        · exact absurd ⟨h1, h2⟩ hb
  · by_cases hb : 97 ≤ b ∧ b ≤ 122
    · simp only [ha, hb, and_self, if_true, if_false]
      constructor
      · intro h
        right; right
        exact ⟨trivial, trivial, by rw [h]; exact (key b hb).1⟩
      · rintro (h | ⟨h1, h2, -⟩ | ⟨-, -, h⟩)
        · exact absurd (h ▸ hb) ha
        · exact absurd ⟨h1, h2⟩ ha
        · exact sub _ _ h
    · simp only [ha, hb, if_false]
      constructor
      · exact Or.inl
      · rintro (h | ⟨h1, h2, -⟩ | ⟨h1, h2, -⟩)
        · exact h
        · exact absurd ⟨h1, h2⟩ ha
        · exact absurd ⟨h1, h2⟩ hb

theorem sameUpToCase_iff (p q : Bytes) : Spec.sameUpToCase p q ↔ p.map toupper = q.map toupper := by
  constructor
  · rintro ⟨hl, h⟩
    apply List.ext_getElem (by simp [hl])
    intro i h1 h2
    simp only [List.length_map] at h1 h2
    simp only [List.getElem_map]
    rw [toupper_eq_iff]
    exact h i _ _ (List.getElem?_eq_getElem h1) (List.getElem?_eq_getElem h2)
  · intro h
    have hl : p.length = q.length := by simpa using congrArg List.length h
    refine ⟨hl, fun i a b ha hb => ?_⟩
    rw [← toupper_eq_iff]
    have := congrArg (fun l => l[i]?) h
    simp only [List.getElem?_map] at this
    rw [ha, hb] at this
    simpa using this

/-- C24. Comparing two strings over `n` characters accepts exactly those whose first `n`
characters are equal up to letter case. -/
theorem C24_compare (a b : Bytes) (n : Nat) (ha : n ≤ a.length) (hb : n ≤ b.length) :
    zstringCompare a b n = true ↔ Spec.sameUpToCase (a.take n) (b.take n) := by
  rw [sameUpToCase_iff]
  induction n generalizing a b with
  | zero => simp [zstringCompare]
  | succ n ih =>
    match a, b with
    | [], _ => simp at ha
    | _ :: _, [] => simp at hb
    | x :: xs, y :: ys =>
      simp only [List.length_cons] at ha hb
      unfold zstringCompare
      by_cases h : toupper x = toupper y
      · simp [h, ih xs ys (by omega) (by omega)]
      · simp [h]

/-- C24. Over a fixed length the comparison is an equivalence. -/
theorem C24_equivalence (a b c : Bytes) (n : Nat) (ha : n ≤ a.length) (hb : n ≤ b.length)
    (hc : n ≤ c.length) :
    zstringCompare a a n = true ∧ (zstringCompare a b n = zstringCompare b a n) ∧
    (zstringCompare a b n = true → zstringCompare b c n = true → zstringCompare a c n = true) := by
  refine ⟨?_, ?_, ?_⟩
  · rw [C24_compare _ _ _ ha ha, sameUpToCase_iff]
  · rw [Bool.eq_iff_iff, C24_compare _ _ _ ha hb, C24_compare _ _ _ hb ha, sameUpToCase_iff,
      sameUpToCase_iff]
    exact eq_comm
  · rw [C24_compare _ _ _ ha hb, C24_compare _ _ _ hb hc, C24_compare _ _ _ ha hc, sameUpToCase_iff,
      sameUpToCase_iff, sameUpToCase_iff]
    exact Eq.trans

-- "/aB" and "/Ab"; "/aB" and "/Ac"
example : zstringCompare [47, 97, 66] [47, 65, 98] 3 = true ∧
    zstringCompare [47, 97, 66] [47, 65, 99] 3 = false := by decide

/-- C21. Both hashes ignore letter case. -/
theorem C21_ignores_case (p q : Bytes) (h : Spec.sameUpToCase p q) (maxHash fuel : Nat) :
    pathnameHash p = pathnameHash q ∧ tableHash p maxHash fuel = tableHash q maxHash fuel := by
  have e := hashChar_congr p q ((sameUpToCase_iff p q).1 h)
  have hl : List.length p = List.length q := h.1
  unfold pathnameHash tableHash
  rw [e, hl]
  exact ⟨rfl, rfl⟩

example : Spec.sameUpToCase [47, 97, 66] [47, 65, 98] := by
  rw [sameUpToCase_iff]; decide

/-- C21. The record hash is never zero, the mark of an empty slot. -/
theorem C21_nonzero (p : Bytes) : pathnameHash p ≠ 0#64 := by
  unfold pathnameHash
  simp only
  split
  · decide
  · assumption

/-- C21. For every pathname and every table size of 2 up to 2^23 entries the hashing loop ends,
reads only bytes of its zero filled work array, never overflows a 32 bit int, and gives an index
of the table.  (The number of turns is at most nine per byte.) -/
theorem C21_table_index (p : Bytes) (maxHash : Nat) (h1 : 2 ≤ maxHash) (h2 : maxHash ≤ 2 ^ 23) :
    ∃ v, v < maxHash ∧ ∀ fuel, 9 * (p.length + 8) < fuel → tableHash p maxHash fuel = some v := by
  have hb := hashBits_spec maxHash h1
  have hb23 := hashBits_le h1 h2
  have hc := hashChars_le p.length (hashBits maxHash) hb.1 hb23
  have inv : HashInv (hashBits maxHash) ⟨0, 0, hashBits maxHash, 0, 0⟩ :=
    ⟨hb.1, Nat.le_refl _, by simp, by simp, by simp, Nat.two_pow_pos _⟩
  obtain ⟨v, -, -, hv⟩ := hashLoop_spec (p.map hashChar ++ List.replicate 8 0) (hashBits maxHash)
    (hashChars p.length (hashBits maxHash)) hb23 (by simp; omega)
    (9 * hashChars p.length (hashBits maxHash) + 1) ⟨0, 0, hashBits maxHash, 0, 0⟩ inv
    (by simp)
  refine ⟨v % maxHash, Nat.mod_lt _ (by omega), fun fuel hf => ?_⟩
  unfold tableHash
  simp only
  rw [hv fuel (by omega)]
  rfl

example : ∃ v, tableHash [47, 97, 66, 47] 8192 200 = some v ∧ 0 < v ∧ v < 8192 := by decide

/-- C21. Whatever sizes a new file is asked for, every pathname gets a table index in it, unless
the caller asks for a table of exactly one entry. -/
theorem C21_new_file (maxPaths hashSize binSize : Int) (coll : Bool) (h : hashSize ≠ 1) (p : Bytes) :
    let m := (znewFileSize maxPaths hashSize binSize coll).1.toNat
    ∃ v, v < m ∧ tableHash p m (9 * (p.length + 8) + 1) = some v := by
  intro m
  have hm : 2 ≤ m ∧ m ≤ 2 ^ 23 := by
    show 2 ≤ (znewFileSize maxPaths hashSize binSize coll).1.toNat ∧
      (znewFileSize maxPaths hashSize binSize coll).1.toNat ≤ 2 ^ 23
    unfold znewFileSize
    by_cases h1 : (hashSize > 0 ∧ binSize > 0) ∧ (hashSize < 100001 ∧ binSize ≤ 400)
    · rw [if_pos h1]
      simp only
      omega
    · rw [if_neg h1]
      simp only
      repeat' split
      all_goals simp
  obtain ⟨v, hv, hall⟩ := C21_table_index p m hm.1 hm.2
  exact ⟨v, hv, hall _ (by omega)⟩

example : znewFileSize 0 0 0 false = (8192, 200) ∧ znewFileSize 200000 0 500 true = (16348, 400) := by
  decide

/-- C21, failing part: a table of one entry is accepted for a new file, but then no bits are needed
and the number of groups is computed by a division by zero (zhash.c:156). -/
theorem C21_one_entry_violation (maxPaths : Int) (coll : Bool) :
    (znewFileSize maxPaths 1 200 coll).1 = 1 ∧ hashBits 1 = 0 := by
  constructor
  · unfold znewFileSize; simp
  · decide

end Hec
