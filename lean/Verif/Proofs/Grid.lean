import Verif.Spec.Grid
import Verif.Proofs.Api
namespace Hec
set_option linter.unusedSimpArgs false
set_option linter.unusedVariables false
open _root_.Spec (Ascii NoBlankEnd Inverse bytesOf evened GivesCells IsGrid gridNumbers gridOdd GridBack IsInt oddHeaders)

theorem bytesOf_eq (xs : List UInt32) : bytesOf xs = intsToBytes xs := by
  unfold bytesOf intsToBytes
  induction xs with
  | nil => rfl
  | cons a xs ih =>
    simp only [List.flatMap_cons, List.map_append, ih]
    congr 1
    have ha := a.toNat_lt
    simp only [List.map_cons, List.map_nil, byteOf]
    have h3 : a.toNat / 256 ^ 3 = a.toNat / 256 ^ 3 % 256 := by omega
    rw [← h3]; simp

theorem bytesToInts_intsToBytes (xs : List UInt32) : bytesToInts (intsToBytes xs) = xs := by
  induction xs with
  | nil => rfl
  | cons a xs ih =>
    have ha := a.toNat_lt
    unfold intsToBytes at ih ⊢
    simp only [List.flatMap_cons, List.cons_append, List.nil_append, bytesToInts]
    rw [ih]
    congr 1
    simp only [byteOf, UInt8.toNat_ofNat']
    rw [← UInt32.toNat_inj, UInt32.toNat_ofNat']
    have : a.toNat / 256 ^ 0 % 256 % 2 ^ 8 + 256 * (a.toNat / 256 ^ 1 % 256 % 2 ^ 8) + 256 ^ 2 * (a.toNat / 256 ^ 2 % 256 % 2 ^ 8) +
      256 ^ 3 * (a.toNat / 256 ^ 3 % 256 % 2 ^ 8) = a.toNat := by omega
    first | (rw [this]; omega) | omega

/-- The five strings are found again. -/
theorem gridStrings_eq : ∀ (ss : List Bytes) (rest : Bytes), (∀ s ∈ ss, Ascii s ∧ NoBlankEnd s) →
    gridStrings ss.length (ss.flatMap (fun s => s ++ [0]) ++ rest) = ss
  | [], rest, _ => rfl
  | s :: ss, rest, h => by
    obtain ⟨h1, h2⟩ := h s (by simp)
    have ih := gridStrings_eq ss rest (fun t ht => h t (by simp [ht]))
    have hc : cstr ((s :: ss).flatMap (fun s => s ++ [0]) ++ rest) = s := by
      unfold cstr
      rw [List.flatMap_cons, List.append_assoc, List.append_assoc, List.takeWhile_append_of_pos]
      · simp
      · intro b hb
        have := (h1 b hb).1
        have h0 : b ≠ 0 := by intro h0; rw [h0] at this; exact absurd this (by decide)
        simpa using h0
    simp only [List.length_cons, gridStrings]
    rw [hc, copy_same h1 h2]
    congr 1
    rw [List.flatMap_cons, List.append_assoc, List.drop_append_of_le_length (by simp), List.drop_of_length_le (by simp), List.nil_append]
    exact ih

theorem gridText_length (g : GridIn) : (gridText g).length = ([g.units, g.source, g.srsName, g.srsDefinition, g.zone].map fun s => (s.getD []).length + 1).sum := by
  unfold gridText
  simp; omega

theorem header_kept (g : GridIn) : lengthened (gridHeader g) = gridHeader g := by
  have hs : (userHeaderToString (gridHeader g)).length ≤ 16 := by
    have key : ∀ (l r : Bytes), l.length = 16 → ((l ++ 0 :: r).takeWhile fun b => b != 0).length ≤ 16 := by
      intro l r hl
      rw [List.takeWhile_append]
      split
      · simp [hl]
      · have := (List.takeWhile_sublist (l := l) (fun b => b != (0 : UInt8))).length_le
        omega
    unfold userHeaderToString
    have : intsToBytes (gridHeader g) = intsToBytes [g.cellSize, g.x0, g.y0, g.nullValue] ++ 0 :: List.replicate 27 0 := by
      unfold gridHeader intsToBytes
      simp [byteOf, List.replicate]
    rw [this]
    exact key _ _ (by rw [intsToBytes_length]; rfl)
  unfold lengthened
  rw [if_pos (show (gridHeader g).length % 2 = 1 by simp [gridHeader])]
  simp only
  rw [if_neg]
  rintro ⟨_, h⟩
  have : (gridHeader g).length = 11 := by unfold gridHeader; rfl
  omega

theorem evened_length (cells : List UInt32) : (evened cells).length = 2 * (if cells.length = 0 then 1 else (cells.length - 1) / 2 + 1) := by
  unfold evened
  split
  · rename_i h; subst h; rfl
  · rename_i h
    have : cells.length ≠ 0 := fun h0 => h (List.length_eq_zero_iff.mp h0)
    rw [if_neg this]
    split
    · rw [List.length_append]; simp; omega
    · omega

theorem evened_take (cells : List UInt32) : (evened cells).take cells.length = cells := by
  unfold evened
  split
  · rename_i h; subst h; rfl
  · split <;> simp

theorem evened_pad (cells : List UInt32) : evened cells = cells ++ List.replicate (2 * (if cells.length = 0 then 1 else (cells.length - 1) / 2 + 1) - cells.length) 0 := by
  unfold evened
  split
  · rename_i h; subst h; rfl
  · rename_i h
    have : cells.length ≠ 0 := fun h0 => h (List.length_eq_zero_iff.mp h0)
    rw [if_neg this]
    split
    · rw [show 2 * ((cells.length - 1) / 2 + 1) - cells.length = 1 by omega]; rfl
    · rw [show 2 * ((cells.length - 1) / 2 + 1) - cells.length = 0 by omega]; simp

theorem gridCells_eq {g : GridIn} {nx ny : Nat} {cells rest : List UInt32} (hx : g.cellsX = nx) (hy : g.cellsY = ny) (hl : cells.length = nx * ny)
    (hd : g.data = cells ++ rest) : gridCells g = some (evened cells) := by
  unfold gridCells
  simp only
  have hn : g.cellsX * g.cellsY = ((nx * ny : Nat) : Int) := by rw [hx, hy]; simp
  rw [hn, ← hl, hd]
  rw [if_neg (by simp; omega), evened_pad]
  simp only [Int.toNat_natCast, List.take_left, Int.natCast_eq_zero]

/-- What is stored is uncompressed to the cells. -/
theorem gridValues_eq {z : Zlib} (hz : Inverse z) {g : GridIn} {pre : Nat} {nx ny : Nat} {cells : List UInt32} (hx : g.cellsX = nx) (hy : g.cellsY = ny)
    (hl : cells.length = nx * ny) (h : GivesCells z g pre cells) :
    ∃ v3 size, gridValues z g pre = some (.ok (v3, size)) ∧ IsInt size ∧ IsInt g.compression ∧
      ∃ d, gridData z ((nx : Int) * ny) g.compression size v3 = some (some (some d)) ∧ d.take (nx * ny) = cells := by
  have hn : g.cellsX * g.cellsY = ((nx * ny : Nat) : Int) := by rw [hx, hy]; simp
  have hm : (nx : Int) * ny = ((nx * ny : Nat) : Int) := by simp
  have hev : 0 < (evened cells).length := by rw [evened_length]; split <;> omega
  -- compressed bytes, then anything
  have data : ∀ p, z.compress (bytesOf (evened cells)) = some p → ∀ v3 : List UInt32, (∃ rest, intsToBytes v3 = p ++ rest) →
      ∃ d, gridData z ((nx : Int) * ny) 26 p.length v3 = some (some (some d)) ∧ d.take (nx * ny) = cells := by
    intro p hp v3 ⟨rest, hr⟩
    obtain ⟨i1, i2, i3⟩ := hz _ _ hp
    have hv : 0 < v3.length := by
      have h := congrArg List.length hr
      rw [intsToBytes_length, List.length_append] at h
      omega
    unfold gridData
    rw [if_pos hv, if_neg (by decide), if_pos rfl, hm]
    simp only
    rw [hr, if_neg (by simp; omega), Int.toNat_natCast, List.append_assoc, List.take_left]
    have hbl : 8 * (if ((nx * ny : Nat) : Int) = 0 then 1 else (((nx * ny : Nat) : Int).toNat - 1) / 2 + 1) = (bytesOf (evened cells)).length := by
      rw [bytesOf_eq, intsToBytes_length, evened_length, hl]
      simp only [Int.toNat_natCast, Int.natCast_eq_zero]
      omega
    rw [hbl, i3]
    simp only
    refine ⟨_, rfl, ?_⟩
    rw [Nat.sub_self, List.replicate_zero, List.append_nil, List.take_length, bytesOf_eq, bytesToInts_intsToBytes, ← hl, evened_take]
  rcases h with ⟨h0, hc, hb, rest, hd⟩ | ⟨h0, hc, ⟨p, hp⟩, rest, hd⟩ | ⟨hc, p, hp, h0, rest, hd⟩
  · refine ⟨evened cells, ((nx * ny : Nat) : Int) * 4, ?_, ?_, ?_, cells, ?_, ?_⟩
    · unfold gridValues
      rw [if_neg (by simpa using h0), gridCells_eq hx hy hl hd, Option.map_some, if_pos hc, hn]
    · constructor <;> omega
    · rw [hc]; unfold IsInt; omega
    · unfold gridData
      rw [if_pos hev, hc, if_pos rfl, hm, if_neg, Int.toNat_natCast, ← hl, evened_take]
      rw [← hl, evened_length]
      split <;> omega
    · rw [← hl, List.take_length]
  · obtain ⟨i1, i2, i3⟩ := hz _ _ hp
    obtain ⟨d, k1, k2⟩ := data p hp (padInts p) ⟨_, intsToBytes_padInts p⟩
    refine ⟨padInts p, p.length, ?_, ?_, ?_, d, ?_, k2⟩
    · unfold gridValues
      rw [if_neg (by simpa using h0), gridCells_eq hx hy hl hd, Option.map_some, if_neg (by rw [hc]; decide), if_pos hc, ← bytesOf_eq, hp]
      simp only
      rw [if_neg (by omega)]
    · constructor <;> omega
    · rw [hc]; unfold IsInt; omega
    · rw [hc]; exact k1
  · obtain ⟨i1, i2, i3⟩ := hz _ _ hp
    have hd' := hd
    rw [bytesOf_eq] at hd'
    have hlen := congrArg List.length hd'
    rw [intsToBytes_length, List.length_append] at hlen
    have htake : ∃ rest, intsToBytes (g.data.take ((pre + 3) / 4)) = p ++ rest := by
      have hsplit : ∀ xs ys : List UInt32, intsToBytes (xs ++ ys) = intsToBytes xs ++ intsToBytes ys := by
        intro xs ys; unfold intsToBytes; rw [List.flatMap_append]
      have h1 : intsToBytes (g.data.take ((pre + 3) / 4)) ++ intsToBytes (g.data.drop ((pre + 3) / 4)) = p ++ rest := by
        rw [← hsplit, List.take_append_drop, hd']
      have h2 : p.length ≤ (intsToBytes (g.data.take ((pre + 3) / 4))).length := by
        rw [intsToBytes_length, List.length_take]; omega
      have h3 := congrArg (List.take p.length) h1
      rw [List.take_append_of_le_length h2, List.take_left] at h3
      exact ⟨(intsToBytes (g.data.take ((pre + 3) / 4))).drop p.length, by
        conv => rhs; arg 1; rw [← h3]
        rw [List.take_append_drop]⟩
    obtain ⟨d, k1, k2⟩ := data p hp _ htake
    refine ⟨g.data.take ((pre + 3) / 4), (pre : Int), ?_, ?_, ?_, d, ?_, k2⟩
    · unfold gridValues
      rw [if_pos (by omega), if_pos (by omega)]
    · constructor <;> omega
    · rw [hc]; unfold IsInt; omega
    · rw [hc, h0]; rw [h0] at k1; exact k1

theorem copyFirst_eq (dst src : List UInt32) {n : Nat} {size : Int} (hs : n ≤ src.length) (h0 : 0 ≤ size) (h1 : size ≤ dst.length) :
    copyFirst dst n size src = some (_root_.Spec.written dst ((src.take n).take size.toNat)) := by
  unfold copyFirst _root_.Spec.written
  simp only
  have : ((if (n : Int) > size then size else (n : Int))).toNat = ((src.take n).take size.toNat).length := by
    simp only [List.length_take]; split <;> omega
  rw [this, if_pos (by simp only [List.length_take]; omega), List.take_take, List.length_take]
  congr 2
  rw [← List.take_take, ← List.take_take]
  simp only [List.take_take]
  congr 1; omega

end Hec
