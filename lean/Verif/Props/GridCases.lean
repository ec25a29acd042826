import Verif.Props.Grid
/-!
Grids: cases that meet the conditions of C61 and C62, and where they fail.
-/
namespace Hec
set_option synthInstance.maxSize 1000
set_option synthInstance.maxHeartbeats 200000
open _root_.Spec (join SixParts create Inverse bytesOf evened GivesCells IsGrid gridNumbers gridOdd GridBack GridRoom IsInt Ascii NoBlankEnd IsPart)

/-- Something with the property of zlib: a byte in front. -/
def front : Zlib := ⟨fun b => if b.length + 1 < 2 ^ 31 then some (1 :: b) else none, fun p n => if p.length - 1 ≤ n then some (p.drop 1) else none⟩

theorem front_inverse : Inverse front := by
  intro b p h
  unfold front at *
  simp only at h ⊢
  split at h
  · injection h with h; subst h
    exact ⟨by simp, by simpa using by assumption, by simp⟩
  · cases h

/-- Three by one cells, one range, source not given. -/
def slope : GridIn := ⟨join [[65], [66], [67], [68], [69], [70]], -100, 420, 3, 1, -5, 7, 3, 1, 26, 1, 0, -480, 1, 0, 0,
  some [77, 77], none, some [65], some [], some [85, 84, 67], 0x44fa0000, 0, 0, 0xff7fffff, some 0x3f800000, some 0x40400000, some 0x40000000,
  [0x3f800000], [3], [0x3f800000, 0x40000000, 0x40400000]⟩

theorem slope_grid : IsGrid slope 3 1 [0x3f800000, 0x40400000, 0x40000000] [0x3f800000] [3] :=
  ⟨⟨rfl, rfl⟩, by decide, by unfold slope gridNumbers IsInt; decide, by unfold slope; decide,
    by
      intro s hs t ht
      subst ht
      simp only [slope, List.mem_cons, List.not_mem_nil, or_false, Option.some.injEq, reduceCtorEq, false_or] at hs
      rcases hs with rfl | rfl | rfl | rfl <;> exact ⟨by unfold Ascii; decide, by unfold NoBlankEnd; decide⟩,
    rfl, by unfold slope; decide, ⟨[], rfl⟩, ⟨[], rfl⟩⟩

theorem slope_cells : GivesCells front slope 0 [0x3f800000, 0x40000000, 0x40400000] :=
  Or.inr (Or.inl ⟨rfl, rfl, ⟨_, rfl⟩, [], rfl⟩)

/-- The conditions of C61_grid_partial are met in a new file. -/
example : ∃ s' o, zspatialGridStore tiny.1 tiny.2 anEnv front slope 0 = some (s', .written .ok) ∧
    zspatialGridRetrieve tiny.1 s' front (join [[97], [98], [67], [68], [69], [70]]) true = some (.got o) ∧
    GridBack slope 3 1 [0x3f800000, 0x40400000, 0x40000000] [0x3f800000] [3] (some [0x3f800000, 0x40000000, 0x40400000]) o := by
  have hp : SixParts [[65], [66], [67], [68], [69], [70]] := ⟨rfl, by simp [IsPart]⟩
  have hq : SixParts [[97], [98], [67], [68], [69], [70]] := ⟨rfl, by simp [IsPart]⟩
  have hz : zread tiny.1 tiny.2 (join [[65], [66], [67], [68], [69], [70]]) = some none := by decide +kernel
  obtain ⟨s', h1, _, h3⟩ := C61_grid_partial (mul := id) tiny_good (past := []) (s := tiny.2) ⟨trivial, [], rfl⟩ anEnv front_inverse slope_grid
    (cells := [0x3f800000, 0x40000000, 0x40400000]) rfl slope_cells (k := 0) hp (by simp [slope])
    ⟨by decide, (fun R h => by rw [show (create 12 2 58 id) = tiny from rfl, hz] at h; cases h), fun _ d hd => by simp at hd⟩
    (fun R h => by rw [show (create 12 2 58 id) = tiny from rfl, hz] at h; cases h)
  obtain ⟨o, h4, h5⟩ := h3 [] s' ⟨trivial, ⟨[], rfl⟩, by simp⟩ _ 0 hq (by rw [same_iff]; decide) true
  exact ⟨s', o, h1, by have := h4; rw [show List.replicate 0 (32 : UInt8) = [] from rfl, List.append_nil] at this; exact this, h5⟩

/-- Without compression, and with the cells compressed by the caller: evaluated. -/
example :
    ((zspatialGridStore tiny.1 tiny.2 anEnv front { slope with compression := 1 } 0).bind fun p => (zspatialGridRetrieve tiny.1 p.1 front slope.path true).map fun r =>
      match r with | .got o => (p.2, o.data, o.size) | _ => (p.2, none, 0)) = some (.written .ok, some [0x3f800000, 0x40000000, 0x40400000], 12) ∧
    ((zspatialGridStore tiny.1 tiny.2 anEnv front { slope with data := [0x80000001, 0x0000003f, 0x40000040, 0x00000040, 0xffffff00] } 17).bind fun p =>
      (zspatialGridRetrieve tiny.1 p.1 front slope.path true).map fun r =>
        match r with | .got o => (p.2, o.data, o.size) | _ => (p.2, none, 0)) = some (.written .ok, some [0x3f800000, 0x40000000, 0x40400000, 0], 17) := by
  decide +kernel

def memory : GridMem :=
  ⟨[], List.replicate 4 7, [7, 7], [7, 7], [7], List.replicate 5 7, [], [8, 8, 8], [7, 7], [7, 7], [7, 7, 7, 7]⟩

/-- The conditions of C62_grid_partial are met in a new file; the memory of the caller afterwards. -/
example : ∃ s', hecGridStore tiny.1 tiny.2 anEnv front { slope with source := some [83] } 0 = some (s', .written .ok) ∧
    hecGridRetrieve tiny.1 s' front (join [[97], [98], [67], [68], [69], [70]]) true memory ⟨2, 2, 2, 1, 5, 2, 2⟩ =
      some (.ok, ⟨[420, 1, -5, 7, 3, 1, 1, 0, -480, 1, 0], [77, 0, 7, 7], [83, 0], [65, 0], [0], [85, 84, 67, 0, 7], [0x44fa0000, 0, 0, 0xff7fffff],
        [0x40400000, 0x3f800000, 0x40000000], [0x3f800000, 7], [3, 7], [0x3f800000, 0x40000000, 7, 7]⟩) := by
  have hp : SixParts [[65], [66], [67], [68], [69], [70]] := ⟨rfl, by simp [IsPart]⟩
  have hq : SixParts [[97], [98], [67], [68], [69], [70]] := ⟨rfl, by simp [IsPart]⟩
  have hz : zread tiny.1 tiny.2 (join [[65], [66], [67], [68], [69], [70]]) = some none := by decide +kernel
  have hg : IsGrid { slope with source := some [83] } 3 1 [0x3f800000, 0x40400000, 0x40000000] [0x3f800000] [3] :=
    ⟨⟨rfl, rfl⟩, slope_grid.type, slope_grid.numbers, slope_grid.cells, by
      intro s hs t ht
      subst ht
      simp only [slope, List.mem_cons, List.not_mem_nil, or_false, Option.some.injEq, reduceCtorEq, false_or] at hs
      rcases hs with rfl | rfl | rfl | rfl | rfl <;> exact ⟨by unfold Ascii; decide, by unfold NoBlankEnd; decide⟩,
      rfl, slope_grid.ranges, slope_grid.tables⟩
  obtain ⟨s', h1, _, h3⟩ := C62_grid_partial (mul := id) tiny_good (past := []) (s := tiny.2) ⟨trivial, [], rfl⟩ anEnv front_inverse hg (compressionSize := 0)
    (ui := [77, 77]) (so := [83]) (sn := [65]) (sd := []) (tz := [85, 84, 67]) rfl rfl
    (cells := [0x3f800000, 0x40000000, 0x40400000]) rfl slope_cells (k := 0) hp (by simp [slope])
    ⟨by decide, (fun R h => by rw [show (create 12 2 58 id) = tiny from rfl, hz] at h; cases h), fun _ d hd => by simp at hd⟩
    (fun R h => by rw [show (create 12 2 58 id) = tiny from rfl, hz] at h; cases h)
  have h := h3 [] s' ⟨trivial, ⟨[], rfl⟩, by simp⟩ _ 0 hq (by rw [same_iff]; decide) true memory ⟨2, 2, 2, 1, 5, 2, 2⟩
    ⟨by unfold memory; decide, by unfold memory; decide, by unfold memory; decide⟩
  exact ⟨s', h1, h⟩

/-- C61 fails: the version of the grid is stored and not read back. -/
theorem C61_version_violation :
    ((zspatialGridStore tiny.1 tiny.2 anEnv front slope 0).bind fun p => (zspatialGridRetrieve tiny.1 p.1 front slope.path true).map fun r =>
      match r with | .got o => (p.2, slope.version, o.version) | _ => (p.2, 0, 7)) = some (.written .ok, 3, 0) := by decide +kernel

/-- C61 fails: after units "MM" with a blank behind them the other strings are read one place too late: the source is
empty, the name of the reference system is the source "S", its definition the name, and the time zone the definition. -/
theorem C61_blank_violation :
    ((zspatialGridStore tiny.1 tiny.2 anEnv front { slope with units := some [77, 77, 32], source := some [83] } 0).bind fun p =>
      (zspatialGridRetrieve tiny.1 p.1 front slope.path true).map fun r =>
        match r with | .got o => (p.2, o.strings) | _ => (p.2, [])) = some (.written .ok, [[77, 77], [], [83], [65], []]) := by decide +kernel

/-- C61 fails: a grid whose type is not one of a grid is stored, and not read. -/
theorem C61_type_violation :
    ((zspatialGridStore tiny.1 tiny.2 anEnv front { slope with type := 300 } 0).bind fun p =>
      (zspatialGridRetrieve tiny.1 p.1 front slope.path true).map fun r => (p.2, r)) = some (.written .ok, .wrongType) := by decide +kernel

/-- C62 fails: hec_dss_gridStore cuts a string behind its first byte that is not ASCII, here the degree sign of units
"°C", and the strings after it stay where they are. -/
theorem C62_characters_violation :
    ((hecGridStore tiny.1 tiny.2 anEnv front { slope with units := some [194, 176, 67], source := some [83] } 0).bind fun p =>
      (hecGridRetrieve tiny.1 p.1 front slope.path true memory ⟨4, 2, 2, 1, 5, 2, 2⟩).map fun r => (p.2, r.2.units, r.2.source)) =
      some (.written .ok, [194, 0, 7, 7], [83, 0]) := by decide +kernel

end Hec
