import Verif.Proofs.Grid
import Verif.Props.Location
import Verif.Props.ApiPaired
/-!
Grids read back as they were stored (C61), also through the public interface (C62).
-/
namespace Hec
set_option linter.unusedSimpArgs false
set_option linter.unusedVariables false
set_option synthInstance.maxSize 1000
set_option synthInstance.maxHeartbeats 200000
open _root_.Spec (Op Store Step Steps run runs Allowed AllAllowed Reachable GoodSizes create join SixParts stored oddHeaders
  IsInt MayStore Later Ascii NoBlankEnd written shownIn Inverse bytesOf evened GivesCells IsGrid gridNumbers gridOdd GridBack GridRoom KeepsBehind)
open Hec.Spec (sameUpToCase)

variable {hdrSize maxHash binSize : Nat} {mul : Nat → Nat}

theorem three {stats : List UInt32} {x y w : Option UInt32} (h : [x, y, w] = stats.map some) : ∃ a b m, stats = [a, b, m] ∧ x = some a ∧ y = some b ∧ w = some m := by
  cases stats with
  | nil => simp at h
  | cons a t => cases t with
    | nil => simp at h
    | cons b t => cases t with
      | nil => simp at h
      | cons m t => cases t with
        | nil => simp at h; exact ⟨a, b, m, rfl, h.1, h.2.1, h.2.2⟩
        | cons _ _ => simp at h

/-- What is read of a record that is a grid. -/
theorem read_grid {c : Cfg} {s : Eng} {z : Zlib} {g : GridIn} {nx ny : Nat} {stats limits exceeding cells : List UInt32}
    (hg : IsGrid g nx ny stats limits exceeding) {path : Bytes} {R : Rec} (hz : zread c s (mallocAndCopyPath path) = some (some R))
    {size : Int} (hsz : IsInt size) (hco : IsInt g.compression) {v3 d : List UInt32}
    (h0 : R.dataType = i32 g.type) (h1 : R.ih = gridInternal g size) (h2 : R.h2 = padInts (gridText g)) (h3 : R.uh = gridHeader g)
    (h4 : R.v1 = stats ++ limits ++ exceeding) (h5 : R.v3 = v3)
    (hd : gridData z ((nx : Int) * ny) g.compression size v3 = some (some (some d))) (hdc : d.take (nx * ny) = cells) (withData : Bool) :
    ∃ o, zspatialGridRetrieve c s z path withData = some (.got o) ∧ GridBack g nx ny stats limits exceeding (if withData then some cells else none) o := by
  have hn := hg.numbers
  unfold gridNumbers at hn
  simp only [List.mem_cons, List.not_mem_nil, or_false, forall_eq_or_imp, forall_eq] at hn
  obtain ⟨n1, n2, n3, n4, n5, n6, n7, n8⟩ := hn
  obtain ⟨hx, hx2, hy, hy2⟩ := hg.cells
  obtain ⟨r1, r2, r3⟩ := hg.ranges
  obtain ⟨v1, v2⟩ := hg.struct
  obtain ⟨a, b, m, rfl, s1, s2, s3⟩ := three hg.stats
  unfold zspatialGridRetrieve
  rw [hz, Option.bind_some]
  simp only [h0, toInt32_i32 n1]
  rw [if_neg (by have := hg.type; omega)]
  simp only [h1, gridInternal, List.map_cons, List.map_nil, v1, v2, hx, hy, r1, toInt32_i32 n1, toInt32_i32 n2, toInt32_i32 n3, toInt32_i32 n4, toInt32_i32 n5,
    toInt32_i32 n6, toInt32_i32 n7, toInt32_i32 n8, toInt32_i32 hsz, toInt32_i32 hco, toInt32_i32 (show IsInt (-100) by unfold IsInt; omega),
    toInt32_i32 (show IsInt 0 by unfold IsInt; omega), toInt32_i32 (show IsInt (nx : Int) by unfold IsInt; omega),
    toInt32_i32 (show IsInt (ny : Int) by unfold IsInt; omega), toInt32_i32 (show IsInt (limits.length : Int) by unfold IsInt; omega)]
  rw [if_neg (by decide)]
  simp only [h3, gridHeader, Option.bind_some]
  rw [if_neg (by decide), h4, if_pos (by simp), if_neg (by simp; omega), Option.bind_some, h5]
  have hdat : (if withData = true then gridData z ((nx : Int) * ny) g.compression size v3 else some (some none)) = some (some (if withData then some d else none)) := by
    cases withData
    · rfl
    · rw [if_pos rfl, hd]; rfl
  rw [hdat, Option.map_some]
  refine ⟨_, rfl, rfl, ⟨rfl, rfl⟩, ?_, rfl, ?_, ⟨rfl, ?_, ?_⟩, ?_⟩
  · show gridStrings 5 (intsToBytes R.h2 ++ List.replicate 8 0) = _
    rw [h2, intsToBytes_padInts]
    have ht : gridText g = ([g.units, g.source, g.srsName, g.srsDefinition, g.zone].map fun s => s.getD []).flatMap (fun s => s ++ [0]) := by
      unfold gridText; rw [List.flatMap_map]
    rw [ht, List.append_assoc]
    have := gridStrings_eq ([g.units, g.source, g.srsName, g.srsDefinition, g.zone].map fun s => s.getD []) (List.replicate (3 - ((([g.units, g.source, g.srsName, g.srsDefinition, g.zone].map fun s => s.getD []).flatMap (fun s => s ++ [0])).length + 3) % 4) 0 ++ List.replicate 8 0) (by
      intro t ht
      obtain ⟨u, hu, rfl⟩ := List.mem_map.mp ht
      cases u with
      | none => exact ⟨by simp [Ascii], by simp [NoBlankEnd]⟩
      | some u => exact hg.strings _ hu u rfl)
    exact this
  · show [some (([a, b, m] ++ limits ++ exceeding).getD 0 0), some (([a, b, m] ++ limits ++ exceeding).getD 1 0), some (([a, b, m] ++ limits ++ exceeding).getD 2 0)] = _
    simp
  · show List.take (limits.length : Int).toNat (List.drop 3 ([a, b, m] ++ limits ++ exceeding)) = limits
    simp
  · show List.take (limits.length : Int).toNat (List.drop (3 + (limits.length : Int).toNat) ([a, b, m] ++ limits ++ exceeding)) = exceeding
    rw [Int.toNat_natCast, List.drop_append, List.drop_eq_nil_of_le (by simp; omega), List.nil_append, show 3 + limits.length - ([a, b, m] ++ limits).length = 0 by simp; omega, List.drop_zero, ← r2, List.take_length]
  · show Option.map (fun x => List.take (nx * ny) x) (if withData = true then some d else none) = _
    cases withData
    · rfl
    · simp [hdc]

/-- C61.  In a file reached by any calls, a grid of any size is stored, without compression, with zlib, or compressed by
the caller, over no record or over one of the same type; and whatever is called next about other records, it is read back
by the same name in any letter case, with trailing blanks: all numbers, strings, ranges, and with the data the cells.  No
other record changes.  Missing: the version of the grid, strings with blanks at the end or other characters, types that
are not of a grid (see the violations), writes outside the conditions of MayStore. -/
theorem C61_grid_partial (gs : GoodSizes hdrSize maxHash binSize) {past : List Op} {s : Eng}
    (hs : Reachable (create hdrSize maxHash binSize mul).1 (create hdrSize maxHash binSize mul).2 past s) (e : WriteEnv) {z : Zlib} (hz : Inverse z)
    {g : GridIn} {nx ny : Nat} {stats limits exceeding cells : List UInt32} (hg : IsGrid g nx ny stats limits exceeding) {pre : Nat}
    (hcells : cells.length = nx * ny) (hgive : GivesCells z g pre cells) {ps : List Bytes} {k : Nat} (hp : SixParts ps)
    (hpath : g.path = join ps ++ List.replicate k 32)
    (hw : MayStore (create hdrSize maxHash binSize mul).1 past s (join ps) (gridOdd g))
    (ht : ∀ R, zread (create hdrSize maxHash binSize mul).1 s (join ps) = some (some R) → (R.dataType.toNat : Int) = g.type) :
    ∃ s', zspatialGridStore (create hdrSize maxHash binSize mul).1 s e z g pre = some (s', .written .ok) ∧
      (∀ q, q.length ≤ 392 → ¬ sameUpToCase (join ps) q →
        zread (create hdrSize maxHash binSize mul).1 s' q = zread (create hdrSize maxHash binSize mul).1 s q) ∧
      ∀ ops s'', Later (create hdrSize maxHash binSize mul).1 past s' (join ps) ops s'' →
        ∀ qs j, SixParts qs → sameUpToCase (join ps) (join qs) → ∀ withData : Bool,
        ∃ o, zspatialGridRetrieve (create hdrSize maxHash binSize mul).1 s'' z (join qs ++ List.replicate j 32) withData = some (.got o) ∧
          GridBack g nx ny stats limits exceeding (if withData then some cells else none) o := by
  obtain ⟨hx, hx2, hy, hy2⟩ := hg.cells
  obtain ⟨r1, r2, r3⟩ := hg.ranges
  obtain ⟨v3, size, f1, f2, f3, d, f4, f5⟩ := gridValues_eq hz hx hy hcells hgive
  have hran : gridRanges g = some (stats ++ limits ++ exceeding) := by
    obtain ⟨a, b, m, rfl, s1, s2, s3⟩ := three hg.stats
    obtain ⟨⟨t1, h1⟩, ⟨t2, h2⟩⟩ := hg.tables
    unfold gridRanges
    rw [s1, s2, s3]
    simp only
    rw [if_neg (by rw [r1, h1, h2]; simp; omega), r1, h1, h2, Int.toNat_natCast, List.take_left, ← r2, List.take_left]
  generalize hr : plainReq e g.path (i32 g.type) (gridInternal g size) (padInts (gridText g)) (gridHeader g) (stats ++ limits ++ exceeding) [] v3 0 = r
  have hrp : r.path = join ps := by rw [← hr, ← C50_trailing_blanks ps hp k, ← hpath]; rfl
  have hru : { r with uh := lengthened r.uh } = r := by
    rw [← hr]; unfold plainReq; simp only [header_kept]
  have hodd : oddHeaders r.ih r.h2 r.uh = gridOdd g := by
    rw [← hr]
    show (gridInternal g size).length % 2 + (padInts (gridText g)).length % 2 + (gridHeader g).length % 2 = _
    rw [padInts_length, gridText_length]
    unfold gridOdd
    simp only [gridInternal, gridHeader, List.length_cons, List.length_nil]
    omega
  have hne : 0 < r.path.length := by
    rw [hrp]
    have := hp.1
    cases ps with
    | nil => simp at this
    | cons a as => simp [join]
  obtain ⟨s', k1, k2, k3⟩ := stored_kept gs hs r (can_allowed hne (by rw [hrp, hodd]; exact hw)) (by
    rw [hrp]; intro R hR
    have h := ht R hR
    have hty := hg.type
    have : r.dataType = i32 g.type := by rw [← hr]; rfl
    rw [this, ← UInt32.toNat_inj]
    have hi : ((i32 g.type).toNat : Int) = g.type % 2 ^ 32 := by
      unfold i32
      simp only [UInt32.ofInt, UInt32.toNat_ofNat']
      omega
    omega)
  rw [hrp] at k2 k3
  refine ⟨s', ?_, k2, fun ops s'' hlat qs j hqs hq withData => ?_⟩
  · unfold zspatialGridStore
    rw [if_pos hg.struct.2, hran, Option.bind_some, f1, Option.bind_some]
    simp only
    rw [hr]
    unfold zwritePublic
    rw [hru, k1]; rfl
  · obtain ⟨v, hv⟩ := k3 ops s'' hlat (join qs) hq
    exact read_grid hg (by rw [C50_trailing_blanks qs hqs j]; exact hv) f2 f3 (by rw [← hr]; rfl) (by rw [← hr]; rfl) (by rw [← hr]; rfl)
      (by rw [← hr]; rfl) (by rw [← hr]; rfl) (by rw [← hr]; rfl) f4 f5 withData

/-- C61.  Where there is no record, no grid is read. -/
theorem C61_not_there (c : Cfg) (s : Eng) (z : Zlib) {qs : List Bytes} (hq : SixParts qs) (j : Nat) (withData : Bool) (h : zread c s (join qs) = some none) :
    zspatialGridRetrieve c s z (join qs ++ List.replicate j 32) withData = some .notFound := by
  unfold zspatialGridRetrieve
  rw [C50_trailing_blanks qs hq j, h]; rfl

/-- C61.  A record of another type is not read as a grid. -/
theorem C61_other_type (c : Cfg) (s : Eng) (z : Zlib) {qs : List Bytes} (hq : SixParts qs) (j : Nat) (withData : Bool) {R : Rec}
    (h : zread c s (join qs) = some (some R)) (ht : R.dataType.toNat < 400 ∨ 431 < R.dataType.toNat) :
    zspatialGridRetrieve c s z (join qs ++ List.replicate j 32) withData = some .wrongType := by
  unfold zspatialGridRetrieve
  rw [C50_trailing_blanks qs hq j, h, Option.bind_some]
  simp only
  rw [if_pos]
  have := R.dataType.toNat_lt
  unfold toInt32 lo32
  split <;> omega

/-- C61.  Nothing is stored if zlib fails, the compression is not known, or the cells are not floats. -/
theorem C61_refused (c : Cfg) (s : Eng) (e : WriteEnv) (z : Zlib) {g : GridIn} {nx ny : Nat} {stats limits exceeding cells rest : List UInt32}
    (hg : IsGrid g nx ny stats limits exceeding) (hcells : cells.length = nx * ny) (hd : g.data = cells ++ rest) :
    (g.compression = 26 → z.compress (bytesOf (evened cells)) = none → zspatialGridStore c s e z g 0 = some (s, .zlibError)) ∧
    (g.compression ≠ 1 → g.compression ≠ 26 → zspatialGridStore c s e z g 0 = some (s, .badCompression)) ∧
    ∀ t ≠ 0, ∀ pre, zspatialGridStore c s e z { g with storageType := t } pre = some (s, .badStorage) := by
  obtain ⟨hx, hx2, hy, hy2⟩ := hg.cells
  obtain ⟨r1, r2, r3⟩ := hg.ranges
  have hran : ∃ v, gridRanges g = some v := by
    obtain ⟨a, b, m, rfl, s1, s2, s3⟩ := three hg.stats
    obtain ⟨⟨t1, h1⟩, ⟨t2, h2⟩⟩ := hg.tables
    unfold gridRanges
    rw [s1, s2, s3]
    simp only
    rw [if_neg (by rw [r1, h1, h2]; simp; omega)]
    exact ⟨_, rfl⟩
  obtain ⟨v, hv⟩ := hran
  refine ⟨fun h1 h2 => ?_, fun h1 h2 => ?_, fun t ht pre => ?_⟩
  · unfold zspatialGridStore
    rw [if_pos hg.struct.2, hv, Option.bind_some]
    unfold gridValues
    rw [if_neg (by decide), gridCells_eq hx hy hcells hd, Option.map_some, if_neg (by rw [h1]; decide), if_pos h1, ← bytesOf_eq, h2]; rfl
  · unfold zspatialGridStore
    rw [if_pos hg.struct.2, hv, Option.bind_some]
    unfold gridValues
    rw [if_neg (by decide), gridCells_eq hx hy hcells hd, Option.map_some, if_neg h1, if_neg h2]; rfl
  · unfold zspatialGridStore
    rw [if_neg ht]

/-- C62.  In a file reached by any calls, a grid of any size is stored by hec_dss_gridStore, over no record or over one of
the same type; and whatever is called next about other records, hec_dss_gridRetrieve writes it to the memory of the
caller: all numbers, and of each string, of the ranges and of the cells as much as there is room for.  Without the data
the statistics, ranges and cells of the caller stay as they were.  No other record changes.  Missing: strings with blanks
at the end or other characters. -/
theorem C62_grid_partial (gs : GoodSizes hdrSize maxHash binSize) {past : List Op} {s : Eng}
    (hs : Reachable (create hdrSize maxHash binSize mul).1 (create hdrSize maxHash binSize mul).2 past s) (e : WriteEnv) {z : Zlib} (hz : Inverse z)
    {g : GridIn} {nx ny : Nat} {lo hi av : UInt32} {limits exceeding cells : List UInt32} (hg : IsGrid g nx ny [lo, hi, av] limits exceeding) {compressionSize : Nat}
    {ui so sn sd tz : Bytes} (hstr : [g.units, g.source, g.srsName, g.srsDefinition, g.zone] = [ui, so, sn, sd, tz].map some)
    (hco : g.compression = 26) (hcells : cells.length = nx * ny) (hgive : GivesCells z g compressionSize cells) {ps : List Bytes} {k : Nat} (hp : SixParts ps)
    (hpath : g.path = join ps ++ List.replicate k 32)
    (hw : MayStore (create hdrSize maxHash binSize mul).1 past s (join ps) (gridOdd g))
    (ht : ∀ R, zread (create hdrSize maxHash binSize mul).1 s (join ps) = some (some R) → (R.dataType.toNat : Int) = g.type) :
    ∃ s', hecGridStore (create hdrSize maxHash binSize mul).1 s e z g compressionSize = some (s', .written .ok) ∧
      (∀ q, q.length ≤ 392 → ¬ sameUpToCase (join ps) q →
        zread (create hdrSize maxHash binSize mul).1 s' q = zread (create hdrSize maxHash binSize mul).1 s q) ∧
      ∀ ops s'', Later (create hdrSize maxHash binSize mul).1 past s' (join ps) ops s'' →
        ∀ qs j, SixParts qs → sameUpToCase (join ps) (join qs) → ∀ (withData : Bool) (m : GridMem) (l : GridLengths), GridRoom m l →
        hecGridRetrieve (create hdrSize maxHash binSize mul).1 s'' z (join qs ++ List.replicate j 32) withData m l = some (.ok,
          { ints := [g.type, g.dataType, g.lowerLeftX, g.lowerLeftY, nx, ny, limits.length, g.srsType, g.zoneOffset, g.isInterval, g.isTimeStamped]
            units := shownIn m.units l.units.toNat ui
            source := shownIn m.source l.source.toNat so
            srsName := shownIn m.srsName l.srsName.toNat sn
            srsDefinition := shownIn m.srsDefinition l.srsDefinition.toNat sd
            zone := shownIn m.zone l.zone.toNat tz
            floats := [g.cellSize, g.x0, g.y0, g.nullValue]
            stats := if withData then [hi, lo, av] else m.stats
            limits := if withData then written m.limits (limits.take l.ranges.toNat) else m.limits
            exceeding := if withData then written m.exceeding (exceeding.take l.ranges.toNat) else m.exceeding
            data := if withData then written m.data (cells.take l.data.toNat) else m.data }) := by
  simp only [List.map_cons, List.map_nil, List.cons.injEq, and_true] at hstr
  obtain ⟨u1, u2, u3, u4, u5⟩ := hstr
  have w1 := hg.strings _ (by simp) ui u1
  have w2 := hg.strings g.source (by simp) so u2
  have w3 := hg.strings g.srsName (by simp) sn u3
  have w4 := hg.strings g.srsDefinition (by simp) sd u4
  have w5 := hg.strings g.zone (by simp) tz u5
  generalize hG : ({ g with path := mallocAndCopyPath g.path, structVersion := -100, version := 0, compression := 26, storageType := 0, units := some (mallocAndCopy ui), source := some (mallocAndCopy so), srsName := some (mallocAndCopy sn), srsDefinition := some (mallocAndCopy sd), zone := some (mallocAndCopy tz) } : GridIn) = G
  have hG' : G = { g with path := join ps ++ List.replicate 0 32, version := 0 } := by
    rw [← hG, copy_same w1.1 w1.2, copy_same w2.1 w2.2, copy_same w3.1 w3.2, copy_same w4.1 w4.2, copy_same w5.1 w5.2, hpath, name0 hp k,
      ← u1, ← u2, ← u3, ← u4, ← u5, ← hco, ← hg.struct.1, ← hg.struct.2]
  have hgG : IsGrid G nx ny [lo, hi, av] limits exceeding := by
    rw [hG']
    exact ⟨hg.struct, hg.type, hg.numbers, hg.cells, hg.strings, hg.stats, hg.ranges, hg.tables⟩
  obtain ⟨s', k1, k2, k3⟩ := C61_grid_partial gs hs e hz hgG (pre := compressionSize) hcells (by rw [hG']; exact hgive) hp (k := 0) (by rw [hG'])
    (by rw [hG']; exact hw) (by rw [hG']; exact ht)
  refine ⟨s', ?_, k2, fun ops s'' hlat qs j hqs hq withData m l room => ?_⟩
  · unfold hecGridStore
    rw [u1, u2, u3, u4, u5]
    simp only
    rw [hG]; exact k1
  · obtain ⟨o, h1, h2⟩ := k3 ops s'' hlat qs 0 hqs hq withData
    unfold hecGridRetrieve
    rw [name0 hqs j, h1, Option.bind_some]
    have r1 := room.strings (m.units, l.units) (by simp)
    have r2 := room.strings (m.source, l.source) (by simp)
    have r3 := room.strings (m.srsName, l.srsName) (by simp)
    have r4 := room.strings (m.srsDefinition, l.srsDefinition) (by simp)
    have r5 := room.strings (m.zone, l.zone) (by simp)
    simp only at r1 r2 r3 r4 r5 ⊢
    have hst : o.strings = [ui, so, sn, sd, tz] := by
      rw [h2.strings, hG']
      simp [u1, u2, u3, u4, u5]
    have hnum := h2.numbers
    have hfl := h2.floats
    have hss := h2.stats
    rw [hG'] at hnum hfl
    simp only [gridNumbers, List.cons.injEq, and_true, List.map_cons, List.map_nil] at hnum hfl hss
    obtain ⟨a1, a2, a3, a4, a5, a6, a7, a8⟩ := hnum
    obtain ⟨b1, b2, b3, b4⟩ := hfl
    obtain ⟨c1, c2, c3⟩ := hss
    obtain ⟨d1, d2, d3⟩ := h2.ranges
    rw [hst]
    simp only [List.getElem?_cons_zero, List.getElem?_cons_succ]
    rw [putString_some _ _ r1.1 r1.2, Option.bind_some, putString_some _ _ r2.1 r2.2, Option.bind_some, putString_some _ _ r3.1 r3.2, Option.bind_some,
      putString_some _ _ r4.1 r4.2, Option.bind_some, putString_some _ _ r5.1 r5.2, Option.bind_some]
    simp only [a1, a2, a3, a4, a5, a6, a7, a8, b1, b2, b3, b4, c1, c2, c3, d1, d2, d3, h2.sizes.1, h2.sizes.2]
    obtain ⟨q1, q2, q3⟩ := hg.ranges
    cases withData
    · rfl
    · have hdat := h2.data
      simp only [if_true] at hdat ⊢
      cases ho : o.data with
      | none => rw [ho] at hdat; cases hdat
      | some d =>
        rw [ho, Option.map_some] at hdat
        injection hdat with hdat
        have hlen : nx * ny ≤ d.length := by
          have := congrArg List.length hdat
          rw [List.length_take, hcells] at this; omega
        rw [copyFirst_eq _ _ (Nat.le_refl _) room.ranges.1 room.ranges.2.1, Option.bind_some,
          copyFirst_eq _ _ (by omega) room.ranges.1 room.ranges.2.2, Option.bind_some, Option.getD_some,
          show (nx : Int) * ny = ((nx * ny : Nat) : Int) by simp, copyFirst_eq _ _ hlen room.data.1 room.data.2, Option.map_some, hdat, List.take_length,
          List.take_of_length_le (by omega : exceeding.length ≤ limits.length)]

theorem copyFirst_within {dst src t : List UInt32} {n size : Int} (h0 : 0 ≤ size) (h : copyFirst dst n size src = some t) : KeepsBehind size.toNat dst t := by
  unfold copyFirst at h
  simp only at h
  generalize hm : (if n > size then size else n).toNat = m at h
  have hle : m ≤ size.toNat := by rw [← hm]; split <;> omega
  split at h
  · rename_i hh
    injection h with h; subst h
    refine ⟨by simp; omega, ?_⟩
    rw [List.drop_append, List.drop_eq_nil_of_le (by simp; omega), List.nil_append, List.drop_drop, List.length_take]
    congr 1; omega
  · cases h

/-- C62.  Whatever is in the file, hec_dss_gridRetrieve writes nothing behind the lengths given. -/
theorem C62_within (c : Cfg) (s : Eng) (z : Zlib) (path : Bytes) (withData : Bool) (m : GridMem) (l : GridLengths)
    (hl : ∀ n ∈ [l.units, l.source, l.srsName, l.srsDefinition, l.zone, l.ranges, l.data], 0 ≤ n) {st : Api} {m' : GridMem}
    (h : hecGridRetrieve c s z path withData m l = some (st, m')) :
    KeepsBehind l.units.toNat m.units m'.units ∧ KeepsBehind l.source.toNat m.source m'.source ∧ KeepsBehind l.srsName.toNat m.srsName m'.srsName ∧
      KeepsBehind l.srsDefinition.toNat m.srsDefinition m'.srsDefinition ∧ KeepsBehind l.zone.toNat m.zone m'.zone ∧
      KeepsBehind l.ranges.toNat m.limits m'.limits ∧ KeepsBehind l.ranges.toNat m.exceeding m'.exceeding ∧ KeepsBehind l.data.toNat m.data m'.data := by
  simp only [List.mem_cons, List.not_mem_nil, or_false, forall_eq_or_imp, forall_eq] at hl
  obtain ⟨l1, l2, l3, l4, l5, l6, l7⟩ := hl
  unfold hecGridRetrieve at h
  obtain ⟨r, _, h⟩ := Option.bind_eq_some_iff.mp h
  split at h
  · obtain ⟨s1, e1, h⟩ := Option.bind_eq_some_iff.mp h
    obtain ⟨s2, e2, h⟩ := Option.bind_eq_some_iff.mp h
    obtain ⟨s3, e3, h⟩ := Option.bind_eq_some_iff.mp h
    obtain ⟨s4, e4, h⟩ := Option.bind_eq_some_iff.mp h
    obtain ⟨s5, e5, h⟩ := Option.bind_eq_some_iff.mp h
    simp only at h
    split at h
    · split at h
      · obtain ⟨t1, e6, h⟩ := Option.bind_eq_some_iff.mp h
        obtain ⟨t2, e7, h⟩ := Option.bind_eq_some_iff.mp h
        obtain ⟨t3, e8, h⟩ := Option.map_eq_some_iff.mp h
        simp only [Prod.mk.injEq] at h
        rw [← h.2]
        exact ⟨putString_within l1 e1, putString_within l2 e2, putString_within l3 e3, putString_within l4 e4, putString_within l5 e5,
          copyFirst_within l6 e6, copyFirst_within l6 e7, copyFirst_within l7 e8⟩
      · cases h
    · simp only [Option.some.injEq, Prod.mk.injEq] at h
      rw [← h.2]
      exact ⟨putString_within l1 e1, putString_within l2 e2, putString_within l3 e3, putString_within l4 e4, putString_within l5 e5,
        ⟨rfl, rfl⟩, ⟨rfl, rfl⟩, ⟨rfl, rfl⟩⟩
  · simp only [Option.some.injEq, Prod.mk.injEq] at h
    rw [← h.2]
    exact ⟨⟨rfl, rfl⟩, ⟨rfl, rfl⟩, ⟨rfl, rfl⟩, ⟨rfl, rfl⟩, ⟨rfl, rfl⟩, ⟨rfl, rfl⟩, ⟨rfl, rfl⟩, ⟨rfl, rfl⟩⟩

end Hec
