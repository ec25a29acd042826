import Verif.Proofs.Api
import Verif.Props.Paired
/-!
The public interface: paired data (C58).
-/
namespace Hec
set_option linter.unusedSimpArgs false
set_option linter.unusedVariables false
set_option synthInstance.maxSize 1000
set_option synthInstance.maxHeartbeats 200000
open _root_.Spec (Op Store Step Steps run runs Allowed AllAllowed Reachable GoodSizes create join SixParts stored oddHeaders
  IsInt MayReplace Later Points headerOdd HeaderKept Ascii NoBlankEnd written shownIn shownOpt PdRoom KeepsBehind shown PdArrays flat cells Paired Whole
  wideFor kept asType wideOut readBack field HasSize areDoubles rtrim NoZero)
open Hec.Spec (sameUpToCase)

variable {hdrSize maxHash binSize : Nat} {mul : Nat → Nat}

theorem cells_copy {s : Bytes} (h : Ascii s) : cells (some (mallocAndCopy s)) = cells (some s) := by
  obtain ⟨k, hk⟩ := copy_blanks h
  have : rtrim (mallocAndCopy s) = rtrim s := by rw [← rtrim_append_blanks _ k, ← hk]
  unfold cells
  simp only [Option.getD_some, this]

theorem copy_noZero {s : Bytes} (h : Ascii s) : NoZero (some (mallocAndCopy s)) := by
  obtain ⟨k, hk⟩ := copy_blanks h
  intro c hc hz
  have : c ∈ s := by rw [hk]; exact List.mem_append_left _ hc
  have := (h c this).1
  rw [hz] at this; exact absurd this (by decide)

theorem putString_opt (buf : Bytes) {size : Int} (s : Option Bytes) (h0 : 0 ≤ size) (h1 : size ≤ buf.length) :
    putString buf size s = some (shownOpt buf size.toNat s) := by
  cases s with
  | none => rfl
  | some s => exact putString_some buf s h0 h1

theorem field_val (s : Option Bytes) : (field s).val = shown s := by
  unfold field
  cases shown s <;> rfl

/-- C58.  In a file reached by any calls, paired data (doubles) with labels, units, types and time zone of characters
1 to 127 are stored, over no record or over any other; and whatever is called next about other records, their sizes are
told, and they are read into the memory of the caller: all numbers, and of each string and of the labels as much as there
is room for.  No other part of the memory and no other record changes.  Missing: strings that are not given, or that need
more than the 398 bytes of the header (see C51 and the violations). -/
theorem C58_paired_partial (g : GoodSizes hdrSize maxHash binSize) {past : List Op} {s : Eng}
    (hs : Reachable (create hdrSize maxHash binSize mul).1 (create hdrSize maxHash binSize mul).2 past s) {e : PdEnv} (he : PdArrays e) (w : WriteEnv)
    {ps : List Bytes} (k : Nat) (hp : SixParts ps) {n m : Nat} {ords vals : List UInt64} (hn : 1 ≤ n ∧ n < 2 ^ 31) (hm : 1 ≤ m ∧ m < 2 ^ 31)
    (ho : ords.length = n) (hv : vals.length = m * n) {ui ti ud td zone : Bytes}
    (hstr : ∀ x ∈ [ui, ti, ud, td, zone], Ascii x) (hcells : (([ui, ti, ud, td, zone].map some).map cells).sum < 398)
    {labels : Option Bytes} {labelsLength : Int} {ls : List Bytes} (hlab : Points labels labelsLength (flat ls)) (hls : ∀ l ∈ ls, ∀ b ∈ l, b ≠ 0)
    (hlab0 : 0 ≤ labelsLength)
    (hmay : MayReplace (create hdrSize maxHash binSize mul).1 past s (join ps) 205 0) :
    ∃ s' more, hecPdStore (create hdrSize maxHash binSize mul).1 s e w (join ps ++ List.replicate k 32) ords vals n m (some ui) (some ti) (some ud) (some td)
        labels labelsLength (some zone) = some (s', .ok) ∧
      Reachable (create hdrSize maxHash binSize mul).1 (create hdrSize maxHash binSize mul).2 (past ++ more) s' ∧
      (∀ q, q.length ≤ 392 → ¬ sameUpToCase (join ps) q →
        zread (create hdrSize maxHash binSize mul).1 s' q = zread (create hdrSize maxHash binSize mul).1 s q) ∧
      ∀ ops s'', Later (create hdrSize maxHash binSize mul).1 (past ++ more) s' (join ps) ops s'' →
        ∀ qs j, SixParts qs → sameUpToCase (join ps) (join qs) → ∀ ca : Bytes, ca.length = 400 →
          hecPdInfo (create hdrSize maxHash binSize mul).1 s'' e.conv ca (join qs ++ List.replicate j 32) = some (some ((n : Int), (m : Int), (flat (ls.take m)).length)) ∧
          ∀ (b : PdBuffers) (l : PdLengths), PdRoom b l n m →
            hecPdRetrieve (create hdrSize maxHash binSize mul).1 s'' e.conv ca (join qs ++ List.replicate j 32) b l =
              some (.ok, ⟨written b.ords ords, written b.vals vals, n, m, shownOpt b.unitsI l.unitsI.toNat (shown (some ui)),
                shownOpt b.typeI l.typeI.toNat (shown (some ti)), shownOpt b.unitsD l.unitsD.toNat (shown (some ud)),
                shownOpt b.typeD l.typeD.toNat (shown (some td)), written b.labels ((flat (ls.take m)).take l.labels.toNat),
                shownOpt b.zone l.zone.toNat (shown (some zone))⟩) := by
  have hui := hstr ui (by simp)
  have hti := hstr ti (by simp)
  have hud := hstr ud (by simp)
  have htd := hstr td (by simp)
  have hzo := hstr zone (by simp)
  generalize hP : (⟨mallocAndCopyPath (join ps ++ List.replicate k 32), some (.doubles ords vals), (n : Int), (m : Int), 1, -1, -1,
    [some (mallocAndCopy ui), some (mallocAndCopy ti), some (mallocAndCopy ud), some (mallocAndCopy td), some (mallocAndCopy zone)], labels,
    if labels.isSome then labelsLength else 0, [], 0, 0, 0, 0⟩ : PdIn) = P
  have hll : Points labels (if labels.isSome then labelsLength else 0) (flat ls) := by
    rcases hlab with ⟨h1, h2⟩ | ⟨h1, h2, rest, h3, h4⟩
    · split
      · exact Or.inl ⟨h1, h2⟩
      · exact Or.inl ⟨by omega, h2⟩
    · rw [if_pos (by rw [h3]; rfl)]; exact Or.inr ⟨h1, h2, rest, h3, h4⟩
  have hpaired : Paired P (.doubles ords vals) n m ls := by
    rw [← hP]
    refine ⟨rfl, ⟨ho, hv⟩, ⟨rfl, hn⟩, ⟨rfl, hm⟩, by simp [IsInt], Or.inl (by simp), ⟨rfl, ?_, ?_⟩, hll, hls⟩
    · intro x hx
      simp only [List.mem_cons, List.not_mem_nil, or_false] at hx
      rcases hx with rfl | rfl | rfl | rfl | rfl
      · exact copy_noZero hui
      · exact copy_noZero hti
      · exact copy_noZero hud
      · exact copy_noZero htd
      · exact copy_noZero hzo
    · simp only [List.map_cons, List.map_nil, cells_copy hui, cells_copy hti, cells_copy hud, cells_copy htd, cells_copy hzo]
      exact hcells
  obtain ⟨s', more, k1, k2, k3, k4⟩ := C54_whole_partial g hs he w 2 hpaired (by rw [← hP]; exact Or.inl ⟨rfl, rfl, rfl, rfl⟩) hp (k := 0) (by rw [← hP]; exact name0 hp k)
    (by rw [← hP]; simpa [wideFor, headerOdd] using hmay)
  refine ⟨s', more, ?_, k2, k3, fun ops s'' hlt qs j hqs hq ca hca => ?_⟩
  · unfold hecPdStore pdApiStrings
    simp only [Option.isSome_some, if_true, Option.map_some, Option.bind_some]
    rw [if_neg, if_neg]
    · show Option.map _ (zpdStore _ s e w 2 ⟨_, _, _, _, _, _, _, [some (mallocAndCopy ui), some (mallocAndCopy ti), some (mallocAndCopy ud), some (mallocAndCopy td), some (mallocAndCopy zone)], _, _, _, _, _, _, _⟩) = _
      rw [hP, k1]; rfl
    · rw [ho, hv]; simp
    · rintro ⟨h1, h2⟩
      rcases hlab with ⟨h3, h4⟩ | ⟨h3, h4, rest, h5, h6⟩
      · omega
      · rw [h5] at h2
        simp at h2; omega
  · obtain ⟨uh, _, h⟩ := k4 ops s'' hlt qs 0 hqs hq
    obtain ⟨h, _⟩ := h ca ⟨join qs ++ List.replicate 0 32, 0, 0, 0, 0, 2⟩ hca rfl (Or.inr (Or.inr rfl))
    have h := h rfl rfl rfl rfl
    have hk : kept e.conv 2 (.doubles ords vals) = .doubles ords vals := rfl
    have hk2 : asType e.conv (wideOut 2 (.doubles ords vals)) (.doubles ords vals) = .doubles ords vals := rfl
    rw [hk, hk2] at h
    have hstr : (readBack P 2 (.doubles ords vals) (flat (ls.take m)) uh n m (.doubles ords vals)) =
        ⟨205, n, m, 1, -1, -1, [field (some ui), field (some ti), field (some ud), field (some td), field (some zone)], flat (ls.take m), uh, n, m, .doubles ords vals⟩ := by
      rw [← hP]
      unfold readBack
      simp only [List.map_cons, List.map_nil]
      have f : ∀ x, Ascii x → field (some (mallocAndCopy x)) = field (some x) := by
        intro x hx; unfold field; rw [shown_copy hx]
      rw [f _ hui, f _ hti, f _ hud, f _ htd, f _ hzo]
      rfl
    rw [hstr] at h
    refine ⟨?_, fun b l room => ?_⟩
    · unfold hecPdInfo
      rw [name0 hqs j, h]; rfl
    · unfold hecPdRetrieve
      rw [name0 hqs j, h, Option.bind_some]
      have r1 := room.strings (b.unitsI, l.unitsI) (by simp)
      have r2 := room.strings (b.typeI, l.typeI) (by simp)
      have r3 := room.strings (b.unitsD, l.unitsD) (by simp)
      have r4 := room.strings (b.typeD, l.typeD) (by simp)
      have r5 := room.strings (b.labels, l.labels) (by simp)
      have r6 := room.strings (b.zone, l.zone) (by simp)
      simp only at r1 r2 r3 r4 r5 r6 ⊢
      rw [if_neg (by rw [room.ords.1, room.vals.1]; simp)]
      simp only [List.map_cons, List.map_nil, field_val]
      have hlabels : (if (flat (ls.take m)).length > 0 then putLabels b.labels l.labels (flat (ls.take m)) else some b.labels) =
          some (written b.labels ((flat (ls.take m)).take l.labels.toNat)) := by
        split
        · exact putLabels_eq _ _ r5.1 r5.2
        · rename_i h0
          have : flat (ls.take m) = [] := by rw [← List.length_eq_zero_iff]; omega
          rw [this]; simp [written]
      rw [putString_opt _ _ r1.1 r1.2, Option.bind_some, putString_opt _ _ r3.1 r3.2, Option.bind_some, putString_opt _ _ r2.1 r2.2, Option.bind_some,
        putString_opt _ _ r4.1 r4.2, Option.bind_some, putString_opt _ _ r6.1 r6.2, Option.bind_some, hlabels, Option.bind_some,
        room.ords.1, ← ho, copyArray_all _ _ (by rw [ho]; exact room.ords.2), Option.bind_some, room.vals.1, ← ho.symm, ← hv, copyArray_all _ _ (by rw [hv]; exact room.vals.2)]
      rfl

theorem stringCopyAt_within {buf b : Bytes} {size : Nat} {s : Bytes} {n : Nat} (hn : n = s.length) (h : stringCopyAt buf 0 size s n = some b) : KeepsBehind size buf b := by
  subst hn
  have hle : size ≤ buf.length := by
    unfold stringCopyAt at h
    rw [if_pos (by omega)] at h
    split at h
    · omega
    · cases h
  have := putString_some buf (size := size) s (by omega) (by omega)
  unfold putString at this
  simp only at this
  rw [this] at h
  injection h with h
  subst h
  unfold shownIn
  split
  · exact ⟨rfl, rfl⟩
  · have hl : (List.take ((size : Int).toNat - 1) s ++ [0]).length ≤ size := by simp; omega
    refine ⟨written_length _ _ (by omega), ?_⟩
    unfold written
    rw [List.drop_append, List.drop_eq_nil_of_le hl, List.nil_append, List.drop_drop]
    congr 1; omega

theorem putString_within {buf b : Bytes} {size : Int} {s : Option Bytes} (h0 : 0 ≤ size) (h : putString buf size s = some b) : KeepsBehind size.toNat buf b := by
  cases s with
  | none => injection h with h; subst h; exact ⟨rfl, rfl⟩
  | some s =>
    unfold putString at h
    rw [show size = ((size.toNat : Nat) : Int) by omega] at h
    exact stringCopyAt_within rfl h

theorem copyArray_keeps {α : Type} {dst src m : List α} {size : Int} (h : copyArray dst size src = some m) : KeepsBehind size.toNat dst m := by
  unfold copyArray at h
  split at h
  · injection h with h; subst h; exact ⟨rfl, rfl⟩
  · simp only at h
    split at h
    · rename_i hle
      injection h with h; subst h
      have hl : (src.take (min src.length size.toNat)).length = min src.length size.toNat := by simp
      refine ⟨by rw [List.length_append, hl]; simp; omega, ?_⟩
      rw [List.drop_append, hl, List.drop_eq_nil_of_le (by omega), List.nil_append, List.drop_drop]
      congr 1; omega
    · cases h

theorem putLabels_within {buf b : Bytes} {size : Int} {l : Bytes} (h0 : 0 ≤ size) (h : putLabels buf size l = some b) : KeepsBehind size.toNat buf b := by
  unfold putLabels at h
  simp only at h
  generalize hn : (if (l.length : Int) > size then size.toNat else l.length) = n at h
  split at h
  · rename_i hle
    injection h with h; subst h
    have hn2 : n ≤ size.toNat ∧ n ≤ l.length := by rw [← hn]; split <;> omega
    have hl : (l.take n).length = n := by simp; omega
    refine ⟨by rw [List.length_append, hl]; simp; omega, ?_⟩
    rw [List.drop_append, hl, List.drop_eq_nil_of_le (by omega), List.nil_append, List.drop_drop]
    congr 1; omega
  · cases h

/-- C58.  Whatever is in the file, reading paired data writes nothing behind the lengths the caller gives. -/
theorem C58_within (c : Cfg) (s : Eng) (k : Conv) (ca path : Bytes) (b : PdBuffers) (l : PdLengths)
    (hl : ∀ n ∈ [l.unitsI, l.typeI, l.unitsD, l.typeD, l.labels, l.zone], 0 ≤ n) {st : Api} {b' : PdBuffers}
    (h : hecPdRetrieve c s k ca path b l = some (st, b')) :
    KeepsBehind l.ords.toNat b.ords b'.ords ∧ KeepsBehind l.vals.toNat b.vals b'.vals ∧ KeepsBehind l.unitsI.toNat b.unitsI b'.unitsI ∧
      KeepsBehind l.typeI.toNat b.typeI b'.typeI ∧ KeepsBehind l.unitsD.toNat b.unitsD b'.unitsD ∧ KeepsBehind l.typeD.toNat b.typeD b'.typeD ∧
      KeepsBehind l.labels.toNat b.labels b'.labels ∧ KeepsBehind l.zone.toNat b.zone b'.zone := by
  simp only [List.mem_cons, List.not_mem_nil, or_false, forall_eq_or_imp, forall_eq] at hl
  obtain ⟨l1, l2, l3, l4, l5, l6⟩ := hl
  unfold hecPdRetrieve at h
  obtain ⟨r, _, h⟩ := Option.bind_eq_some_iff.mp h
  have same : b' = b → KeepsBehind l.ords.toNat b.ords b'.ords ∧ KeepsBehind l.vals.toNat b.vals b'.vals ∧ KeepsBehind l.unitsI.toNat b.unitsI b'.unitsI ∧
      KeepsBehind l.typeI.toNat b.typeI b'.typeI ∧ KeepsBehind l.unitsD.toNat b.unitsD b'.unitsD ∧ KeepsBehind l.typeD.toNat b.typeD b'.typeD ∧
      KeepsBehind l.labels.toNat b.labels b'.labels ∧ KeepsBehind l.zone.toNat b.zone b'.zone := fun hb => by
    rw [hb]
    exact ⟨⟨rfl, rfl⟩, ⟨rfl, rfl⟩, ⟨rfl, rfl⟩, ⟨rfl, rfl⟩, ⟨rfl, rfl⟩, ⟨rfl, rfl⟩, ⟨rfl, rfl⟩, ⟨rfl, rfl⟩⟩
  split at h
  · rename_i o
    split at h
    · simp only [Option.some.injEq, Prod.mk.injEq] at h; exact same h.2.symm
    · split at h
      · obtain ⟨ui, e1, h⟩ := Option.bind_eq_some_iff.mp h
        obtain ⟨ud, e2, h⟩ := Option.bind_eq_some_iff.mp h
        obtain ⟨ti, e3, h⟩ := Option.bind_eq_some_iff.mp h
        obtain ⟨td, e4, h⟩ := Option.bind_eq_some_iff.mp h
        obtain ⟨z, e5, h⟩ := Option.bind_eq_some_iff.mp h
        obtain ⟨lb, e6, h⟩ := Option.bind_eq_some_iff.mp h
        obtain ⟨ds, e7, h⟩ := Option.bind_eq_some_iff.mp h
        obtain ⟨dv, e8, h⟩ := Option.map_eq_some_iff.mp h
        simp only [Prod.mk.injEq] at h
        rw [← h.2]
        refine ⟨copyArray_keeps e7, copyArray_keeps e8, putString_within l1 e1, putString_within l2 e3, putString_within l3 e2, putString_within l4 e4, ?_, putString_within l6 e5⟩
        split at e6
        · exact putLabels_within l5 e6
        · simp only [Option.some.injEq] at e6; rw [← e6]; exact ⟨rfl, rfl⟩
      · cases h
  · simp only [Option.some.injEq, Prod.mk.injEq] at h; exact same h.2.symm

/-- C58.  If the lengths given are not those of the data, this is reported and nothing is written. -/
theorem C58_lengths (c : Cfg) (s : Eng) (k : Conv) (ca path : Bytes) (b : PdBuffers) (l : PdLengths) {n m : Int} {len : Nat}
    (hi : hecPdInfo c s k ca path = some (some (n, m, len))) (h : l.ords ≠ n ∨ l.vals ≠ m * n) :
    hecPdRetrieve c s k ca path b l = some (.badLength, b) := by
  unfold hecPdInfo at hi
  obtain ⟨r, h1, hi⟩ := Option.map_eq_some_iff.mp hi
  unfold hecPdRetrieve
  rw [h1, Option.bind_some]
  split at hi
  · rename_i o
    simp only [Option.some.injEq, Prod.mk.injEq] at hi
    rw [if_pos (by
      rcases h with h | h
      · exact Or.inl (by rw [hi.1]; exact fun x => h x.symm)
      · exact Or.inr (by rw [hi.1, hi.2.1]; exact fun x => h x.symm))]
  · cases hi

/-! ### Cases -/

def someRoom : PdBuffers := ⟨[9, 9, 9, 9], [9, 9, 9, 9, 9, 9], 0, 0, List.replicate 4 7, List.replicate 4 7, List.replicate 2 7, List.replicate 4 7, List.replicate 7 7, List.replicate 6 7⟩
def someLengths : PdLengths := ⟨3, 6, 4, 4, 2, 0, 7, 6⟩

/-- The conditions of C58_paired_partial are met in a new file. -/
example : ∃ s', hecPdStore tiny.1 tiny.2 aPdEnv anEnv (nA ++ [32]) [1, 2, 3] [10, 20, 30, 11, 21, 31] 3 2 (some [70, 84, 32]) (some []) (some [67, 70, 83]) (some [65])
      (some [72, 73, 0, 76, 79, 0]) 6 (some [85, 84, 67]) = some (s', .ok) ∧
    hecPdInfo tiny.1 s' someConv (List.replicate 400 1) na = some (some (3, 2, 6)) ∧
    hecPdRetrieve tiny.1 s' someConv (List.replicate 400 1) na someRoom someLengths =
      some (.ok, ⟨[1, 2, 3, 9], [10, 20, 30, 11, 21, 31], 3, 2, [70, 84, 0, 7], [7, 7, 7, 7], [67, 0], [7, 7, 7, 7], [72, 73, 0, 76, 79, 0, 7], [85, 84, 67, 0, 7, 7]⟩) := by
  have hp : SixParts [[65], [], [], [], [], []] := ⟨rfl, by simp [_root_.Spec.IsPart]⟩
  have hq : SixParts [[97], [], [], [], [], []] := ⟨rfl, by simp [_root_.Spec.IsPart]⟩
  have hz : zread tiny.1 tiny.2 (join [[65], [], [], [], [], []]) = some none := by decide +kernel
  obtain ⟨s', more, h1, _, _, h3⟩ := C58_paired_partial (mul := id) tiny_good (past := []) (s := tiny.2) ⟨trivial, [], rfl⟩ (e := aPdEnv)
    ⟨List.length_replicate, List.length_replicate, List.length_replicate⟩ anEnv 1 hp (n := 3) (m := 2) (ords := [1, 2, 3]) (vals := [10, 20, 30, 11, 21, 31])
    (by decide) (by decide) rfl rfl (ui := [70, 84, 32]) (ti := []) (ud := [67, 70, 83]) (td := [65]) (zone := [85, 84, 67])
    (by unfold Ascii; decide) (by decide) (labels := some [72, 73, 0, 76, 79, 0]) (labelsLength := 6) (ls := [[72, 73], [76, 79]])
    (Or.inr ⟨by decide, by decide, [], rfl, rfl⟩) (by decide) (by decide)
    ⟨by decide, (fun R h => by rw [show (create 12 2 58 id) = tiny from rfl, hz] at h; cases h),
      (fun R h => by rw [show (create 12 2 58 id) = tiny from rfl, hz] at h; cases h), fun _ d hd => by simp at hd⟩
  obtain ⟨h4, h5⟩ := h3 [] s' ⟨trivial, ⟨[], rfl⟩, by simp⟩ _ 0 hq (by rw [same_iff]; decide) (List.replicate 400 1) List.length_replicate
  exact ⟨s', h1, h4, h5 someRoom someLengths ⟨by decide, by decide, by decide⟩⟩

/-- C58 fails: without units of the ordinates no other units and types are stored, and the call succeeds. -/
theorem C58_units_violation :
    ((hecPdStore tiny.1 tiny.2 aPdEnv anEnv nA [1] [10] 1 1 none (some [84]) (some [67, 70, 83]) (some [65]) none 0 (some [])).bind fun p =>
      (hecPdRetrieve tiny.1 p.1 someConv (List.replicate 400 1) nA ⟨[9], [9], 0, 0, [7, 7], [7, 7], [7, 7, 7, 7], [7, 7], [], [7, 7]⟩ ⟨1, 1, 2, 2, 4, 2, 0, 2⟩).map fun r => (p.2, r)) =
      some (.ok, (.ok, ⟨[1], [10], 1, 1, [7, 7], [7, 7], [7, 7, 7, 7], [7, 7], [], [7, 7]⟩)) := by decide +kernel

/-- C58 fails: without type of the ordinates, or without time zone, a null pointer is read. -/
theorem C58_null_violation :
    hecPdStore tiny.1 tiny.2 aPdEnv anEnv nA [1] [10] 1 1 (some [70, 84]) none (some [67, 70, 83]) (some [65]) none 0 (some []) = none ∧
    hecPdStore tiny.1 tiny.2 aPdEnv anEnv nA [1] [10] 1 1 (some [70, 84]) (some [84]) (some [67, 70, 83]) (some [65]) none 0 none = none := by decide +kernel

end Hec
