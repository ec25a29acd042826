import Verif.Spec.RecordSize
import Verif.Props.CopyRecord
import Verif.Proofs.Open
import Verif.Props.CopyRecordCases
/-!
Property theorems for the description of a record: C91.
-/
namespace Hec
open _root_.Spec (create Op lastWritten Plain stored SixParts join OldMinute InUse SmallRec headerInt Describes DescribesBasics GoodSizes runs)
open Hec.Spec (sameUpToCase)

variable {c : Cfg} {s : Eng}

/-- A pathname of six parts is never the same as an address. -/
theorem pathname_address {p memory : Bytes} (h0 : ∀ b ∈ p, b ≠ 0) (hl : 7 ≤ p.length) (hm : memory[6]? = some 0) :
    zstringCompare p memory p.length = false := by
  have key : ∀ (n : Nat) (p memory : Bytes) (i : Nat), i < n → i < p.length → (∀ b ∈ p, b ≠ 0) → memory[i]? = some 0 → zstringCompare p memory n = false := by
    intro n
    induction n with
    | zero => intro p m i h; omega
    | succ n ih =>
      intro p m i hi hp h0 hm
      rcases p with _ | ⟨x, xs⟩
      · rfl
      rcases m with _ | ⟨y, ys⟩
      · rfl
      unfold zstringCompare
      split
      · rfl
      rename_i hx
      rcases i with _ | i
      · exfalso
        have hy : y = 0 := by simpa using hm
        subst hy
        have hx0 := h0 x List.mem_cons_self
        apply hx
        intro e
        apply hx0
        exact byte_all (P := fun x => toupper x = toupper 0 → x = 0) (by decide +kernel) x e
      · exact ih xs ys i (by omega) (by simpa using hp) (fun b hb => h0 b (List.mem_cons_of_mem _ hb)) (by simpa using hm)
  exact key p.length p memory 6 (by omega) (by omega) h0 hm

theorem six_size {ps : List Bytes} (h : SixParts ps) : 7 ≤ (join ps).length := by
  obtain ⟨ps0, ps1, ps2, ps3, ps4, ps5, rfl⟩ := six_list h
  unfold join
  simp
  omega

theorem header_start (d : Disk) (info : Nat → Nat) (i : Nat) (hi : i < 200) :
    (headerStart d info).getD i 0 = (getInts d (info kinfoInternalHeadAddress) (info kinfoInternalHeadNumber)).getD i 0 := by
  unfold headerStart
  simp only
  generalize info kinfoInternalHeadNumber = n
  generalize info kinfoInternalHeadAddress = a
  have hget : ∀ n i, i < n → (getInts d a n).getD i 0 = (getInts d a (i + 1)).getD i 0 := by
    intro n i hi
    unfold getInts
    simp only [List.getD_eq_getElem?_getD, List.getElem?_map, List.getElem?_range hi, List.getElem?_range (show i < i + 1 by omega)]
  by_cases h : n > 200
  · rw [if_pos h]
    simp only [Nat.sub_self, List.replicate_zero, List.append_nil]
    rw [hget 200 i hi, hget n i (by omega)]
  · rw [if_neg h]
    by_cases hn : i < n
    · rw [List.getD_eq_getElem?_getD, List.getElem?_append_left (by rw [getInts_length]; exact hn), ← List.getD_eq_getElem?_getD]
    · rw [List.getD_eq_getElem?_getD, List.getElem?_append_right (by rw [getInts_length]; omega), getInts_length,
        List.getElem?_replicate, if_pos (by omega), List.getD_eq_getElem?_getD, List.getElem?_eq_none (by rw [getInts_length]; omega)]
      rfl

theorem fill_describes (d : Disk) (info : Nat → Nat) (h : SmallRec (readArrays d info)) : Describes (readArrays d info) (fillSize d info) := by
  have l : ∀ a n, (getInts d a n).length = n := getInts_length d
  have h1 := h.ih; have h2 := h.h2; have h3 := h.uh; have h4 := h.v1; have h5 := h.v2; have h6 := h.v3
  simp only [readArrays, l] at h1 h2 h3 h4 h5 h6
  have f : ∀ i, i < 200 → toInt32 ((headerStart d info).getD i 0).toNat = headerInt (readArrays d info) i := by
    intro i hi
    rw [header_start d info i hi]
    rfl
  constructor
  · rfl
  · rfl
  · exact toInt32_small h.values
  · exact toInt32_small h.logical
  · simp only [readArrays, l]; exact toInt32_small h4
  · simp only [readArrays, l]; exact toInt32_small h5
  · simp only [readArrays, l]; exact toInt32_small h6
  · simp only [readArrays, l]; exact toInt32_small h1
  · simp only [readArrays, l]; exact toInt32_small h2
  · simp only [readArrays, l]; exact toInt32_small h3
  · rfl
  · intro a b
    unfold fillSize at a b ⊢
    simp only at a b ⊢
    rw [if_pos ⟨a, b⟩, f 1 (by omega), f 2 (by omega), f 3 (by omega), f 4 (by omega), f 5 (by omega), f 7 (by omega), f 8 (by omega),
      f 9 (by omega), f 11 (by omega), f 12 (by omega), f 14 (by omega), f 15 (by omega), f 16 (by omega)]
  · intro a b
    unfold fillSize at a b ⊢
    simp only at a b ⊢
    rw [if_pos ⟨by omega, a, b⟩, f 0 (by omega), f 1 (by omega), f 2 (by omega), f 3 (by omega), f 4 (by omega)]

theorem fill_basics (d : Disk) (info : Nat → Nat) (h : SmallRec (readArrays d info)) : DescribesBasics (readArrays d info) (fillBasics info) := by
  have D := fill_describes d info h
  exact ⟨D.dataType, D.version, D.values, D.logical, D.v1, D.v2, D.v3, D.ih, D.h2, D.uh, D.time⟩

/-- C91.  For a record of a file in use, `zgetRecordSize`, `zgetRecordBasics` and `zgetLastWriteTimeRec` describe exactly the
record that `zread` returns, whatever record was looked up before (`old`), as long as the file has less than 2^48 words (the
seventh byte of an address is then 0). -/
theorem C91_described_partial {past : List Op} (hu : InUse c past s) {ps : List Bytes} (hps : SixParts ps) (hl : (join ps).length ≤ 392)
    (hold : ∀ e, ps[4]? = some e → ¬ OldMinute e) {R : Rec} (hz : zread c s (join ps) = some (some R)) (hR : SmallRec R)
    {memory : Bytes} (hm : memory[6]? = some 0) (old : Nat → Nat) :
    (∃ z, zgetRecordSize c s memory old (join ps) = some (some z) ∧ Describes R z) ∧
      (∃ z, zgetRecordBasics c s memory old (join ps) = some (some z) ∧ DescribesBasics R z) ∧
      zgetLastWriteTimeRec c s (join ps) = some R.lastWrite := by
  obtain ⟨hc, G, H, _⟩ := in_use hu
  obtain ⟨k, info, h1, h2⟩ := source_info hc H.inv hps hl hold hz
  obtain ⟨k', info', _, _, g3, g4, _⟩ := found_info hc H.inv hl hz
  have hi : zreadInfoName c s (join ps) = some ((k', join ps), some info') := by
    rw [zreadInfoName_plain (not_old hps hold), g3]; rfl
  have hn := pathname_address (memory := memory) (part_zero hps.2) (six_size hps) hm
  subst g4
  refine ⟨⟨fillSize s.disk info', ?_, fill_describes s.disk info' hR⟩, ⟨fillBasics info', ?_, fill_basics s.disk info' hR⟩, ?_⟩
  · unfold zgetRecordSize
    rw [hn, hi]
    rfl
  · unfold zgetRecordBasics
    rw [hn, hi]
    rfl
  · unfold zgetLastWriteTimeRec
    rw [hi]
    rfl

/-- C91.  For a pathname without a record they say so; the time is then 0. -/
theorem C91_missing_partial {past : List Op} (hu : InUse c past s) {ps : List Bytes} (hps : SixParts ps) (hl : (join ps).length ≤ 392)
    (hold : ∀ e, ps[4]? = some e → ¬ OldMinute e) (hz : zread c s (join ps) = some none)
    {memory : Bytes} (hm : memory[6]? = some 0) (old : Nat → Nat) :
    zgetRecordSize c s memory old (join ps) = some none ∧ zgetRecordBasics c s memory old (join ps) = some none ∧
      zgetLastWriteTimeRec c s (join ps) = some 0 := by
  obtain ⟨hc, G, H, _⟩ := in_use hu
  obtain ⟨x, hx⟩ := no_info hc H.inv hps hl hold hz
  have hn := pathname_address (memory := memory) (part_zero hps.2) (six_size hps) hm
  refine ⟨?_, ?_, ?_⟩
  · unfold zgetRecordSize
    rw [hn, hx]
    rfl
  · unfold zgetRecordBasics
    rw [hn, hx]
    rfl
  · unfold zgetLastWriteTimeRec
    rw [hx]
    rfl

/-- C91.  After any plain history they describe the record of the last write under the pathname. -/
theorem C91_last_write_partial {hdrSize maxHash binSize : Nat} {mul : Nat → Nat} (g : GoodSizes hdrSize maxHash binSize) (ops : List Op) (hp : Plain [] ops) :
    ∃ s ress, runs (create hdrSize maxHash binSize mul).1 (create hdrSize maxHash binSize mul).2 ops = some (s, ress) ∧
      ∀ ps, SixParts ps → (join ps).length ≤ 392 → (∀ e, ps[4]? = some e → ¬ OldMinute e) → ∀ R, lastWritten (join ps) ops = some R → SmallRec R →
      ∀ (memory : Bytes) (old : Nat → Nat), memory[6]? = some 0 →
      (∃ z, zgetRecordSize (create hdrSize maxHash binSize mul).1 s memory old (join ps) = some (some z) ∧ Describes R z) ∧
      (∃ z, zgetRecordBasics (create hdrSize maxHash binSize mul).1 s memory old (join ps) = some (some z) ∧ DescribesBasics R z) ∧
      zgetLastWriteTimeRec (create hdrSize maxHash binSize mul).1 s (join ps) = some R.lastWrite := by
  obtain ⟨s, ress, h1, h2⟩ := C27_last_write_partial (mul := mul) g ops hp
  have hU := in_use_reachable (mul := mul) g ⟨plain_allowed (create_OK g) ops hp, ress, h1⟩
  refine ⟨s, ress, h1, fun ps hps hl hold R hR hs memory old hm => ?_⟩
  exact C91_described_partial hU hps hl hold (by rw [h2 _ hl, hR]) hs hm old

/-- C91, failing part: an empty pathname is found to be the one looked up last, and gets the description left in memory. -/
theorem C91_empty_violation (c : Cfg) (s : Eng) (memory : Bytes) (old : Nat → Nat) :
    zgetRecordSize c s memory old [] = some (some (fillSize s.disk old)) := rfl

/-- A file, one of its records, and what is said about it. -/
example : ∃ s, InUse tiny.1 full s ∧ zread tiny.1 s nA = some (some (stored (req na [1, 2] [] [9, 10, 11, 12]) 2)) ∧
    SmallRec (stored (req na [1, 2] [] [9, 10, 11, 12]) 2) ∧
    ∃ z, zgetRecordSize tiny.1 s (List.replicate 400 0) (fun _ => 0) nA = some (some z) ∧ z.values1Number = 4 ∧ z.internalHeaderNumber = 2 ∧ z.version = 2 := by
  obtain ⟨s, h⟩ := full_reachable
  obtain ⟨r1, _, _⟩ := full_reads h
  have hU := in_use_reachable (mul := id) tiny_good h
  have hs : SmallRec (stored (req na [1, 2] [] [9, 10, 11, 12]) 2) := by constructor <;> decide
  refine ⟨s, hU, r1, hs, ?_⟩
  obtain ⟨⟨z, hz, D⟩, _⟩ := C91_described_partial (ps := [[65], [], [], [], [], []]) hU (simple_names 65 66 (by decide) (by decide)).six (by decide) (simple_names 65 66 (by decide) (by decide)).old r1 hs (memory := List.replicate 400 0) (by decide) (fun _ => 0)
  exact ⟨z, hz, D.v1, D.ih, D.version⟩

end Hec
