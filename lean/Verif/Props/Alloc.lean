import Verif.Proofs.Alloc
/-! C25: space is never handed out twice. -/
namespace Hec
open _root_.Spec (inPiece apart AOp Ledger aStep aRun noReleaseAfterMiss IsTable)

/-- C25 (partial: histories without a release just after a search that found nothing). After any
history of requests on a new file: no two pieces held share a word; the pieces held are inside the
file and outside the header; no piece held shares a word with a reclaim table, or with an entry of one;
entries and tables are inside the file; and the header's words were not written as a table.
`fuel` bounds the loop over tables. -/
theorem C25_alloc_partial (fuel base : Nat) (hdr : Seg) (ops : List AOp) (hb : 0 < base)
    (hg : noReleaseAfterMiss fuel ⟨newAllocFile base hdr, []⟩ ops) :
    let s := aRun fuel ⟨newAllocFile base hdr, []⟩ ops
    s.held.Pairwise apart ∧
    (∀ r ∈ s.held, apart (0, base) r ∧ ∀ w, inPiece r w → w < s.file.fileSize) ∧
    (∀ t, IsTable s.file t →
      (∀ w, inPiece (t, s.file.segSize) w → base ≤ w ∧ w < s.file.fileSize ∧ ∀ r ∈ s.held, ¬ inPiece r w) ∧
      (∀ e ∈ (s.file.mem t).slots, ∀ w, inPiece (e.2, e.1) w →
        base ≤ w ∧ w < s.file.fileSize ∧ (∀ r ∈ s.held, ¬ inPiece r w) ∧
        ∀ t', IsTable s.file t' → ¬ inPiece (t', s.file.segSize) w)) ∧
    s.file.mem 0 = hdr := by
  obtain ⟨segs, h, h0⟩ := aRun_inv fuel base ops ⟨newAllocFile base hdr, []⟩ [base] (newAllocFile_inv base hdr hb) hg
  have hm0 : (newAllocFile base hdr).mem 0 = hdr := if_neg (by omega)
  generalize aRun fuel ⟨newAllocFile base hdr, []⟩ ops = s at h h0
  have hc := h.cover
  have hc1 : ∀ w, cov ((0, base) :: s.held) w ≤ 1 := fun w => by have := hc w; split at this <;> omega
  have hlt : ∀ w, 0 < cov ((0, base) :: s.held) w + chainCov s.file.segSize s.file.mem segs w → w < s.file.fileSize := by
    intro w hw
    have := hc w
    split at this
    · assumption
    · omega
  have hpw := cov_pairwise hc1
  have hbase : ∀ w, w < base → cov ((0, base) :: s.held) w ≥ 1 := fun w hw => by
    rw [cov_cons, cnt_one ⟨Nat.zero_le _, by simpa using hw⟩]; omega
  have hheld : ∀ w r, r ∈ s.held → inPiece r w → cov ((0, base) :: s.held) w ≥ 1 := fun w r hr hw => by
    have := cov_mem (List.mem_cons_of_mem (0, base) hr) w
    rw [cnt_one hw] at this; exact this
  have hsum : ∀ w, cov ((0, base) :: s.held) w + chainCov s.file.segSize s.file.mem segs w ≤ 1 := fun w => by
    have := hc w; split at this <;> omega
  refine ⟨(List.pairwise_cons.mp hpw).2, fun r hr => ⟨(List.pairwise_cons.mp hpw).1 r hr, fun w hw => hlt w ?_⟩,
    fun t ht => ⟨fun w hw => ?_, fun e he w hw => ?_⟩, h0.trans hm0⟩
  · have := hheld w r hr hw; omega
  · have c1 := chain_mem (n := s.file.segSize) (m := s.file.mem) w (isTable_mem h ht)
    rw [cnt_one hw] at c1
    have c2 := hsum w
    refine ⟨?_, hlt w (by omega), fun r hr hx => ?_⟩
    · apply Nat.le_of_not_lt; intro hx; have := hbase w hx; omega
    · have := hheld w r hr hx; omega
  · have c1 := chain_mem (n := s.file.segSize) (m := s.file.mem) w (isTable_mem h ht)
    have c3 := covS_mem he w
    rw [cnt_one hw] at c3
    have c2 := hsum w
    refine ⟨?_, hlt w (by omega), fun r hr hx => ?_, fun t' ht' hx => ?_⟩
    · apply Nat.le_of_not_lt; intro hx; have := hbase w hx; omega
    · have := hheld w r hr hx; omega
    · by_cases htt : t' = t
      · subst htt; rw [cnt_one hx] at c1; omega
      · obtain ⟨p, q, hpq⟩ := List.append_of_mem (isTable_mem h ht)
        have hm' := isTable_mem h ht'
        rw [hpq, List.mem_append, List.mem_cons] at hm'
        rw [hpq, chainCov_append, chainCov_cons] at c2
        rcases hm' with hm' | hm' | hm'
        · have := chain_mem (n := s.file.segSize) (m := s.file.mem) w hm'; rw [cnt_one hx] at this; omega
        · exact htt hm'
        · have := chain_mem (n := s.file.segSize) (m := s.file.mem) w hm'; rw [cnt_one hx] at this; omega

/-- C25, reuse: when reclamation is on and some table has an entry of at least the size asked for, the
request does not make the file larger, for every bound on the loop that is large enough. -/
theorem C25_reuse (fuel base : Nat) (hdr : Seg) (ops : List AOp) (n : Nat) (hb : 0 < base) (hn : 0 < n)
    (hg : noReleaseAfterMiss fuel ⟨newAllocFile base hdr, []⟩ ops) :
    let f := (aRun fuel ⟨newAllocFile base hdr, []⟩ ops).file
    1 < f.level → f.minSize ≤ n → n ≤ f.maxAvail →
    (∃ t, IsTable f t ∧ ∃ e ∈ (f.mem t).slots, n ≤ e.1) →
    ∃ bound, ∀ fuel' ≥ bound, (zgetFileSpace fuel' f n true).1.fileSize = f.fileSize := by
  obtain ⟨segs, h, h0⟩ := aRun_inv fuel base ops ⟨newAllocFile base hdr, []⟩ [base] (newAllocFile_inv base hdr hb) hg
  generalize aRun fuel ⟨newAllocFile base hdr, []⟩ ops = s at h h0
  intro f hl h1 h2 ⟨t, ht, he⟩
  refine ⟨segs.length, fun fuel' hf => ?_⟩
  obtain ⟨j, hj, hjt⟩ := List.mem_iff_getElem.mp (isTable_mem h ht)
  have := searchTables_found n base hn hb fuel' f 0 h (by omega) (by omega)
    ⟨j, t, Nat.zero_le _, by rw [List.getElem?_eq_getElem hj, hjt], he⟩
  unfold zgetFileSpace
  rw [if_pos ⟨rfl, hl, h1, h2⟩]
  rcases hs : searchTables n fuel' f 0 with ⟨f1, a⟩
  rw [hs] at this
  simp only at this ⊢
  rw [if_neg this.1]
  exact this.2

/-- A header with an unused pair of words. -/
def sampleHeader : Seg := ⟨[(1, 2), (0, 0)], 7⟩

/-- A history that takes, gives back and takes again from reclaimed space. -/
def sampleOps : List AOp := [.level 3, .get 400 true, .get 150 true, .release 1 400, .get 200 true, .get 180 true]

/-- Non-vacuity: `sampleOps` meets the guard, and its last two requests were served out of the space
that was given back (words 3002 to 3401), leaving nothing of it. -/
example : noReleaseAfterMiss 30 ⟨newAllocFile 2000 sampleHeader, []⟩ sampleOps ∧
    (aRun 30 ⟨newAllocFile 2000 sampleHeader, []⟩ sampleOps).held =
      [(3202, 180), (3002, 200), (3402, 150), (3402, 0)] := by
  unfold sampleOps
  simp only [noReleaseAfterMiss]
  decide +kernel

/-- C25 fails without the guard: after a request that no reclaimed space fits, the next space given back
is put in the first words of the file, over the header. -/
theorem C25_header_violation :
    ∃ ops : List AOp, (aRun 30 ⟨newAllocFile 2000 sampleHeader, []⟩ ops).file.mem 0 ≠ sampleHeader :=
  ⟨[.level 3, .get 300 true, .get 200 true, .release 1 300, .get 250 true, .get 250 true, .release 2 200],
    by decide +kernel⟩

/-- C25 fails at the caller zwriteExisting: a record with no headers, 35 words of information and 400
32-bit values (200 words), expanded, gives back 435 words although it holds 235, and the piece that
follows it is handed out a second time. -/
theorem C25_expand_violation :
    ∃ held next got : Nat × Nat, ∃ amount : Nat,
      let f0 := { newAllocFile 2000 sampleHeader with level := 3 }
      let g1 := zgetFileSpace 30 f0 235 true
      let g2 := zgetFileSpace 30 g1.1 200 true
      held = (g1.2, 235) ∧ next = (g2.2, 200) ∧
      expandRelease g1.2 35 0 0 0 400 (g1.2 + 35) = some amount ∧
      got = ((zgetFileSpace 30 (zreleaseFileSpace 30 g2.1 g1.2 amount) 435 true).2, 435) ∧
      ¬ apart next got := by
  refine ⟨(3002, 235), (3237, 200), (3002, 435), 435, by decide +kernel, by decide +kernel, by decide +kernel,
    by decide +kernel, fun h => h 3300 ⟨⟨by decide, by decide⟩, by decide, by decide⟩⟩

/-- C25, loss: when every slot of the table in use is taken, a piece larger than the smallest entry
replaces the LAST entry, whatever its size: here 900 words are forgotten to remember 120. -/
theorem C25_full_table_loss :
    insertSlot (120, 5000) [(110, 3000), (900, 4000)] = some [(110, 3000), (120, 5000)] := by
  decide +kernel

end Hec
