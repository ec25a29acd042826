import Verif.Proofs.Pack
/-! C42: what is packed in the data area of a time series block is unpacked. -/
namespace Hec

/-- C42. Whatever the words, element sizes, numbers of elements and decisions to compress, any
window of the values, of the quality flags and of the notes packed in a block's data area is
unpacked to exactly those elements. -/
theorem C42_pack_roundtrip {W : Type} [DecidableEq W] [Inhabited W] (pol : PackPolicy)
    (times : List W) (vsz : Nat) (vals : List (List W)) (qsz : Nat) (quals : List (List W)) (nsz : Nat)
    (notes : List (List W)) (start stop : Nat)
    (hv0 : 0 < vsz) (hv : ∀ e ∈ vals, e.length = vsz)
    (hq : ∀ e ∈ quals, e.length = qsz) (hql : 0 < qsz → quals.length = vals.length)
    (hm : ∀ e ∈ notes, e.length = nsz) (hml : 0 < nsz → notes.length = vals.length)
    (h1 : start < stop) (h2 : stop ≤ vals.length) :
    let p := aggregate pol times vsz vals qsz quals nsz notes
    unpackValues p times.length start stop = (vals.drop start).take (stop - start) ∧
    (0 < qsz → unpackQuality p times.length vals.length start stop =
      (quals.drop start).take (stop - start)) ∧
    (0 < nsz → unpackNotes p times.length vals.length start stop =
      (notes.drop start).take (stop - start)) := by
  have hn : vals ≠ [] := by intro h; rw [h] at h2; simp at h2; omega
  obtain ⟨cv, cq, cn, ht, hd, hb, hq0, hn0, hh⟩ :=
    aggregate_shape pol times vsz vals qsz quals nsz notes hv hn hq hql hm hml
  generalize aggregate pol times vsz vals qsz quals nsz notes = p at *
  simp only at hd hb hh ⊢
  -- suffixes of the data area
  have pp : ∀ l : List W, l <+: padEven l := fun l => by
    obtain ⟨t, h⟩ := padEven_append l; exact ⟨t, h.symm⟩
  have t1 : ∃ t, p.data = times ++ areaWords (areaFlag cv vals) vals ++ t := by
    have s1 : ∀ d : List W, d <+: (if qsz > 0 then padEven (d ++ areaWords (areaFlag cq quals) quals) else d) := by
      intro d; split
      · exact List.IsPrefix.trans (List.prefix_append ..) (pp _)
      · exact List.prefix_rfl
    have s2 : ∀ d : List W, d <+: (if nsz > 0 then padEven (d ++ areaWords (areaFlag cn notes) notes) else d) := by
      intro d; split
      · exact List.IsPrefix.trans (List.prefix_append ..) (pp _)
      · exact List.prefix_rfl
    obtain ⟨t, h⟩ := (pp (times ++ areaWords (areaFlag cv vals) vals)).trans ((s1 _).trans (s2 _))
    exact ⟨t, by rw [hd]; exact h.symm⟩
  have l1 : (padEven (times ++ areaWords (areaFlag cv vals) vals)).length =
      alignPos (times.length + areaNumber (areaFlag cv vals) vsz vals) := by
    rw [padEven_length, List.length_append, areaWords_length cv vsz vals hv hn]
  refine ⟨?_, ?_, ?_⟩
  · obtain ⟨t, ht1⟩ := t1
    unfold unpackValues
    rw [ht1, hb, hh]
    simp only
    have := readArea_spec (areaFlag cv vals) vsz vals hv hv0 times t [] (areaBits (areaFlag cq quals) quals ++ areaBits (areaFlag cn notes) notes ++ ht)
      start stop h1 h2 (areaFlag_le ..) (areaFlag_two _ _)
    simpa [List.append_assoc] using this
  · intro hqp
    have hqn : quals ≠ [] := by
      intro h; rw [h] at hql; have := hql hqp; simp at this; omega
    have t2 : ∃ t, p.data = padEven (times ++ areaWords (areaFlag cv vals) vals) ++ areaWords (areaFlag cq quals) quals ++ t := by
      rw [hd, if_pos hqp]
      generalize padEven (times ++ areaWords (areaFlag cv vals) vals) = d1
      obtain ⟨b, hb⟩ := padEven_append (d1 ++ areaWords (areaFlag cq quals) quals)
      rw [hb]
      split
      · obtain ⟨c, hc⟩ := padEven_append (d1 ++ areaWords (areaFlag cq quals) quals ++ b ++ areaWords (areaFlag cn notes) notes)
        rw [hc]
        exact ⟨b ++ areaWords (areaFlag cn notes) notes ++ c, by simp [List.append_assoc]⟩
      · exact ⟨b, rfl⟩
    obtain ⟨t, ht2⟩ := t2
    have hpos : qualityPos p times.length = (padEven (times ++ areaWords (areaFlag cv vals) vals)).length := by
      rw [l1]; unfold qualityPos; rw [hh]
    have hbits : qualityBits p vals.length = (areaBits (areaFlag cv vals) vals).length := by
      unfold qualityBits; rw [hh, areaBits_length _ _ hn]
    unfold unpackQuality
    rw [hpos, hbits, ht2, hb, hh]
    simp only
    have := readArea_spec (areaFlag cq quals) qsz quals hq hqp (padEven (times ++ areaWords (areaFlag cv vals) vals)) t
      (areaBits (areaFlag cv vals) vals) (areaBits (areaFlag cn notes) notes ++ ht)
      start stop h1 (by rw [hql hqp]; exact h2) (areaFlag_le ..) (areaFlag_two _ _)
    simpa [List.append_assoc] using this
  · intro hnp
    have hmn : notes ≠ [] := by
      intro h; rw [h] at hml; have := hml hnp; simp at this; omega
    generalize hd1 : padEven (times ++ areaWords (areaFlag cv vals) vals) = d1 at *
    generalize hd2 : (if qsz > 0 then padEven (d1 ++ areaWords (areaFlag cq quals) quals) else d1) = d2 at *
    have t3 : ∃ t, p.data = d2 ++ areaWords (areaFlag cn notes) notes ++ t := by
      rw [hd, if_pos hnp]
      obtain ⟨c, hc⟩ := padEven_append (d2 ++ areaWords (areaFlag cn notes) notes)
      exact ⟨c, hc⟩
    obtain ⟨t, ht3⟩ := t3
    have hpos : notesPos p times.length = d2.length := by
      unfold notesPos qualityPos
      rw [hh]
      simp only
      rw [← l1, ← hd2]
      split
      · rename_i hqp
        have hqn : quals ≠ [] := by
          intro h; rw [h] at hql; have := hql hqp; simp at this; omega
        rw [padEven_length, List.length_append, areaWords_length cq qsz quals hq hqn]
      · have : d1.length % 2 = 0 := by rw [l1]; exact alignPos_even _
        unfold alignPos; rw [if_neg (by omega)]; rfl
    have hbits : notesBits p vals.length = (areaBits (areaFlag cv vals) vals ++ areaBits (areaFlag cq quals) quals).length := by
      unfold notesBits qualityBits
      rw [hh, List.length_append, areaBits_length _ _ hn]
      simp only
      congr 1
      rcases Nat.eq_zero_or_pos qsz with h0 | hqp
      · have : cq = false := by rcases hq0 with h | h; omega; exact h
        rw [this, areaFlag_false]; simp [areaBits]
      · have hqn : quals ≠ [] := by
          intro h; rw [h] at hql; have := hql hqp; simp at this; omega
        rw [areaBits_length _ _ hqn, hql hqp]
    unfold unpackNotes
    rw [hpos, hbits, ht3, hb, hh]
    simp only
    have := readArea_spec (areaFlag cn notes) nsz notes hm hnp d2 t
      (areaBits (areaFlag cv vals) vals ++ areaBits (areaFlag cq quals) quals) ht
      start stop h1 (by rw [hml hnp]; exact h2) (areaFlag_le ..) (areaFlag_two _ _)
    simpa [List.append_assoc] using this

/-- C42. The packed data never overruns the work array, which has room for the uncompressed arrays
and four more words (ztsAggregate.c:270-278). -/
theorem C42_no_overrun {W : Type} [DecidableEq W] [Inhabited W] (pol : PackPolicy)
    (times : List W) (vsz : Nat) (vals : List (List W)) (qsz : Nat) (quals : List (List W)) (nsz : Nat)
    (notes : List (List W)) (hv : ∀ e ∈ vals, e.length = vsz) (hn : vals ≠ [])
    (hq : ∀ e ∈ quals, e.length = qsz) (hql : 0 < qsz → quals.length = vals.length)
    (hm : ∀ e ∈ notes, e.length = nsz) (hml : 0 < nsz → notes.length = vals.length) :
    let p := aggregate pol times vsz vals qsz quals nsz notes
    p.data.length ≤ times.length + p.head.valuesNumber + p.head.qualityNumber + p.head.inotesNumber + 3 ∧
    p.data.length ≤ times.length + vals.length * (vsz + qsz + nsz) + 3 := by
  obtain ⟨cv, cq, cn, ht, hd, hb, hq0, hn0, hh⟩ :=
    aggregate_shape pol times vsz vals qsz quals nsz notes hv hn hq hql hm hml
  generalize aggregate pol times vsz vals qsz quals nsz notes = p at *
  simp only at hd hb hh ⊢
  have pl : ∀ l : List W, (padEven l).length ≤ l.length + 1 := by
    intro l; rw [padEven_length]; unfold alignPos; split <;> omega
  have nle : ∀ (flag size : Nat) (els : List (List W)), els ≠ [] → areaNumber flag size els ≤ els.length * size := by
    intro flag size els hne
    have : 1 ≤ els.length := by
      match els, hne with
      | _ :: _, _ => simp
    unfold areaNumber
    split
    · exact Nat.mul_le_mul_right _ (by omega)
    · split
      · calc size = 1 * size := by omega
          _ ≤ els.length * size := Nat.mul_le_mul_right _ this
      · omega
  have h1 := pl (times ++ areaWords (areaFlag cv vals) vals)
  rw [List.length_append, areaWords_length cv vsz vals hv hn] at h1
  have n1 := nle (areaFlag cv vals) vsz vals hn
  have e1 : vals.length * (vsz + qsz + nsz) = vals.length * vsz + vals.length * qsz + vals.length * nsz := by
    rw [Nat.mul_add, Nat.mul_add]
  have hQ : (if qsz > 0 then padEven (padEven (times ++ areaWords (areaFlag cv vals) vals) ++ areaWords (areaFlag cq quals) quals)
      else padEven (times ++ areaWords (areaFlag cv vals) vals)).length ≤
      (padEven (times ++ areaWords (areaFlag cv vals) vals)).length + (if qsz > 0 then areaNumber (areaFlag cq quals) qsz quals else 0) + 1 ∧
      (if qsz > 0 then areaNumber (areaFlag cq quals) qsz quals else 0) ≤ vals.length * qsz := by
    split
    · rename_i hqp
      have hqn : quals ≠ [] := by
        intro h; rw [h] at hql; have := hql hqp
        match vals, hn with
        | _ :: _, _ => simp at this
      have h2 := pl (padEven (times ++ areaWords (areaFlag cv vals) vals) ++ areaWords (areaFlag cq quals) quals)
      rw [List.length_append, areaWords_length cq qsz quals hq hqn] at h2
      have := nle (areaFlag cq quals) qsz quals hqn
      rw [hql hqp] at this
      exact ⟨h2, this⟩
    · exact ⟨by omega, by omega⟩
  generalize hd2 : (if qsz > 0 then padEven (padEven (times ++ areaWords (areaFlag cv vals) vals) ++ areaWords (areaFlag cq quals) quals)
      else padEven (times ++ areaWords (areaFlag cv vals) vals)) = d2 at *
  have hN : p.data.length ≤ d2.length + (if nsz > 0 then areaNumber (areaFlag cn notes) nsz notes else 0) + 1 ∧
      (if nsz > 0 then areaNumber (areaFlag cn notes) nsz notes else 0) ≤ vals.length * nsz := by
    rw [hd]
    split
    · rename_i hnp
      have hmn : notes ≠ [] := by
        intro h; rw [h] at hml; have := hml hnp
        match vals, hn with
        | _ :: _, _ => simp at this
      have h2 := pl (d2 ++ areaWords (areaFlag cn notes) notes)
      rw [List.length_append, areaWords_length cn nsz notes hm hmn] at h2
      have := nle (areaFlag cn notes) nsz notes hmn
      rw [hml hnp] at this
      exact ⟨h2, this⟩
    · exact ⟨by omega, by omega⟩
  rw [hh]
  simp only
  omega

/-- A policy close to the one of the code. -/
def samplePolicy : PackPolicy := ⟨fun r n => decide (20 * r > n), fun r n => decide (10 * r > n)⟩


/-- Thirteen values with repeats, two word elements, quality and notes compressed differently. -/
example :
    let vals : List (List Int) := [[1, 2], [1, 2], [1, 3], [4, 4], [4, 4], [4, 4], [5, 0], [6, 0], [7, 0], [8, 0], [9, 0], [9, 0], [1, 1]]
    let quals : List (List Int) := List.replicate 13 [7]
    let notes : List (List Int) := [[1], [2], [2], [3], [3], [3], [1], [1], [1], [4], [5], [6], [6]]
    let p := aggregate samplePolicy [11, 12, 13] 2 vals 1 quals 1 notes
    p.head = ⟨2, 1, 18, 1, 2, 1, 1, 1, 7⟩ ∧ p.header2 = [2098, 4532, 0] ∧ p.data.length = 32 ∧
    unpackValues p 3 2 5 = [[1, 3], [4, 4], [4, 4]] ∧ unpackQuality p 3 13 2 5 = [[7], [7], [7]] ∧
    unpackNotes p 3 13 8 12 = [[1], [4], [5], [6]] := by decide +kernel

end Hec
