import Verif.Proofs.Strings
/-!
Property theorems: C22 (parts survive forming and parsing) and C23 (buffers are not overrun).
In all of them an access outside an array makes the model return `none`.
-/
namespace Hec
open Spec

/-- C22. Forming a pathname from six parts in a buffer with room gives the joined trimmed parts, and
asking for part `i+1` of it gives the trimmed part (its first 128 characters). -/
theorem C22_form_get (parts : List Bytes) (h6 : parts.length = 6) (hp : ∀ p ∈ parts, IsPart p)
    (buf : Bytes) (hbuf : (join (parts.map trim)).length < buf.length) (i : Nat) (hi : i < 6)
    (pbuf : Bytes) (hpb : 129 ≤ pbuf.length) (junk : Int) :
    ∃ path n, zpathnameForm parts buf = some (path, n) ∧ cstr path = join (parts.map trim) ∧
      ∃ part, zpathnameGetPart (cstr path) (i + 1) pbuf junk =
          some (part, ((min (trim (parts[i]'(by omega))).length 128 : Nat) : Int)) ∧
        cstr part = (trim (parts[i]'(by omega))).take 128 := by
  have htrim : ∀ s : Bytes, ∀ c ∈ trim s, c ∈ s := by
    intro s c hc
    unfold trim at hc
    have h1 := List.mem_reverse.1 hc
    have h2 := (List.dropWhile_sublist _).subset h1
    have h3 := List.mem_reverse.1 h2
    exact (List.dropWhile_sublist _).subset h3
  have hpt : ∀ p ∈ parts.map trim, IsPart p := by
    intro p hm c hc
    obtain ⟨q, hq, rfl⟩ := List.mem_map.1 hm
    exact hp q hq c (htrim q c hc)
  obtain ⟨b', n, e, hl, hh, -⟩ := form_spec parts buf (by omega)
  rw [List.take_of_length_le (by omega)] at hh
  have hc := cstr_holds hh (join_nonzero _ hpt)
  refine ⟨b', n, e, hc, ?_⟩
  obtain ⟨p', e', hh'⟩ := getPart_spec (parts.map trim) (by simp [h6]) hpt i hi pbuf hpb junk
  rw [hc]
  simp only [List.getElem_map] at e' hh'
  refine ⟨p', e', cstr_holds hh' ?_⟩
  intro c hcm
  have := List.mem_of_mem_take hcm
  exact (hp _ (List.getElem_mem _) c (htrim _ c this)).2

-- parts " A ", "b c", "", ...
example : zpathnameForm [[32, 65, 32], [98, 32, 99], [], [], [], [70]] (List.replicate 20 1) =
    some ([47, 65, 47, 98, 32, 99, 47, 47, 47, 47, 70, 47, 0, 1, 1, 1, 1, 1, 1, 1], 13) := by decide

/-- C22. Replacing part `i+1` in a buffer with room for the new pathname and its terminator gives
the pathname with that part replaced and nothing else changed, whatever lies in memory before the
buffer.  (The new part may even contain slashes.) -/
theorem C22_set (ps : List Bytes) (h6 : ps.length = 6) (hp : ∀ p ∈ ps, IsPart p) (i : Nat) (hi : i < 6)
    (b : Bytes) (hb : Holds b (join ps)) (new : Bytes) (junk : Int) (mem : Int → UInt8)
    (hroom : (join (ps.set i new)).length < b.length) :
    ∃ b', zpathnameSetPart (fun j => some (mem j)) b new (i + 1) junk = some (b', true) ∧
      b'.length = b.length ∧ Holds b' (join (ps.set i new)) :=
  setPart_spec ps h6 hp i hi b hb new junk _ (Or.inr fun j => ⟨mem j, rfl⟩) hroom

/-- C22. So after replacing part `i+1`, asking for part `j+1` gives the new part for `j = i` and the
old one for every other `j`. -/
theorem C22_set_get (ps : List Bytes) (h6 : ps.length = 6) (hp : ∀ p ∈ ps, IsPart p) (i : Nat) (hi : i < 6)
    (b : Bytes) (hb : Holds b (join ps)) (new : Bytes) (hnew : IsPart new) (junk junk2 : Int)
    (mem : Int → UInt8) (hroom : (join (ps.set i new)).length < b.length) (j : Nat) (hj : j < 6)
    (pbuf : Bytes) (hpb : 129 ≤ pbuf.length) :
    ∃ b' part n, zpathnameSetPart (fun j => some (mem j)) b new (i + 1) junk = some (b', true) ∧
      zpathnameGetPart (cstr b') (j + 1) pbuf junk2 = some (part, n) ∧
      cstr part = (if j = i then new else ps[j]'(by omega)).take 128 := by
  obtain ⟨b', e, -, hh⟩ := C22_set ps h6 hp i hi b hb new junk mem hroom
  have hp' : ∀ p ∈ ps.set i new, IsPart p := by
    intro p hm
    rcases List.mem_or_eq_of_mem_set hm with h | h
    · exact hp p h
    · rw [h]; exact hnew
  have hc := cstr_holds hh (join_nonzero _ hp')
  obtain ⟨part, e', hh'⟩ := getPart_spec (ps.set i new) (by simp [h6]) hp' j hj pbuf hpb junk2
  refine ⟨b', part, _, e, by rw [hc]; exact e', ?_⟩
  have hset : (ps.set i new)[j]'(by simp; omega) = if j = i then new else ps[j]'(by omega) := by
    rw [List.getElem_set]
    by_cases h : i = j
    · rw [if_pos h, if_pos h.symm]
    · rw [if_neg h, if_neg (fun x => h x.symm)]
  rw [hset] at hh'
  apply cstr_holds hh'
  intro c hcm
  have hm := List.mem_of_mem_take hcm
  split at hm
  · exact (hnew c hm).2
  · exact (hp _ (List.getElem_mem _) c hm).2

-- "/A/B/C/D/E/F/" with C replaced by "xyz", in a buffer of 20
example : (zpathnameSetPart (fun _ => none)
      ([47, 65, 47, 66, 47, 67, 47, 68, 47, 69, 47, 70, 47, 0] ++ List.replicate 6 1) [120, 121, 122] 3 0) =
    some ([47, 65, 47, 66, 47, 120, 121, 122, 47, 68, 47, 69, 47, 70, 47, 0, 1, 1, 1, 1], true) := by
  decide

/-- C22, failing part: on a pathname that lacks its last slash, replacing the F part destroys the
whole pathname (every byte is overwritten with what lies before the buffer; here 88). -/
theorem C22_set_missing_slash_violation :
    -- "/A/B/C/D/E/F", new F part "G"
    (zpathnameSetPart (fun _ => some 88)
      ([47, 65, 47, 66, 47, 67, 47, 68, 47, 69, 47, 70, 0] ++ List.replicate 7 1) [71] 6 0) =
    some ([88, 88, 88, 88, 88, 88, 88, 88, 88, 88, 88, 71, 88, 0, 1, 1, 1, 1, 1, 1], true) := by
  decide

/-- C22, failing part: on a text with no slash after its first character, what GetPart returns for
part 1 depends on an uninitialised local variable. -/
theorem C22_get_uninitialised_violation :
    (zpathnameGetPart [65, 66, 67] 1 (List.replicate 9 7) 5).map (fun r => cstr r.1) = some [] ∧
    (zpathnameGetPart [65, 66, 67] 1 (List.replicate 9 7) (-2)) = none := by
  decide

/-- C23. Forming a pathname never writes outside the buffer, whatever the parts, their number and
the size of the buffer; the buffer always ends up holding a terminated string, the longest prefix
of the pathname that fits. -/
theorem C23_form (parts : List Bytes) (b : Bytes) :
    ∃ b' n, zpathnameForm parts b = some (b', n) ∧ b'.length = b.length ∧
      (0 < b.length → Holds b' ((join (parts.map trim)).take (b.length - 1))) := by
  by_cases hb : 0 < b.length
  · obtain ⟨b', n, e, l, h, -⟩ := form_spec parts b hb
    exact ⟨b', n, e, l, fun _ => h⟩
  · exact ⟨b, 0, by unfold zpathnameForm; rw [if_neg hb], rfl, fun h => absurd h hb⟩

example : (zpathnameForm [[65, 66, 67], [68]] (List.replicate 4 1)) = some ([47, 65, 66, 0], 4) := by decide

/-- C23, partial: cleaning a pathname stays inside the buffer and gives the kept characters up to the
seventh slash, provided that text is shorter than the buffer.  Missing: texts that fill it. -/
theorem C23_clean_partial (b old : Bytes)
    (h : (cleanText 0 (old.filter cleanKeep)).length < b.length) :
    ∃ b', zpathnameClean b old = some (b', (cleanText 0 (old.filter cleanKeep)).length) ∧
      b'.length = b.length ∧ Holds b' (cleanText 0 (old.filter cleanKeep)) := by
  unfold zpathnameClean
  have hi : FormInv b 0 [] := ⟨by simp, fun k hk => by omega⟩
  obtain ⟨b1, c1, e1, l1, h1, h2⟩ := cleanLoop_inv old b 0 0 [] hi (by omega)
  rw [e1]
  simp only [List.nil_append] at h1 h2
  generalize cleanText 0 (old.filter cleanKeep) = t at *
  have hc : c1 = t.length := by omega
  simp only [Option.bind_some]
  rw [wr_eq (by omega)]
  refine ⟨b1.set c1 0, by rw [hc]; rfl, by simpa using l1, ?_⟩
  rw [holds_iff]
  refine ⟨by simp; omega, fun k hk => ?_, by rw [← hc]; exact List.getElem?_set_self (by omega)⟩
  rw [List.getElem?_set_ne (by omega), h2 k (by omega)]

example : zpathnameClean (List.replicate 6 1) [47, 10, 65, 200, 47] = some ([47, 65, 47, 0, 1, 1], 3) := by
  decide

/-- C23, failing part: whenever the kept text has at least as many characters as the buffer, the
terminator is written one byte beyond the buffer. -/
theorem C23_clean_violation (b old : Bytes)
    (h : b.length ≤ (cleanText 0 (old.filter cleanKeep)).length) : zpathnameClean b old = none := by
  unfold zpathnameClean
  have hi : FormInv b 0 [] := ⟨by simp, fun k hk => by omega⟩
  obtain ⟨b1, c1, e1, l1, h1, h2⟩ := cleanLoop_inv old b 0 0 [] hi (by omega)
  rw [e1]
  simp only [List.nil_append] at h1 h2
  simp only [Option.bind_some]
  unfold wr
  rw [if_neg (by omega)]
  rfl

example : zpathnameClean (List.replicate 3 1) [47, 65, 47] = none := by decide

/-- C23, partial: replacing a part makes no access outside the buffer when there is room for the new
pathname and the new part is not too long relative to where the old one ends.  Missing: longer new
parts, and new pathnames of exactly the buffer size. -/
theorem C23_set_partial (ps : List Bytes) (h6 : ps.length = 6) (hp : ∀ p ∈ ps, IsPart p) (i : Nat)
    (hi : i < 6) (b : Bytes) (hb : Holds b (join ps)) (new : Bytes) (junk : Int)
    (hroom : (join (ps.set i new)).length < b.length)
    (hlong : new.length ≤ 1 + ((ps.take i).map (fun p => p.length + 1)).sum + 2 * (ps[i]'(by omega)).length + 1) :
    ∃ b', zpathnameSetPart (fun _ => none) b new (i + 1) junk = some (b', true) ∧
      b'.length = b.length ∧ Holds b' (join (ps.set i new)) := by
  refine setPart_spec ps h6 hp i hi b hb new junk _ (Or.inl ?_) hroom
  unfold partStart
  rw [List.length_flatMap]
  simpa using hlong

/-- C23, failing part: setting an A part of three characters in an empty pathname reads before the
start of the buffer. -/
theorem C23_set_read_violation :
    zpathnameSetPart (fun _ => none) ([47, 47, 47, 47, 47, 47, 47, 0] ++ List.replicate 30 1) [65, 66, 67] 1 0
      = none := by decide

/-- C23, failing part: when the new pathname has exactly the size of the buffer the terminator is
written one byte beyond it.  This is what zsetCollectionSequence does for a sequence number of
seven digits: it allocates ten bytes more than the pathname, and "C:1234567|" has ten. -/
theorem C23_set_write_violation :
    zpathnameSetPart (fun _ => some 0)
      ([47, 65, 47, 66, 47, 67, 47, 68, 47, 69, 47, 70, 47, 0] ++ List.replicate 9 0)
      [67, 58, 49, 50, 51, 52, 53, 54, 55, 124, 70] 6 0 = none := by decide

end Hec
