import Verif.Spec.Location
import Verif.Proofs.Paired
import Verif.Props.Records
/-!
Locations read back as they were stored (C56).
-/
namespace Hec
set_option linter.unusedSimpArgs false
set_option linter.unusedVariables false
open _root_.Spec (Op Store Step Steps run runs Allowed AllAllowed Reachable GoodSizes create join SixParts stored oddHeaders
  IsInt MayStore Later locationName HasContent IsLocation HoldsString ReadsBack IsPart)
open Hec.Spec (sameUpToCase)

theorem six_of {a b : Bytes} {cs : List Bytes} (h : SixParts (a :: b :: cs)) :
    SixParts [a, b, [76, 111, 99, 97, 116, 105, 111, 110, 32, 73, 110, 102, 111], [], [], []] := by
  refine ⟨rfl, fun p hp => ?_⟩
  simp only [List.mem_cons, List.not_mem_nil, or_false] at hp
  rcases hp with rfl | rfl | rfl | rfl | rfl | rfl
  · exact h.2 _ (by simp)
  · exact h.2 _ (by simp)
  · unfold IsPart; decide
  · unfold IsPart; decide
  · unfold IsPart; decide
  · unfold IsPart; decide

theorem head_bytes {a b : Bytes} {cs : List Bytes} : (join (a :: b :: cs)).take (a.length + b.length + 3) = 47 :: a ++ 47 :: b ++ [47] := by
  have : join (a :: b :: cs) = (47 :: a ++ 47 :: b ++ [47]) ++ cs.flatMap (· ++ [47]) := by simp [join]
  rw [this, List.take_append_of_le_length (by simp; omega)]
  exact List.take_of_length_le (by simp; omega)

theorem name_eq (a b : Bytes) : locationName a b = (47 :: a ++ 47 :: b ++ [47]) ++ LOCATION_PATH := by
  simp [locationName, join, LOCATION_PATH]

theorem position2 {a b : Bytes} {cs : List Bytes} (h : SixParts (a :: b :: cs)) (junk : Int) :
    (zpathnamePartPositions (join (a :: b :: cs)) junk)[2]?.getD 0 = ((a.length + b.length + 3 : Nat) : Int) := by
  rw [positions_join _ h.1 (fun p hp c hc => (h.2 p hp c hc).1) junk 2 (by omega)]
  simp only [Option.getD_some, partStart, Int.natCast_inj]
  simp; omega

/-- The characters before the parts C to F, as stringCopy leaves them. -/
theorem copiedAB {a b : Bytes} {cs : List Bytes} (h : SixParts (a :: b :: cs)) (dst : Bytes) (hd : a.length + b.length + 3 < dst.length) :
    ∃ d, stringCopy dst (join (a :: b :: cs)) (a.length + b.length + 3) = some (d, a.length + b.length + 3) ∧ d.length = dst.length ∧
      cstr d = 47 :: a ++ 47 :: b ++ [47] := by
  have hl : a.length + b.length + 3 ≤ (join (a :: b :: cs)).length := by simp [join]; omega
  refine ⟨_, stringCopy_eq _ _ _ hl hd, ?_, ?_⟩
  · simp; omega
  · rw [head_bytes]
    unfold cstr
    rw [List.takeWhile_append_of_pos]
    · simp
    · intro x hx
      simp only [List.cons_append, List.mem_cons, List.mem_append, List.not_mem_nil, or_false] at hx
      have ha := h.2 a (by simp)
      have hb := h.2 b (by simp)
      rcases hx with rfl | (hx | rfl | hx) | rfl
      · decide
      · simp [(ha x hx).2]
      · decide
      · simp [(hb x hx).2]
      · decide

theorem name_malloc {a b : Bytes} {cs : List Bytes} (h : SixParts (a :: b :: cs)) : mallocAndCopyPath (locationName a b) = locationName a b := by
  have := C50_trailing_blanks _ (six_of h) 0
  rwa [show List.replicate 0 (32 : UInt8) = [] from rfl, List.append_nil] at this

theorem path_ok {a b : Bytes} {cs : List Bytes} (h : SixParts (a :: b :: cs)) (junk : Int) : zlocationPath (join (a :: b :: cs)) junk = some (locationName a b) := by
  unfold zlocationPath
  rw [position2 h junk]
  simp only [Int.toNat_natCast]
  rw [if_neg (by omega)]
  obtain ⟨d, h1, h2, h3⟩ := copiedAB h (List.replicate (a.length + b.length + 3 + LOCATION_PATH.length + 1) 0) (by simp; omega)
  rw [h1, Option.map_some]
  simp only [h3, h2, List.length_replicate]
  rw [name_eq, List.take_of_length_le (by simp; omega)]

theorem valid_iff (l : LocIn) : locationValid l = true ↔ HasContent l := by
  have hn : ∀ v, nonZero v = true ↔ v ≠ 0 ∧ v ≠ 0x8000000000000000 := by
    intro v
    unfold nonZero
    rw [Bool.and_eq_true, decide_eq_true_iff, decide_eq_true_iff]
  unfold locationValid HasContent
  simp only [Bool.or_eq_true, hn, decide_eq_true_iff, List.mem_cons, List.not_mem_nil, or_false, exists_eq_or_imp, exists_eq_left]
  have h1 : l.supplemental.isSome = true ↔ l.supplemental ≠ none := by cases l.supplemental <;> simp
  rw [h1]
  cases l.timeZone with
  | none => simp [or_assoc]
  | some t => cases t <;> simp [or_assoc]

theorem doubles_head (x y z : UInt64) (rest : List UInt32) :
    intsDoubles ((doubleInts x ++ doubleInts y ++ doubleInts z ++ rest).take 6) = [x, y, z] := by
  have : (doubleInts x ++ doubleInts y ++ doubleInts z ++ rest).take 6 = [x, y, z].flatMap doubleInts := by
    simp [doubleInts]
  rw [this, intsDoubles_ints]

section
variable {hdrSize maxHash binSize : Nat} {mul : Nat → Nat}

/-- What is read of a record that is a location. -/
theorem read_location {c : Cfg} {s : Eng} {e : WriteEnv} {a b : Bytes} {cs : List Bytes} (h : SixParts (a :: b :: cs)) (j : Nat) {l : LocIn} (hl : IsLocation l)
    (junk : Int) (heap : Bytes) {R : Rec} (hz : zread c s (locationName a b) = some (some R)) (h1 : R.v1 = locationValues l) (h2 : R.v2 = locationText l) :
    ∃ o, zlocationRetrieve c s junk heap (join (a :: b :: cs) ++ List.replicate j 32) = some (.got o) ∧ ReadsBack l o := by
  unfold zlocationRetrieve
  rw [C50_trailing_blanks _ h j, path_ok h, Option.bind_some]
  have : mallocAndCopyPath (locationName a b) = locationName a b := name_malloc h
  rw [this, hz, Option.map_some]
  simp only [h1, h2]
  have hi := hl.ints
  simp only [List.mem_cons, List.not_mem_nil, or_false, forall_eq_or_imp, forall_eq] at hi
  obtain ⟨i1, i2, i3, i4, i5, i6⟩ := hi
  -- the array in two pieces
  have hv : ∃ tail, locationValues l = (doubleInts l.x ++ doubleInts l.y ++ doubleInts l.z ++ ([i32 l.coordinateSystem, i32 l.coordinateID, i32 l.horizontalUnits, i32 l.horizontalDatum, i32 l.verticalUnits, i32 l.verticalDatum] ++ tail)) ∧
      ((l.timeZone = none ∨ l.timeZone = some []) ∧ tail = [] ∨ ∃ t, l.timeZone = some t ∧ t ≠ [] ∧ tail = padInts t) := by
    unfold locationValues
    cases ht : l.timeZone with
    | none => exact ⟨[], by simp, Or.inl ⟨Or.inl rfl, rfl⟩⟩
    | some t =>
      have hzn := (hl.zone t ht).2
      by_cases h0 : t = []
      · subst h0; exact ⟨[], by simp, Or.inl ⟨Or.inr rfl, rfl⟩⟩
      · have hpos : 0 < t.length := by cases t with | nil => exact absurd rfl h0 | cons => simp
        rcases hzn with hzn | hzn
        · exact absurd hzn h0
        · refine ⟨padInts t, ?_, Or.inr ⟨t, rfl, h0, rfl⟩⟩
          simp only []
          rw [if_pos ⟨hpos, by simp [doubleInts]; omega⟩]
          simp
  obtain ⟨tail, hve, htail⟩ := hv
  have hlen : (locationValues l).length = 12 + tail.length := by rw [hve]; simp [doubleInts]; omega
  have hd : intsDoubles ((locationValues l).take 6) = [l.x, l.y, l.z] := by rw [hve]; exact doubles_head _ _ _ _
  have hints : (((locationValues l).drop 6).take 6).map (fun w => toInt32 w.toNat) = [l.coordinateSystem, l.coordinateID, l.horizontalUnits, l.horizontalDatum, l.verticalUnits, l.verticalDatum] := by
    rw [hve]
    simp [doubleInts, toInt32_i32 i1, toInt32_i32 i2, toInt32_i32 i3, toInt32_i32 i4, toInt32_i32 i5, toInt32_i32 i6]
  have htl : (locationValues l).drop 12 = tail := by rw [hve]; simp [doubleInts]
  rw [if_neg (by omega), hd, if_pos (by omega), hints, htl]
  refine ⟨_, rfl, rfl, rfl, rfl, rfl, ?_, ?_⟩
  · show HoldsString _ (if (locationValues l).length > 12 then some (intsToBytes tail ++ heap) else none)
    rcases htail with ⟨h0, rfl⟩ | ⟨t, ht, h0, rfl⟩
    · rw [if_neg (show ¬ (locationValues l).length > 12 by rw [hlen]; simp)]
      rcases h0 with h0 | h0
      · rw [h0]; exact rfl
      · rw [h0]; exact rfl
    · obtain ⟨k1, k2⟩ := hl.zone t ht
      have k2 := k2.resolve_left h0
      rw [ht, if_neg (show ¬ (some t = some []) by simpa using h0), if_pos (show (locationValues l).length > 12 by rw [hlen, padInts_length]; omega), intsToBytes_padInts]
      have : 3 - (t.length + 3) % 4 = (3 - (t.length + 3) % 4 - 1) + 1 := by omega
      rw [this, List.replicate_succ]
      exact ⟨List.replicate (3 - (t.length + 3) % 4 - 1) 0 ++ heap, by simp⟩
  · show HoldsString _ (if (locationText l).length > 0 then some (intsToBytes (locationText l) ++ heap) else none)
    unfold locationText
    cases hs : l.supplemental with
    | none => exact rfl
    | some t =>
      simp only []
      rw [if_pos (by rw [padInts_length]; simp), intsToBytes_padInts]
      exact ⟨List.replicate (3 - ((t ++ [0]).length + 3) % 4) 0 ++ heap, by simp⟩

theorem name_same {a b a' b' : Bytes} (ha : sameUpToCase a a') (hb : sameUpToCase b b') : sameUpToCase (locationName a b) (locationName a' b') := by
  rw [same_iff] at *
  unfold Same at *
  rw [name_eq, name_eq]
  simp [ha, hb]

/-- C56.  In a file reached by any calls, a location that has content is stored (with flag 0 only where there is none
yet), and whatever is called next about other records it is read back by every pathname with the same parts A and B, in
any letter case, with trailing blanks.  No other record changes.  Missing: time zones of more than 72 bytes or of a
length divisible by four (see the violations), writes outside the conditions of MayStore. -/
theorem C56_location_partial (g : GoodSizes hdrSize maxHash binSize) {past : List Op} {s : Eng}
    (hs : Reachable (create hdrSize maxHash binSize mul).1 (create hdrSize maxHash binSize mul).2 past s) (e : WriteEnv) (junk : Int) {l : LocIn} (flag : Int)
    (hl : IsLocation l) (hcon : HasContent l) {a b : Bytes} {cs : List Bytes} {k : Nat} (hp : SixParts (a :: b :: cs))
    (hpath : l.path = join (a :: b :: cs) ++ List.replicate k 32)
    (hflag : flag = 0 → zread (create hdrSize maxHash binSize mul).1 s (locationName a b) = some none)
    (hw : MayStore (create hdrSize maxHash binSize mul).1 past s (locationName a b) 0)
    (ht : ∀ R, zread (create hdrSize maxHash binSize mul).1 s (locationName a b) = some (some R) → R.dataType = 20) :
    ∃ s', zlocationStore (create hdrSize maxHash binSize mul).1 s e junk l flag = some (s', .written .ok) ∧
      (∀ q, q.length ≤ 392 → ¬ sameUpToCase (locationName a b) q →
        zread (create hdrSize maxHash binSize mul).1 s' q = zread (create hdrSize maxHash binSize mul).1 s q) ∧
      ∀ ops s'', Later (create hdrSize maxHash binSize mul).1 past s' (locationName a b) ops s'' →
        ∀ a' b' cs' j junk' heap, SixParts (a' :: b' :: cs') → sameUpToCase a a' → sameUpToCase b b' →
        ∃ o, zlocationRetrieve (create hdrSize maxHash binSize mul).1 s'' junk' heap (join (a' :: b' :: cs') ++ List.replicate j 32) = some (.got o) ∧
          ReadsBack l o := by
  obtain ⟨G, H⟩ := reach g hs
  have hc := create_OK (mul := mul) g
  have hmal : mallocAndCopyPath (locationName a b) = locationName a b := name_malloc hp
  generalize hr : plainReq e (locationName a b) 20 [] [] [] (locationValues l) (locationText l) [] (locationValues l).length = r
  have hrp : r.path = locationName a b := by rw [← hr]; exact hmal
  have hru : { r with uh := lengthened r.uh } = r := by rw [← hr]; rfl
  obtain ⟨s', k1, k2, k3⟩ := stored_kept g hs r (can_allowed (by rw [hrp]; simp [locationName, join]) (by
      rw [hrp, ← hr]; exact hw)) (by rw [hrp, ← hr]; exact ht)
  rw [hrp] at k2 k3
  refine ⟨s', ?_, k2, fun ops s'' hlat a' b' cs' j junk' heap hp' ha hb => ?_⟩
  · unfold zlocationStore
    rw [if_pos ((valid_iff l).mpr hcon), hpath, C50_trailing_blanks _ hp k, path_ok hp, Option.bind_some]
    have hth : (if flag = 0 then (zcheck (create hdrSize maxHash binSize mul).1 s (locationName a b) REC_STATUS_VALID).map Chk.found else some false) = some false := by
      split
      · rename_i h0
        obtain ⟨k, hk1, hk2⟩ := zcheck_found hc H.inv hw.1
        have := hflag h0
        rw [zread_abs hc H.inv hw.1] at this
        injection this with this
        rw [this] at hk2
        rw [hk1, Option.map_some, hk2]; rfl
      · rfl
    rw [hth, Option.bind_some]
    simp only [Bool.false_eq_true, if_false]
    unfold zwritePublic
    rw [hr, hru, k1]; rfl
  · obtain ⟨v, hv⟩ := k3 ops s'' hlat (locationName a' b') (name_same ha hb)
    exact read_location (e := e) hp' j hl junk' heap hv (by rw [← hr]; rfl) (by rw [← hr]; rfl)

/-- C56.  With flag 0 a location that is there stays. -/
theorem C56_kept (g : GoodSizes hdrSize maxHash binSize) {past : List Op} {s : Eng}
    (hs : Reachable (create hdrSize maxHash binSize mul).1 (create hdrSize maxHash binSize mul).2 past s) (e : WriteEnv) (junk : Int) {l : LocIn}
    (hcon : HasContent l) {a b : Bytes} {cs : List Bytes} {k : Nat} (hp : SixParts (a :: b :: cs)) (hlen : (locationName a b).length ≤ 392)
    (hpath : l.path = join (a :: b :: cs) ++ List.replicate k 32) {R : Rec}
    (ht : zread (create hdrSize maxHash binSize mul).1 s (locationName a b) = some (some R)) :
    zlocationStore (create hdrSize maxHash binSize mul).1 s e junk l 0 = some (s, .kept) := by
  obtain ⟨G, H⟩ := reach g hs
  have hc := create_OK (mul := mul) g
  unfold zlocationStore
  rw [if_pos ((valid_iff l).mpr hcon), hpath, C50_trailing_blanks _ hp k, path_ok hp, Option.bind_some, if_pos rfl]
  obtain ⟨k, hk1, hk2⟩ := zcheck_found hc H.inv hlen
  rw [zread_abs hc H.inv hlen] at ht
  injection ht with ht
  rw [ht] at hk2
  rw [hk1, Option.map_some, Option.bind_some, hk2]; rfl

/-- C56.  A location without content is not stored. -/
theorem C56_no_content (c : Cfg) (s : Eng) (e : WriteEnv) (junk : Int) (l : LocIn) (flag : Int) (h : ¬ HasContent l) :
    zlocationStore c s e junk l flag = some (s, .nothing) := by
  unfold zlocationStore
  rw [if_neg (fun hv => h ((valid_iff l).mp hv))]

/-- C56.  Where there is no location, none is read. -/
theorem C56_not_there (c : Cfg) (s : Eng) (junk : Int) (heap : Bytes) {a b : Bytes} {cs : List Bytes} (j : Nat) (hp : SixParts (a :: b :: cs))
    (h : zread c s (locationName a b) = some none) :
    zlocationRetrieve c s junk heap (join (a :: b :: cs) ++ List.replicate j 32) = some .notFound := by
  unfold zlocationRetrieve
  rw [C50_trailing_blanks _ hp j, path_ok hp, Option.bind_some]
  have : mallocAndCopyPath (locationName a b) = locationName a b := name_malloc hp
  rw [this, h]; rfl

/-- C56.  Deleting a location deletes it and nothing else, if the parts A and B have at most 179 bytes together. -/
theorem C56_delete_partial (g : GoodSizes hdrSize maxHash binSize) {past : List Op} {s : Eng}
    (hs : Reachable (create hdrSize maxHash binSize mul).1 (create hdrSize maxHash binSize mul).2 past s) (junk : Int) {a b : Bytes} {cs : List Bytes}
    (hp : SixParts (a :: b :: cs)) (hlen : a.length + b.length ≤ 179) {array : Bytes} (harr : array.length = 200) :
    ∃ s' res, zlocationDelete (create hdrSize maxHash binSize mul).1 s junk (join (a :: b :: cs)) array = some (s', res) ∧
      zread (create hdrSize maxHash binSize mul).1 s' (locationName a b) = some none ∧
      ∀ q, q.length ≤ 392 → ¬ sameUpToCase (locationName a b) q →
        zread (create hdrSize maxHash binSize mul).1 s' q = zread (create hdrSize maxHash binSize mul).1 s q := by
  obtain ⟨G, H⟩ := reach g hs
  have hc := create_OK (mul := mul) g
  have hnl : (locationName a b).length ≤ 392 := by rw [name_eq]; simp [LOCATION_PATH]; omega
  obtain ⟨G', s', res, h1, _, h2, h3⟩ := H.delete hc hnl
  refine ⟨s', res, ?_, h3, h2⟩
  unfold zlocationDelete
  rw [position2 hp junk]
  simp only [Int.toNat_natCast]
  rw [if_neg (by omega)]
  obtain ⟨d, k1, k2, k3⟩ := copiedAB hp array (by omega)
  rw [k1, Option.bind_some]
  simp only [k3, k2, harr]
  rw [List.take_of_length_le (by simp [LOCATION_PATH]; omega), ← name_eq, h1]

end

/-! ### Cases -/

/-- 38.5, -121.7, zone "UTC-8", system 1. -/
def here : LocIn := ⟨join [[65], [66], [67], [], [], []], 0x4043400000000000, 0xc05e6ccccccccccd, 0, 1, 0, 3, 2, 1, 1, some [85, 84, 67, 45, 56], some [65, 66, 67]⟩

/-- The conditions of C56_location_partial are met in a new file; the location is read by another pathname with the same
parts A and B. -/
example : ∃ s' o, zlocationStore tiny.1 tiny.2 anEnv 7 here 0 = some (s', .written .ok) ∧
    zlocationRetrieve tiny.1 s' 9 (List.replicate 8 77) (join [[97], [98], [], [], [69], []]) = some (.got o) ∧ ReadsBack here o := by
  have hp : SixParts [[65], [66], [67], [], [], []] := ⟨rfl, by simp [IsPart]⟩
  have hq : SixParts [[97], [98], [], [], [69], []] := ⟨rfl, by simp [IsPart]⟩
  have hz : zread tiny.1 tiny.2 (locationName [65] [66]) = some none := by decide +kernel
  obtain ⟨s', h1, _, h3⟩ := C56_location_partial (mul := id) tiny_good (past := []) (s := tiny.2) ⟨trivial, [], rfl⟩ anEnv 7 (l := here) 0
    ⟨by simp [here, IsInt], by simp [here], by simp [here]⟩ (Or.inl ⟨_, List.mem_cons_self, by decide, by decide⟩) (k := 0) hp (by simp [here])
    (fun _ => hz)
    ⟨by decide, (fun R h => by rw [show (create 12 2 58 id) = tiny from rfl, hz] at h; cases h), fun _ d hd => by simp at hd⟩
    (fun R h => by rw [show (create 12 2 58 id) = tiny from rfl, hz] at h; cases h)
  obtain ⟨o, h4, h5⟩ := h3 [] s' ⟨trivial, ⟨[], rfl⟩, by simp⟩ [97] [98] _ 0 9 (List.replicate 8 77) hq (by rw [same_iff]; decide) (by rw [same_iff]; decide)
  exact ⟨s', o, h1, by have := h4; rw [show List.replicate 0 (32 : UInt8) = [] from rfl, List.append_nil] at this; exact this, h5⟩

/-- Stored twice with flag 0, once with flag 1, and deleted: evaluated. -/
example : ((zlocationStore tiny.1 tiny.2 anEnv 7 here 0).bind fun p => (zlocationStore tiny.1 p.1 anEnv 7 { here with x := 1 } 0).bind fun q =>
    (zlocationStore tiny.1 q.1 anEnv 7 { here with x := 1 } 1).bind fun r => (zlocationRetrieve tiny.1 r.1 9 [] here.path).bind fun o =>
      (zlocationDelete tiny.1 r.1 3 here.path (List.replicate 200 65)).bind fun t => (zlocationRetrieve tiny.1 t.1 9 [] here.path).map fun u =>
        ([p.2, q.2, r.2, .written t.2], (match o with | .got o => o.x | _ => 0), (match u with | .notFound => true | _ => false))) =
    some ([.written .ok, .kept, .written .ok, .written .ok], 1, true) := by decide +kernel

/-- C56 fails: behind a time zone of four, eight, … bytes there is no zero byte; what follows in memory belongs to the
string. -/
theorem C56_unterminated_violation :
    ((zlocationStore tiny.1 tiny.2 anEnv 7 { here with timeZone := some [85, 84, 67, 56] } 0).bind fun p =>
      (zlocationRetrieve tiny.1 p.1 9 (List.replicate 8 77) here.path).map fun o => match o with | .got o => (p.2, o.timeZone) | _ => (p.2, none)) =
      some (.written .ok, some ([85, 84, 67, 56] ++ List.replicate 8 77)) := by decide +kernel

/-- C56 fails: a longer time zone is dropped, and the call succeeds. -/
theorem C56_long_zone_violation :
    ((zlocationStore tiny.1 tiny.2 anEnv 7 { here with timeZone := some (List.replicate 73 65) } 0).bind fun p =>
      (zlocationRetrieve tiny.1 p.1 9 (List.replicate 8 77) here.path).map fun o => match o with | .got o => (p.2, o.timeZone) | _ => (p.2, some [])) =
      some (.written .ok, none) := by decide +kernel

/-- C56 fails: the origin of a coordinate system is no content; the call succeeds and the old location stays, also with the
flag to replace it. -/
theorem C56_origin_violation :
    ((zlocationStore tiny.1 tiny.2 anEnv 7 here 0).bind fun p =>
      (zlocationStore tiny.1 p.1 anEnv 7 { here with x := 0, y := 0, horizontalDatum := 0, verticalDatum := 0, timeZone := none, supplemental := none } 1).bind fun q =>
        (zlocationRetrieve tiny.1 q.1 9 [] here.path).map fun o => (p.2, q.2, match o with | .got o => (o.x, o.y) | _ => (0, 0))) =
      some (.written .ok, .nothing, 0x4043400000000000, 0xc05e6ccccccccccd) := by decide +kernel

/-- C56 fails: any record of the name with six numbers is read as a location. -/
theorem C56_other_type_violation :
    ((zarrayStore tiny.1 tiny.2 anEnv ⟨locationName [65] [66], some [1, 2, 3, 4, 5, 6], 6, none, 0, none, 0, []⟩).bind fun p =>
      (zlocationRetrieve tiny.1 p.1 9 [] here.path).map fun o => (p.2, match o with | .got o => (o.x, o.y, o.z) | _ => (0, 0, 0))) =
      some (.ok, 0x200000001, 0x400000003, 0x600000005) := by decide +kernel

/-- C56 fails: with long parts A and B zlocationDelete cuts the pathname and deletes nothing. -/
theorem C56_delete_violation :
    ((zlocationStore tiny.1 tiny.2 anEnv 7 { here with path := join [List.replicate 100 65, List.replicate 80 66, [], [], [], []] } 0).bind fun p =>
      (zlocationDelete tiny.1 p.1 3 (join [List.replicate 100 65, List.replicate 80 66, [], [], [], []]) (List.replicate 200 65)).bind fun q =>
        (zlocationRetrieve tiny.1 q.1 9 [] (join [List.replicate 100 65, List.replicate 80 66, [], [], [], []])).map fun o =>
          (p.2, q.2, match o with | .got o => o.x | _ => 0)) =
      some (.written .ok, .notFound, 0x4043400000000000) := by decide +kernel

end Hec
