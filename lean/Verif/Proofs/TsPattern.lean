import Verif.Spec.TsPattern
import Verif.Props.ItsApi
import Verif.Proofs.Records
/-! Time patterns: the pathname, the values. -/
namespace Hec
set_option linter.unusedSimpArgs false
set_option linter.unusedVariables false
open _root_.Spec (SixParts IsPart Printable join Holds TsMemOk PatternName PatternFor AnyTime)
open Hec.Spec (sameUpToCase)

theorem doubles_flatten : ∀ (l : List (List UInt32)), (∀ v ∈ l, v.length = 2) → doubles l.flatten = l
  | [], _ => rfl
  | v :: l, h => by
    match v, h v (List.mem_cons_self ..) with
    | [a, b], _ =>
      show doubles (a :: b :: l.flatten) = _
      unfold doubles
      rw [doubles_flatten l fun w hw => h w (List.mem_cons_of_mem _ hw)]

theorem flatten_two : ∀ (l : List (List UInt32)), (∀ v ∈ l, v.length = 2) → l.flatten.length = 2 * l.length
  | [], _ => rfl
  | v :: l, h => by
    rw [List.flatten_cons, List.length_append, h v (List.mem_cons_self ..), flatten_two l fun w hw => h w (List.mem_cons_of_mem _ hw), List.length_cons]
    omega

theorem four_of_ten {y : Bytes} (h : y.map toupper = [84, 83, 45, 80, 65, 84, 84, 69, 82, 78]) : y.length = 10 ∧ (y.take 4).map toupper = [84, 83, 45, 80] := by
  refine ⟨by rw [← List.length_map (f := toupper), h]; rfl, by rw [List.map_take, h]; rfl⟩

/-- The pathname of a pattern, as ztsProcessTimes works with it. -/
theorem patternPath_spec {ps : List Bytes} {kind secs : Int} {path : Bytes} (hn : PatternName ps) (hp : PatternFor ps kind secs path) {m : TsMem} (hm : TsMemOk m) :
    mallocAndCopyPath path = path ∧ 10 ≤ path.length ∧ isTsPattern m path = some true ∧
    ∃ b, patternPath m path = some (some ⟨kind, secs, b⟩) ∧ mallocAndCopy (cstr b) = join ps := by
  obtain ⟨e, name, rfl, he, pe, le4, le, hE, hname⟩ := hp
  have hd := hn.dPart
  have hs2 := set_part hn.six he 4
  have hP := printable_set hn.printable pe 4
  have hL := short_set hn.length le 4
  obtain ⟨n1, n2, n3⟩ := interval_name hE
  have hsix := hn.six
  have hpl := hn.length
  have hpp := hn.printable
  obtain ⟨pa, pb, pc, y, pe', pf, rfl⟩ := six_list hn.six
  have hd : y.map toupper = [84, 83, 45, 80, 65, 84, 84, 69, 82, 78] := hd
  have hname : pe' = (if e.head? = some 126 then 126 :: name else name) := hname
  have n1 : pe'.length ≤ 11 := by
    rw [hname]; split
    · simp only [List.length_cons]; omega
    · omega
  have hy : IsPart y := hsix.2 y (by simp)
  obtain ⟨y10, y4⟩ := four_of_ten hd
  have hlen : (join ([pa, pb, pc, y, pe', pf].set 4 e)).length = pa.length + pb.length + pc.length + y.length + e.length + pf.length + 7 := join_six ..
  obtain ⟨b1, c1, c2, c3⟩ := clean_join hs2 hP (b := List.replicate ((join ([pa, pb, pc, y, pe', pf].set 4 e)).length + 20) 0) (by simp)
  rw [List.length_replicate] at c2
  have hc1 : cstr b1 = join ([pa, pb, pc, y, pe', pf].set 4 e) := cstr_holds c3 (join_nonzero _ hs2.2)
  obtain ⟨eb, g1, g2, g3⟩ := getPart_short _ hs2.1 hs2.2 hL 4 (by omega) m.ePart hm.ePart m.junk
  have hel : (([pa, pb, pc, y, pe', pf].set 4 e)[4]'(by simp)) = e := rfl
  rw [hel] at g1 g3
  have hce : cstr eb = e := cstr_holds g3 fun c hc => (he c hc).2
  have hroom : (join (([pa, pb, pc, y, pe', pf].set 4 e).set 4 pe')).length < b1.length := by
    have : (join (([pa, pb, pc, y, pe', pf].set 4 e).set 4 pe')).length = pa.length + pb.length + pc.length + y.length + pe'.length + pf.length + 7 := join_six ..
    omega
  obtain ⟨b2, s1, s2, s3⟩ := C22_set _ hs2.1 hs2.2 4 (by omega) b1 c3 pe' m.junk m.heap hroom
  have s3 : Holds b2 (join [pa, pb, pc, y, pe', pf]) := s3
  have hc2 : cstr b2 = join [pa, pb, pc, y, pe', pf] := cstr_holds s3 (join_nonzero _ hsix.2)
  obtain ⟨db, d1, d2, d3⟩ := getPart_short _ hsix.1 hsix.2 hpl 3 (by omega) m.dPart hm.dPart m.junk
  have hdl : ([pa, pb, pc, y, pe', pf][3]'(by simp)) = y := rfl
  rw [hdl] at d1 d3
  have hcd : cstr db = y := cstr_holds d3 fun c hc => (hy c hc).2
  obtain ⟨db2, q1, q2, q3⟩ := getPart_short _ hs2.1 hs2.2 hL 3 (by omega) m.dPart hm.dPart m.junk
  have hql : (([pa, pb, pc, y, pe', pf].set 4 e)[3]'(by simp)) = y := rfl
  rw [hql] at q1 q3
  have hqd : cstr db2 = y := cstr_holds q3 fun c hc => (hy c hc).2
  refine ⟨malloc_join hs2, by omega, ?_, b2, ?_, ?_⟩
  · unfold isTsPattern
    have q1 : zpathnameGetPart (join ([pa, pb, pc, y, pe', pf].set 4 e)) 4 m.dPart m.junk = some (db2, (y.length : Int)) := q1
    rw [q1, Option.map_some]
    simp only
    rw [hqd, y10]
    have := (compare_iff y TS_PATTERN (by rw [y10]; rfl)).mpr (by rw [hd]; decide)
    rw [y10] at this
    have this : zstringCompare y TS_PATTERN 10 = true := this
    rw [this]; rfl
  · unfold patternPath
    rw [c1, Option.bind_some]
    simp only
    rw [hc1]
    have g1 : zpathnameGetPart (join ([pa, pb, pc, y, pe', pf].set 4 e)) 5 m.ePart m.junk = some (eb, (e.length : Int)) := g1
    rw [g1, Option.bind_some]
    simp only
    rw [if_neg (by omega), hce, hE]
    simp only
    have s1 : zpathnameSetPart (fun j => some (m.heap j)) b1 pe' 5 m.junk = some (b2, true) := s1
    rw [← hname, s1, Option.bind_some]
    simp only
    rw [hc2]
    have d1 : zpathnameGetPart (join [pa, pb, pc, y, pe', pf]) 4 m.dPart m.junk = some (db, (y.length : Int)) := d1
    rw [d1, Option.map_some]
    simp only
    rw [if_pos]
    refine ⟨by omega, ?_⟩
    rw [hcd]
    have hl4 : (y.take 4).length = 4 := by rw [List.length_take]; omega
    have := (compare_iff (y.take 4) PATTERN_START (by rw [hl4]; rfl)).mpr (by rw [y4]; decide)
    rw [hl4] at this
    exact this
  · rw [hc2, copy_join hsix hpp]

theorem any_time {date time : Bytes} (h : AnyTime date time) : ∃ t, apiTime date time = some t := by
  unfold apiTime
  rcases h with e | ⟨t, e⟩
  · subst e; exact ⟨_, rfl⟩
  · cases time with
    | nil => exact ⟨_, rfl⟩
    | cons c cs => rw [if_pos (show (c :: cs).length > 0 by simp), e]; exact ⟨_, rfl⟩

end Hec
