import Verif.Proofs.CopyRecord
import Verif.Props.RecordType
/-!
Copying one record: zduplicateRecord within a file (C88), zcopyRecord from one file to another (C89).  The files are any
files in use, also ones with records that were duplicated or copied.
-/
namespace Hec
set_option linter.unusedSimpArgs false
set_option linter.unusedVariables false
open _root_.Spec (Op Store Step Steps run runs Set DropOne join SixParts IsPart Holds stored compatible oddHeaders Allowed AllAllowed NewHeader MayReceive
  NoElev CopyNames SameDates MayDuplicate MayCopy InUse OldMinute GoodSizes create Reachable)
open Hec.Spec (sameUpToCase)

variable {c : Cfg}

/-! ### Elevations -/

theorem dashPieces_part : ∀ (s cur p : Bytes), p ∈ dashPieces s cur → ∃ a b, cur ++ s = a ++ p ++ b
  | [], cur, p, h => by
    unfold dashPieces at h
    split at h
    · cases h
    · simp at h; subst h; exact ⟨[], [], by simp⟩
  | x :: s, cur, p, h => by
    unfold dashPieces at h
    split at h
    · split at h
      · next hc =>
        obtain ⟨a, b, hab⟩ := dashPieces_part s [] p h
        exact ⟨x :: a, b, by rw [hc]; simpa using hab⟩
      · rcases List.mem_cons.mp h with h | h
        · subst h; exact ⟨[], x :: s, by simp⟩
        · obtain ⟨a, b, hab⟩ := dashPieces_part s [] p h
          refine ⟨cur ++ x :: a, b, ?_⟩
          have : s = a ++ p ++ b := by simpa using hab
          rw [this]; simp
    · obtain ⟨a, b, hab⟩ := dashPieces_part s (cur ++ [x]) p h
      exact ⟨a, b, by rw [← hab]; simp⟩

theorem noElev_start {x a p b : Bytes} (h : NoElev x) (hx : x = a ++ p ++ b) : startsElev p = false := by
  unfold startsElev
  rw [decide_eq_false_iff_not]
  refine h a (p.take 4) (p.drop 4 ++ b) ?_
  rw [hx, List.append_assoc, List.append_assoc, ← List.append_assoc (p.take 4), List.take_append_drop]

theorem noElev_any {x : Bytes} (h : NoElev x) (n : Nat) : ((dashPieces (x.take n) []).take 2).any startsElev = false := by
  rw [List.any_eq_false]
  intro p hp
  obtain ⟨a, b, hab⟩ := dashPieces_part _ _ _ (List.mem_of_mem_take hp)
  have : x = a ++ p ++ (b ++ x.drop n) := by
    conv => lhs; rw [← List.take_append_drop n x]
    have hab' : x.take n = a ++ p ++ b := by simpa using hab
    rw [hab', List.append_assoc]
  rw [noElev_start h this]; decide

theorem cPart_of {ps : List Bytes} (hps : SixParts ps) {buf : Bytes} (hb : 129 ≤ buf.length) (junk : Int) :
    ∃ x, zpathnameGetPart (join ps) 3 buf junk = some x ∧ cstr x.1 = (ps.getD 2 []).take 128 := by
  obtain ⟨b', k1, k2⟩ := getPart_spec ps hps.1 hps.2 2 (by decide) buf hb junk
  have e2 : ps.getD 2 [] = ps[2]'(by have := hps.1; omega) := by
    rw [List.getD_eq_getElem?_getD, List.getElem?_eq_getElem (by have := hps.1; omega)]; rfl
  refine ⟨_, k1, ?_⟩
  rw [e2]
  refine cstr_holds k2 fun c hc => ?_
  exact (hps.2 _ (List.getElem_mem (by have := hps.1; omega)) c (List.mem_of_mem_take hc)).2

theorem elev_total {ps : List Bytes} (hps : SixParts ps) {buf : Bytes} (hb : 129 ≤ buf.length) (junk : Int) :
    ∃ a b, pathnameIsElevTsOrPd (join ps) buf junk = some a ∧ pathnameIsElevPd (join ps) buf junk = some b ∧
      (NoElev (ps.getD 2 []) → a = false ∧ b = false) := by
  obtain ⟨x, h1, h2⟩ := cPart_of hps hb junk
  unfold pathnameIsElevTsOrPd pathnameIsElevPd
  rw [h1, Option.map_some, Option.map_some, h2]
  refine ⟨_, _, rfl, rfl, fun h => ⟨?_, noElev_any h 128⟩⟩
  rw [noElev_any h 128, noElev_start (a := []) (b := (ps.getD 2 []).drop 128) h (by simp)]; rfl

/-! ### The D and E parts -/

theorem position_part {ps : List Bytes} (hps : SixParts ps) (junk : Int) {k : Nat} (hk : k ≤ 6) : positionOf (join ps) junk k = (partStart ps k : Int) := by
  unfold positionOf
  rw [positions_join ps hps.1 (fun p h c hc => (hps.2 p h c hc).1) junk k hk]; rfl

theorem dates_text {ps : List Bytes} (hps : SixParts ps) : strAt (join ps) (partStart ps 3 : Int) ((partStart ps 5 : Int) - (partStart ps 3 : Int)) =
    some (((ps.drop 3).take 2).flatMap (· ++ [47])) := by
  have hl := hps.1
  unfold strAt
  have h1 : partStart ps 3 ≤ (join ps).length := by
    rw [← join_take_length ps 3 (by omega)]
    rw [join_split ps 3 (by omega)]; simp
  rw [if_pos ⟨by omega, by omega⟩]
  have h2 := partStart_diff ps 3 2
  have h3 : ((partStart ps 5 : Int) - (partStart ps 3 : Int)).toNat = (((ps.drop 3).take 2).flatMap (· ++ [47])).length := by
    have : partStart ps 5 = partStart ps (3 + 2) := rfl
    omega
  rw [h3, Int.toNat_natCast, join_drop ps 3 (by omega)]
  congr 1
  have h4 : (ps.drop 3).flatMap (· ++ [47]) = ((ps.drop 3).take 2).flatMap (· ++ [47]) ++ ((ps.drop 3).drop 2).flatMap (· ++ [47]) := by
    rw [← List.flatMap_append, List.take_append_drop]
  rw [h4, List.take_append_of_le_length (Nat.le_refl _), List.take_length]

theorem dates_found {ps qs : List Bytes} (hps : SixParts ps) (hqs : SixParts qs) (h : SameDates ps qs) (junk : Int) : sameDE (join ps) (join qs) junk = some true := by
  have hl := hqs.1
  obtain ⟨h1, h2, h3⟩ := h
  rw [join_take_length ps 3 (by have := hps.1; omega), join_take_length qs 3 (by omega)] at h3
  have h5 : partStart ps 5 = partStart qs 5 := by
    have a1 := partStart_diff ps 3 2
    have a2 := partStart_diff qs 3 2
    rw [h1] at a1
    exact (a1.trans (by rw [h3])).trans a2.symm
  unfold sameDE
  simp only [position_part hps junk (show 3 ≤ 6 by omega), position_part hps junk (show 5 ≤ 6 by omega), position_part hqs junk (show 3 ≤ 6 by omega),
    position_part hqs junk (show 4 ≤ 6 by omega), position_part hqs junk (show 5 ≤ 6 by omega)]
  have hE := partStart_succ (ps := qs) (k := 4) (by omega)
  have hE4 : partStart qs (4 + 1) = partStart qs 5 := rfl
  have hD := partStart_succ (ps := qs) (k := 3) (by omega)
  have hD4 : partStart qs (3 + 1) = partStart qs 4 := rfl
  have h30 : 3 ≤ partStart qs 3 := by
    have a1 := partStart_succ (ps := qs) (k := 0) (by omega)
    have a2 := partStart_succ (ps := qs) (k := 1) (by omega)
    have a3 := partStart_succ (ps := qs) (k := 2) (by omega)
    have : partStart qs (2 + 1) = partStart qs 3 := rfl
    have : partStart qs (1 + 1) = partStart qs 2 := rfl
    have : partStart qs (0 + 1) = partStart qs 1 := rfl
    omega
  -- the test for MIN
  have hmin : (if (partStart qs 5 : Int) - (partStart qs 4 : Int) - 1 < 6 then (strAt (join qs) ((partStart qs 5 : Int) - 4) 4).map fun x => decide (x = [77, 73, 78, 47]) else some false) = some false := by
    split
    · next hlt =>
      have hle : partStart qs 5 ≤ (join qs).length := by
        rw [← join_take_length qs 5 (by omega)]
        rw [join_split qs 5 (by omega)]; simp
      unfold strAt
      rw [if_pos ⟨by omega, by omega⟩, Option.map_some]
      congr 1
      rw [decide_eq_false_iff_not]
      intro hx
      have e1 : ((partStart qs 5 : Int) - 4).toNat = partStart qs 5 - 4 := by omega
      rw [e1] at hx
      by_cases h3' : 3 ≤ (qs[4]'(by omega)).length
      · have e2 : (join qs).drop (partStart qs 5 - 4) = (qs[4]'(by omega)).drop ((qs[4]'(by omega)).length - 3) ++ 47 :: (qs.drop 5).flatMap (· ++ [47]) := by
          have e3 : partStart qs 5 - 4 = partStart qs 4 + ((qs[4]'(by omega)).length - 3) := by omega
          have e6 : qs.drop 4 = (qs[4]'(by omega)) :: qs.drop 5 := List.drop_eq_getElem_cons (by omega)
          rw [e3, ← List.drop_drop, join_drop qs 4 (by omega), e6, List.flatMap_cons, List.append_assoc,
            List.drop_append_of_le_length (Nat.sub_le _ _)]
          rfl
        rw [e2] at hx
        have hlen3 : ((qs[4]'(by omega)).drop ((qs[4]'(by omega)).length - 3)).length = 3 := by rw [List.length_drop]; omega
        have e4 : ∀ (x : Bytes), x.length = 3 → ∀ r : Bytes, (x ++ 47 :: r).take (4 : Int).toNat = x ++ [47] := by
          intro x hx r
          match x, hx with
          | [a, b, c], _ => rfl
        rw [e4 _ hlen3] at hx
        have e5 : (qs[4]'(by omega)).drop ((qs[4]'(by omega)).length - 3) = [77, 73, 78] :=
          (List.append_inj hx (by rw [hlen3]; rfl)).1
        have := h2 ((qs[4]'(by omega)).take ((qs[4]'(by omega)).length - 3)) (by
          rw [List.getElem?_eq_getElem (by omega)]
          congr 1
          rw [← e5, List.take_append_drop])
        rw [List.length_take] at this
        omega
      · -- the text reaches into the D part
        have e3 : ∃ k, k < 4 ∧ k + 1 < 4 ∧ ((join qs).drop (partStart qs 5 - 4))[k]? = some 47 := by
          have hsl : (join qs)[partStart qs 4 - 1]? = some 47 := by
            rw [show partStart qs 4 - 1 = partStart qs 3 + (qs[3]'(by omega)).length by omega, ← List.getElem?_drop, join_drop qs 3 (by omega),
              show qs.drop 3 = (qs[3]'(by omega)) :: qs.drop 4 from List.drop_eq_getElem_cons (by omega), List.flatMap_cons, List.append_assoc, List.getElem?_append_right (Nat.le_refl _)]
            simp
          refine ⟨3 - (qs[4]'(by omega)).length - 1, by omega, by omega, ?_⟩
          rw [List.getElem?_drop, ← hsl]
          congr 1
          omega
        obtain ⟨k, k1, k2, k3⟩ := e3
        have k4 : (((join qs).drop (partStart qs 5 - 4)).take (4 : Int).toNat)[k]? = some 47 := by
          rw [List.getElem?_take_of_lt (show k < (4 : Int).toNat from k1)]; exact k3
        rw [hx] at k4
        match k, k2, k4 with
        | 0, _, k4 => simp at k4
        | 1, _, k4 => simp at k4
        | 2, _, k4 => simp at k4
    · rfl
  rw [hmin]
  simp only [Option.bind_some, Bool.false_eq_true, if_false]
  rw [if_neg (by omega)]
  have d1 := dates_text hps
  have d2 := dates_text hqs
  rw [h3, h5] at d1
  have d2' := d2
  rw [← h1] at d2
  rw [d1, h3, d2]
  simp

/-! ### One copy -/

theorem info_words {s : Eng} {p : Bytes} {k : Chk} {info : Nat → Nat} (h : zreadInfo c s p REC_STATUS_VALID = some (k, some info)) :
    info = fun i => s.disk (k.infoAdd + i) := by
  unfold zreadInfo at h
  cases hz : zcheck c s p REC_STATUS_VALID with
  | none => rw [hz] at h; cases h
  | some k' =>
    rw [hz, Option.map_some] at h
    injection h with h
    split at h
    · dsimp only at h
      split at h
      · injection h with h1 h2
        injection h2 with h2
        rw [← h2, ← h1]
      · injection h with h1 h2; cases h2
    · injection h with h1 h2; cases h2

/-- The record a copy is made of. -/
theorem source_info (hc : c.OK) {G : Ghost} {s : Eng} (I : Inv c G s) {ps : List Bytes} (hps : SixParts ps) (hl : (join ps).length ≤ 392)
    (hold : ∀ e, ps[4]? = some e → ¬ OldMinute e) {R : Rec} (hz : zread c s (join ps) = some (some R)) :
    ∃ k info, zreadInfoName c s (join ps) = some ((k, join ps), some info) ∧ readArrays s.disk (fun i => s.disk (k.infoAdd + i)) = R := by
  obtain ⟨k, info, k1, k2, k3, k4, k5⟩ := found_info hc I hl hz
  refine ⟨k, info, ?_, ?_⟩
  · rw [zreadInfoName_plain (not_old hps hold), k3]; rfl
  · rw [← info_words k3]; exact k4

theorem no_info (hc : c.OK) {G : Ghost} {s : Eng} (I : Inv c G s) {ps : List Bytes} (hps : SixParts ps) (hl : (join ps).length ≤ 392)
    (hold : ∀ e, ps[4]? = some e → ¬ OldMinute e) (hz : zread c s (join ps) = some none) :
    ∃ x, zreadInfoName c s (join ps) = some (x, none) := by
  obtain ⟨k, k1, k2⟩ := not_found hc I hl hz
  refine ⟨(k, join ps), ?_⟩
  rw [zreadInfoName_plain (not_old hps hold)]
  unfold zreadInfo
  rw [k1]
  simp [k2]

theorem duplicate_missing (hc : c.OK) {G : Ghost} {s : Eng} (I : Inv c G s) {ps qs : List Bytes} (N : CopyNames ps qs) (hz : zread c s (join ps) = some none)
    {buf : Bytes} (hb : 129 ≤ buf.length) (e : CopyEnv) (junk : Int) (long : Option (Eng × Res)) :
    zduplicateRecord c s e (join ps) (join qs) buf junk long = some (s, .notFound) := by
  obtain ⟨a, _, a1, _, a2⟩ := elev_total N.six hb junk
  obtain ⟨b, _, b1, _, b2⟩ := elev_total N.six' hb junk
  have hab : (a && b) = false := by
    rcases N.elev with h | h
    · rw [(a2 h).1]; rfl
    · rw [(b2 h).1]; simp
  obtain ⟨x, hx⟩ := no_info hc I N.six N.short N.old hz
  unfold zduplicateRecord
  rw [a1, b1]
  simp only [Option.bind_some, hab, Bool.false_eq_true, if_false]
  rw [hx]
  rfl

theorem duplicate_ok (hc : c.OK) {G : Ghost} {s : Eng} {past : List Op} (H : HInv c G s past) (L : LogOK (abs c G s.disk)) {ps qs : List Bytes}
    (h : MayDuplicate c past s ps qs) {R : Rec} (hz : zread c s (join ps) = some (some R)) {buf : Bytes} (hb : 129 ≤ buf.length) (e : CopyEnv) (junk : Int) (long : Option (Eng × Res)) :
    ∃ x G' s' res, zduplicateRecord c s e (join ps) (join qs) buf junk long = some (s', res) ∧ HInv c G' s' past ∧
      Received (abs c G s.disk) (join qs) R.dataType (fun v => { R with version := v, lastWrite := e.now x }) res (abs c G' s'.disk) := by
  obtain ⟨N, hR⟩ := h
  obtain ⟨hN, hm⟩ := hR R hz
  obtain ⟨a, _, a1, _, a2⟩ := elev_total N.six hb junk
  obtain ⟨b, _, b1, _, b2⟩ := elev_total N.six' hb junk
  have hab : (a && b) = false := by
    rcases N.elev with h | h
    · rw [(a2 h).1]; rfl
    · rw [(b2 h).1]; simp
  obtain ⟨k, info, k1, k2⟩ := source_info hc H.inv N.six N.short N.old hz
  have hlog : R.logicalNumber = 0 → R.numberValues = 0 := by
    rw [zread_abs hc H.inv N.short] at hz
    injection hz with hz
    exact L _ R (Or.inl hz)
  refine ⟨k.infoAdd, ?_⟩
  unfold zduplicateRecord
  rw [a1, b1]
  simp only [Option.bind_some, hab, Bool.false_eq_true, if_false]
  rw [k1]
  exact copy_within (e := e) hc H k2 hlog hN N.six' N.short' hm

theorem copy_ok {cf : Cfg} (hcf : cf.OK) {Gf : Ghost} {f : Eng} {pastf : List Op} (Hf : HInv cf Gf f pastf) (L : LogOK (abs cf Gf f.disk))
    (hc : c.OK) {G : Ghost} {s : Eng} {past : List Op} (H : HInv c G s past) {ps qs : List Bytes} (h : MayCopy cf f c past s ps qs)
    {R : Rec} (hz : zread cf f (join ps) = some (some R)) {buf : Bytes} (hb : 129 ≤ buf.length) (e : CopyEnv) (junk : Int) (long : Option (Eng × Res)) :
    ∃ G' s' res, zcopyRecord cf f c s false e (join ps) (join qs) buf junk long = some (s', res) ∧ HInv c G' s' past ∧
      Received (abs c G s.disk) (join qs) R.dataType (fun _ => R) res (abs c G' s'.disk) := by
  obtain ⟨N, _, hR⟩ := h
  obtain ⟨hN, hsmall, hdates, hm⟩ := hR R hz
  obtain ⟨k0, info0, j1, j2, j3, j4, j5⟩ := found_info hcf Hf.inv N.short hz
  obtain ⟨a, a', a1, a1', a2⟩ := elev_total N.six hb junk
  obtain ⟨b, b', b1, b1', b2⟩ := elev_total N.six' hb junk
  have hab : (a && b) = false ∧ (a' && b') = false := by
    rcases N.elev with h | h
    · rw [(a2 h).1, (a2 h).2]; exact ⟨rfl, rfl⟩
    · rw [(b2 h).1, (b2 h).2]; simp
  obtain ⟨k, info, k1, k2⟩ := source_info hcf Hf.inv N.six N.short N.old hz
  have hlog : R.logicalNumber = 0 → R.numberValues = 0 := by
    rw [zread_abs hcf Hf.inv N.short] at hz
    injection hz with hz
    exact L _ R (Or.inl hz)
  -- the type of the data
  generalize ht : UInt32.ofNat (lo32 (binTypeWord f k0)) = t at j5
  have hty : hecDataType cf f (join ps) buf junk = some (toInt32 t.toNat) := by
    unfold hecDataType
    rw [zcheckName_plain (not_old N.six N.old), j1]
    simp only [Option.map_some, Option.bind_some, if_pos j2]
    rw [low_i32, ht]
  have ht31 : t.toNat < 2 ^ 31 := by
    rcases j5 with h | ⟨h, _⟩ | ⟨h, _⟩
    · rw [h]; exact hsmall
    · simp only [List.mem_cons, List.not_mem_nil, or_false] at h
      rcases h with h | h <;> subst h <;> decide
    · simp only [List.mem_cons, List.not_mem_nil, or_false] at h
      rcases h with h | h <;> subst h <;> decide
  have hser : 100 ≤ t.toNat → t.toNat < 200 → SameDates ps qs := by
    intro h1 h2
    have key : 100 ≤ R.dataType ∧ R.dataType < 200 := by
      rcases j5 with h | ⟨_, h⟩ | ⟨_, h⟩
      · rw [← h]
        exact ⟨UInt32.le_iff_toNat_le.mpr h1, UInt32.lt_iff_toNat_lt.mpr h2⟩
      · simp only [List.mem_cons, List.not_mem_nil, or_false] at h
        rcases h with h | h <;> rw [h] <;> decide
      · simp only [List.mem_cons, List.not_mem_nil, or_false] at h
        rcases h with h | h <;> rw [h] <;> decide
    exact hdates key.1 key.2
  have hdir : copiesDirectly (toInt32 t.toNat) (join ps) (join qs) buf junk = some true := by
    rw [toInt32_small ht31]
    unfold copiesDirectly
    rw [a1, b1]
    simp only [Option.bind_some]
    split
    · next hr =>
      rw [dates_found N.six N.six' (hser (by omega) (by omega)) junk, Option.map_some, hab.1]; rfl
    · split
      · rw [a1', b1', Option.bind_some, Option.map_some, hab.2]; rfl
      · rfl
  unfold zcopyRecord
  rw [hty, Option.bind_some, if_neg (by rw [toInt32_small ht31]; omega), hdir, Option.bind_some, if_pos rfl, k1]
  exact copy_to (e := e) hc H k2 hlog hN N.six' N.short' hm

/-! ### Files in use -/

theorem Received.logOK {st st' : Store} {q : Bytes} {t : UInt32} {new : UInt32 → Rec} {res : Res} (h : Received st q t new res st')
    (hn : ∀ v, (new v).logicalNumber = 0 → (new v).numberValues = 0) (L : LogOK st) : LogOK st' := by
  cases h with
  | fresh a1 a2 a3 =>
    intro x R hx
    rcases hx with hx | hx
    · rcases Set.opt a2 hx with h | h
      · injection h with h; rw [← h]; exact hn _
      · exact L x R (Or.inl h)
    · exact L x R (Or.inr (DropOne.mem a3 hx))
  | over a1 a2 a3 a4 =>
    intro x R hx
    rcases hx with hx | hx
    · rcases Set.opt a3 hx with h | h
      · injection h with h; rw [← h]; exact hn _
      · exact L x R (Or.inl h)
    · rw [a4] at hx; exact L x R (Or.inr hx)
  | refused => exact L

theorem in_use {c : Cfg} {past : List Op} {s : Eng} (h : InUse c past s) : c.OK ∧ ∃ G, HInv c G s past ∧ LogOK (abs c G s.disk) := by
  induction h with
  | new g =>
    refine ⟨create_OK g, _, newFile_inv (by have := g.bin; omega), ?_⟩
    rw [newFile_abs]
    intro q R h
    simp [Store.empty] at h
  | call _ ha hr ih =>
    obtain ⟨hc, G, H, L⟩ := ih
    obtain ⟨G', s', res, k1, S, H'⟩ := HInv.step hc H ha
    rw [hr] at k1
    injection k1 with k1
    injection k1 with k1 k2
    subst k1
    exact ⟨hc, G', H', LogOK.step S.step L⟩
  | @duplicate c past s s' ps qs e buf junk long res _ hm hb hr ih =>
    obtain ⟨hc, G, H, L⟩ := ih
    cases hz : (abs c G s.disk).live (join ps) with
    | none =>
      rw [duplicate_missing hc H.inv hm.1 (by rw [zread_abs hc H.inv hm.1.short, hz]) hb] at hr
      injection hr with hr
      injection hr with hr _
      subst hr
      exact ⟨hc, G, H, L⟩
    | some R =>
      obtain ⟨x, G', s2, res2, k1, k2, k3⟩ := duplicate_ok hc H L hm (R := R) (by rw [zread_abs hc H.inv hm.1.short, hz]) hb e junk long
      rw [hr] at k1
      injection k1 with k1
      injection k1 with k1 _
      subst k1
      exact ⟨hc, G', k2, k3.logOK (fun _ => L _ R (Or.inl hz)) L⟩
  | @copy cf c pastf past f s s' ps qs e buf junk long res _ _ hm hb hr ihf ih =>
    obtain ⟨hcf, Gf, Hf, Lf⟩ := ihf
    obtain ⟨hc, G, H, L⟩ := ih
    obtain ⟨R, hz⟩ := hm.2.1
    obtain ⟨G', s2, res2, k1, k2, k3⟩ := copy_ok hcf Hf Lf hc H hm hz hb e junk long
    rw [hr] at k1
    injection k1 with k1
    injection k1 with k1 _
    subst k1
    refine ⟨hc, G', k2, k3.logOK (fun _ => Lf (join ps) R (Or.inl ?_)) L⟩
    rw [zread_abs hcf Hf.inv hm.1.short] at hz
    injection hz

theorem in_use_runs : ∀ (ops : List Op) {past : List Op} {s s' : Eng} {ress : List Res}, InUse c past s → AllAllowed c past s ops → runs c s ops = some (s', ress) →
    InUse c (past ++ ops) s'
  | [], past, s, s', ress, h, _, hr => by
    simp only [runs, Option.some.injEq, Prod.mk.injEq] at hr
    rw [← hr.1]; simpa using h
  | op :: ops, past, s, s', ress, h, ha, hr => by
    unfold runs at hr
    cases h1 : run c s op with
    | none => rw [h1] at hr; cases hr
    | some x =>
      obtain ⟨s1, res⟩ := x
      rw [h1, Option.bind_some] at hr
      cases h2 : runs c s1 ops with
      | none => rw [h2] at hr; cases hr
      | some y =>
        obtain ⟨s2, ress2⟩ := y
        rw [h2, Option.map_some] at hr
        injection hr with hr
        injection hr with hr _
        subst hr
        have := in_use_runs ops (InUse.call h ha.1 h1) (ha.2 s1 res h1) h2
        simpa using this

/-- The files of the other theorems are files in use. -/
theorem in_use_reachable {hdrSize maxHash binSize : Nat} {mul : Nat → Nat} (g : GoodSizes hdrSize maxHash binSize) {past : List Op} {s : Eng}
    (R : Reachable (create hdrSize maxHash binSize mul).1 (create hdrSize maxHash binSize mul).2 past s) : InUse (create hdrSize maxHash binSize mul).1 past s := by
  obtain ⟨ha, ress, hr⟩ := R
  simpa using in_use_runs past (InUse.new g) ha hr

/-- What a copy does, seen by reading. -/
theorem received_reads (hc : c.OK) {G G' : Ghost} {s s' : Eng} (I : Inv c G s) (I' : Inv c G' s') {q : Bytes} (hl : q.length ≤ 392) {t : UInt32} {new : UInt32 → Rec} {res : Res}
    (h : Received (abs c G s.disk) q t new res (abs c G' s'.disk)) :
    (zread c s q = some none ∧ res = .ok ∧ ∀ x, x.length ≤ 392 → (sameUpToCase q x → zread c s' x = some (some (new 1))) ∧ (¬ sameUpToCase q x → zread c s' x = zread c s x)) ∨
    ∃ R', zread c s q = some (some R') ∧
      (compatible R'.dataType t → res = .ok ∧ ∀ x, x.length ≤ 392 → (sameUpToCase q x → zread c s' x = some (some (new (R'.version + 1)))) ∧ (¬ sameUpToCase q x → zread c s' x = zread c s x)) ∧
      (¬ compatible R'.dataType t → res = .differentType ∧ ∀ x, x.length ≤ 392 → zread c s' x = zread c s x) := by
  have set_reads : ∀ v, Set (abs c G s.disk).live (abs c G' s'.disk).live q (some v) →
      ∀ x, x.length ≤ 392 → (sameUpToCase q x → zread c s' x = some (some v)) ∧ (¬ sameUpToCase q x → zread c s' x = zread c s x) := by
    intro v hs x hx
    rw [zread_abs hc I' hx, zread_abs hc I hx]
    exact ⟨fun h => by rw [(hs x).1 h], fun h => by rw [(hs x).2 h]⟩
  rw [zread_abs hc I hl]
  generalize hst' : abs c G' s'.disk = st' at h
  cases h with
  | fresh a1 a2 a3 => subst hst'; exact Or.inl ⟨by rw [a1], rfl, set_reads _ a2⟩
  | over a1 a2 a3 a4 => subst hst'; exact Or.inr ⟨_, by rw [a1], fun _ => ⟨rfl, set_reads _ a3⟩, fun hn => absurd a2 hn⟩
  | refused a1 a2 =>
    refine Or.inr ⟨_, by rw [a1], fun hn => absurd hn a2, fun _ => ⟨rfl, fun x hx => ?_⟩⟩
    rw [zread_abs hc I' hx, zread_abs hc I hx, hst']

/-- C88.  A record duplicated under another pathname: the duplicate has its headers, values and dates; it is as new as
any other write (version, time of the last write).  No other record changes, and the original only if it has the same
pathname.  A record of another type under the new pathname stays as it is. -/
theorem C88_duplicate_partial {past : List Op} {s : Eng} (h : InUse c past s) {ps qs : List Bytes} (hm : MayDuplicate c past s ps qs) {R : Rec}
    (hz : zread c s (join ps) = some (some R)) {buf : Bytes} (hb : 129 ≤ buf.length) {e : CopyEnv} {now : Nat} (hnow : ∀ x, e.now x = now) (junk : Int) (long : Option (Eng × Res)) :
    ∃ s' res, zduplicateRecord c s e (join ps) (join qs) buf junk long = some (s', res) ∧
      ((zread c s (join qs) = some none ∧ res = .ok ∧ ∀ x, x.length ≤ 392 →
          (sameUpToCase (join qs) x → zread c s' x = some (some { R with version := 1, lastWrite := now })) ∧ (¬ sameUpToCase (join qs) x → zread c s' x = zread c s x)) ∨
        ∃ R', zread c s (join qs) = some (some R') ∧
          (compatible R'.dataType R.dataType → res = .ok ∧ ∀ x, x.length ≤ 392 →
            (sameUpToCase (join qs) x → zread c s' x = some (some { R with version := R'.version + 1, lastWrite := now })) ∧ (¬ sameUpToCase (join qs) x → zread c s' x = zread c s x)) ∧
          (¬ compatible R'.dataType R.dataType → res = .differentType ∧ ∀ x, x.length ≤ 392 → zread c s' x = zread c s x)) := by
  obtain ⟨hc, G, H, L⟩ := in_use h
  obtain ⟨x, G', s', res, k1, k2, k3⟩ := duplicate_ok hc H L hm hz hb e junk long
  rw [hnow] at k3
  exact ⟨s', res, k1, received_reads hc H.inv k2.inv hm.1.short' k3⟩

/-- C88.  Without a record nothing happens. -/
theorem C88_missing {past : List Op} {s : Eng} (h : InUse c past s) {ps qs : List Bytes} (N : CopyNames ps qs) (hz : zread c s (join ps) = some none)
    {buf : Bytes} (hb : 129 ≤ buf.length) (e : CopyEnv) (junk : Int) (long : Option (Eng × Res)) :
    zduplicateRecord c s e (join ps) (join qs) buf junk long = some (s, .notFound) := by
  obtain ⟨hc, G, H, L⟩ := in_use h
  exact duplicate_missing hc H.inv N hz hb e junk long

/-- C89.  A record copied to another file, under any pathname that is allowed: reading it there gives what reading the
original gives: headers, values, dates, version, time of the last write.  No other record changes.  A record of another
type under the new pathname stays as it is. -/
theorem C89_copy_partial {cf : Cfg} {pastf past : List Op} {f s : Eng} (hf : InUse cf pastf f) (h : InUse c past s) {ps qs : List Bytes}
    (hm : MayCopy cf f c past s ps qs) {R : Rec} (hz : zread cf f (join ps) = some (some R)) {buf : Bytes} (hb : 129 ≤ buf.length) (e : CopyEnv) (junk : Int) (long : Option (Eng × Res)) :
    ∃ s' res, zcopyRecord cf f c s false e (join ps) (join qs) buf junk long = some (s', res) ∧
      ((∀ R', zread c s (join qs) = some (some R') → compatible R'.dataType R.dataType) → res = .ok ∧ ∀ x, x.length ≤ 392 →
          (sameUpToCase (join qs) x → zread c s' x = some (some R)) ∧ (¬ sameUpToCase (join qs) x → zread c s' x = zread c s x)) ∧
      (∀ R', zread c s (join qs) = some (some R') → ¬ compatible R'.dataType R.dataType → res = .differentType ∧ ∀ x, x.length ≤ 392 → zread c s' x = zread c s x) := by
  obtain ⟨hcf, Gf, Hf, Lf⟩ := in_use hf
  obtain ⟨hc, G, H, L⟩ := in_use h
  obtain ⟨G', s', res, k1, k2, k3⟩ := copy_ok hcf Hf Lf hc H hm hz hb e junk long
  refine ⟨s', res, k1, ?_⟩
  rcases received_reads hc H.inv k2.inv hm.1.short' k3 with ⟨a1, a2, a3⟩ | ⟨R', a1, a2, a3⟩
  · refine ⟨fun _ => ⟨a2, a3⟩, fun R' hR' => ?_⟩
    rw [a1] at hR'; cases hR'
  · refine ⟨fun hcm => a2 (hcm R' a1), fun R2 hR2 hn => ?_⟩
    rw [a1] at hR2
    injection hR2 with hR2
    injection hR2 with hR2
    subst hR2
    exact a3 hn

/-- C88, C89.  Files with duplicates and copies are files like others: the calls that follow do what they do on a store
with the records that can be read. -/
theorem C88_goes_on {past : List Op} {s : Eng} (h : InUse c past s) {op : Op} (ha : Allowed c past s op) :
    ∃ (st st' : Store) (s' : Eng) (res : Res), (∀ q, q.length ≤ 392 → zread c s q = some (st.live q)) ∧ run c s op = some (s', res) ∧ Step st op res st' ∧
      ∀ q, q.length ≤ 392 → zread c s' q = some (st'.live q) := by
  obtain ⟨hc, G, H, L⟩ := in_use h
  obtain ⟨G', s', res, k1, S, H'⟩ := HInv.step hc H ha
  exact ⟨_, _, s', res, fun q hq => zread_abs hc H.inv hq, k1, S.step, fun q hq => zread_abs hc H'.inv hq⟩

end Hec
