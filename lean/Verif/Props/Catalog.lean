import Verif.Proofs.Catalog
import Verif.Props.Engine
import Verif.Props.EngineCases
import Verif.Spec.Catalog
/-!
The catalog of a file (C48): which records it lists after a history of writes, deletes, undeletes and renames.
-/
namespace Hec
set_option linter.unusedSimpArgs false
set_option linter.unusedVariables false
set_option synthInstance.maxSize 1000
set_option synthInstance.maxHeartbeats 200000
open _root_.Spec (Op Reachable GoodSizes create runs compatible WrittenIn)
open Hec.Spec (sameUpToCase)

/-- The request of a full catalog. -/
def everything : CatReq := ⟨REC_STATUS_VALID, 0, 0, 0, 0, 0, fun _ => true⟩

theorem valid_live (st : Nat) : zcompareRecordStatus st REC_STATUS_VALID = true ↔ st ≤ 2 := by
  unfold zcompareRecordStatus REC_STATUS_VALID REC_PRIMARY REC_VALID REC_ALIAS REC_DELETED REC_RENAMED REC_ANY
  repeat' split
  all_goals simp
  all_goals omega

variable {c : Cfg} {G : Ghost} {s : Eng}

theorem entry_valid {h : Nat} {e : BinEnt} (hok : EntryOK c h e) : zcompareRecordStatus e.st REC_STATUS_VALID = decide (live e) := by
  rw [Bool.eq_iff_iff, valid_live, decide_eq_true_eq]
  have := hok.st
  unfold live dead gone REC_STATUS_DELETED REC_STATUS_RENAMED at *
  omega

theorem increasing_unique {L M : Chain} (h1 : L.Pairwise (fun x y => x.1 < y.1)) (h2 : M.Pairwise (fun x y => x.1 < y.1))
    (h : ∀ be, be ∈ L ↔ be ∈ M) : L = M := by
  have n1 : L.Nodup := h1.imp (fun {a b} hab he => by subst he; omega)
  have n2 : M.Nodup := h2.imp (fun {a b} hab he => by subst he; omega)
  exact ((List.perm_ext_iff_of_nodup n1 n2).mpr h).eq_of_pairwise (fun a b _ _ h3 h4 => by omega) h1 h2

/-- The bins of the file in the order of their addresses, the same for all requests. -/
theorem walk_all (hc : c.OK) (I : Inv c G s) :
    ∃ L : Chain, (∀ q, catBlocks c q s.disk (s.hdr.fileSize + 1) c.firstBin = some (rowsOf q L)) ∧
      (∀ be ∈ L, ∃ h, h < c.maxHash ∧ be ∈ G.chain h) ∧ L.Pairwise (fun x y => x.1 < y.1) ∧
      (∀ h, h < c.maxHash → ∀ be ∈ G.chain h, be ∈ L) := by
  obtain ⟨L, h1, h2, h3, h4⟩ := walk_ok hc I everything
  refine ⟨L, fun q => ?_, h2, h3, h4⟩
  obtain ⟨M, m1, m2, m3, m4⟩ := walk_ok hc I q
  have : L = M := increasing_unique h3 m3 fun be =>
    ⟨fun hb => by obtain ⟨h, hh, hm⟩ := h2 be hb; exact m4 h hh be hm, fun hb => by obtain ⟨h, hh, hm⟩ := m2 be hb; exact h4 h hh be hm⟩
  rw [this]; exact m1

theorem placed_mem {e : BinEnt} {y : Nat} (es : List BinEnt) : ∀ {x : Nat}, (e, y) ∈ placed x es → e ∈ es := by
  induction es with
  | nil => intro x h; simp [placed] at h
  | cons a es ih =>
    intro x h
    simp only [placed, List.mem_cons, Prod.mk.injEq] at h
    rcases h with ⟨rfl, _⟩ | h
    · simp
    · exact List.mem_cons_of_mem _ (ih h)

theorem mem_placed {e : BinEnt} (es : List BinEnt) : ∀ {x : Nat}, e ∈ es → ∃ y, (e, y) ∈ placed x es := by
  induction es with
  | nil => intro x h; simp at h
  | cons a es ih =>
    intro x h
    rcases List.mem_cons.mp h with rfl | h
    · exact ⟨x, by simp [placed]⟩
    · obtain ⟨y, hy⟩ := ih (x := x + a.size) h
      exact ⟨y, by simp [placed, hy]⟩

/-- An entry of the bins listed. -/
theorem entry_of_mem (hc : c.OK) (I : Inv c G s) {L : Chain} (h2 : ∀ be ∈ L, ∃ h, h < c.maxHash ∧ be ∈ G.chain h) {e : BinEnt} {y : Nat}
    (he : (e, y) ∈ binsPlaced L) : c.tHash e.path < c.maxHash ∧ e ∈ centries (G.chain (c.tHash e.path)) ∧ EntryOK c (c.tHash e.path) e := by
  obtain ⟨be, hbe, he⟩ := List.mem_flatMap.mp he
  obtain ⟨h, hh, hm⟩ := h2 be hbe
  have hec : e ∈ centries (G.chain h) := by
    obtain ⟨C1, C2, hC⟩ := List.append_of_mem hm
    obtain ⟨b, es⟩ := be
    rw [hC]; simp [placed_mem _ he]
  have hok := (I.w.chains h hh).ok e hec
  have := hok.hash
  rw [this]
  exact ⟨hh, hec, hok⟩

theorem live_read (hc : c.OK) (I : Inv c G s) {e : BinEnt} (hh : c.tHash e.path < c.maxHash)
    (hem : e ∈ centries (G.chain (c.tHash e.path))) (hel : live e) :
    ∃ rec, zread c s e.path = some (some rec) ∧ compatible (UInt32.ofNat (lo32 e.typeCat)) rec.dataType := by
  have K := I.w.chains _ hh
  have hok := K.ok e hem
  cases hz : (abs c G s.disk).live e.path with
  | some rec =>
    refine ⟨rec, by rw [zread_abs hc I hok.len, hz], ?_⟩
    obtain ⟨A, B, e', T, hm, hl, hA, hB⟩ := live_entry hc I hok.len hz
    have he : e = e' := by
      have h1 := T.ents
      rw [h1] at hem
      simp only [List.mem_append, List.mem_cons] at hem
      rcases hem with h | h | h
      · exact absurd (Or.inr (hA e h (Same.refl _))) (live_not_dead hel)
      · exact h
      · exact absurd (hB e h (Same.refl _)) (live_not_dead hel)
    subst he
    have h1 := T.rcd.ok.tc
    rw [← T.rcd.eq]
    exact h1
  | none =>
    have := dead_entries hc I hok.len hz e hem (Same.refl _)
    exact absurd this (live_not_dead hel)

theorem rowsOf_valid {L : Chain} (hL : ∀ p ∈ binsPlaced L, EntryOK c (c.tHash p.1.path) p.1) {q : CatReq} (hq : q.statusWanted = REC_STATUS_VALID) :
    rowsOf q L = (((binsPlaced L).filter fun p => decide (live p.1)).map fun p => rowOf p.1 p.2).filter (rowFound q) := by
  unfold rowsOf
  rw [List.filter_map, List.filter_filter]
  congr 1
  apply List.filter_congr
  intro p hp
  unfold want
  rw [hq, entry_valid (hL p hp), Bool.and_comm]
  rfl

/-- The rows of all bins: one for each live entry. -/
theorem rows_count {L : Chain} (h2 : ∀ be ∈ L, ∃ h, h < c.maxHash ∧ be ∈ G.chain h) (h3 : L.Pairwise (fun x y => x.1 < y.1))
    (h4 : ∀ h, h < c.maxHash → ∀ be ∈ G.chain h, be ∈ L) (I : Inv c G s) (hi : 0 < c.isize) :
    ((binsPlaced L).filter fun p => decide (live p.1)).length = liveCount c G := by
  have n1 : L.Nodup := h3.imp (fun {a b} hab he => by subst he; omega)
  have n2 : ((List.range c.maxHash).flatMap fun h => G.chain h).Nodup := by
    unfold List.Nodup
    rw [List.pairwise_flatMap]
    constructor
    · intro h hh
      have := (I.w.chains h (List.mem_range.mp hh)).nodupB
      unfold List.Nodup at this
      rw [List.pairwise_map] at this
      exact this.imp (fun {a b} hab he => hab (by rw [he]))
    · refine List.Pairwise.imp_of_mem ?_ (List.nodup_range (n := c.maxHash))
      intro h1 h2 hh1 hh2 hne x hx y hy he
      subst he
      have a1 := (I.w.chains h1 (List.mem_range.mp hh1)).bins x hx 0 hi
      have a2 := (I.w.chains h2 (List.mem_range.mp hh2)).bins x hy 0 hi
      rw [a1] at a2
      injection a2 with a3 _
      exact hne a3
  have hp : L.Perm ((List.range c.maxHash).flatMap fun h => G.chain h) := by
    rw [List.perm_ext_iff_of_nodup n1 n2]
    intro be
    rw [List.mem_flatMap]
    constructor
    · intro hb; obtain ⟨h, hh, hm⟩ := h2 be hb; exact ⟨h, List.mem_range.mpr hh, hm⟩
    · rintro ⟨h, hh, hm⟩; exact h4 h (List.mem_range.mp hh) be hm
  have e1 : ((binsPlaced L).filter fun p => decide (live p.1)).length = (centries L).countP fun e => decide (live e) := by
    rw [← binsPlaced_fst, List.countP_map, List.countP_eq_length_filter]
    rfl
  rw [e1]
  have e2 : ∀ C : Chain, (centries C).countP (fun e => decide (live e)) = (C.map fun be => be.2.countP fun e => decide (live e)).sum := by
    intro C
    induction C with
    | nil => rfl
    | cons be C ih => obtain ⟨b, es⟩ := be; rw [centries_cons, List.countP_append, ih]; rfl
  rw [e2, (hp.map _).sum_nat, List.map_flatMap]
  unfold liveCount
  induction List.range c.maxHash with
  | nil => rfl
  | cons h l ih => simp only [List.flatMap_cons, List.sum_append, List.map_cons, List.sum_cons, ih, e2]

section
variable {hdrSize maxHash binSize : Nat} {mul : Nat → Nat}

/-- C48.  The catalog of a file lists every pathname that can be read, once, and no other: the rows are
pairwise different (up to letter case), each can be read, and the type in the row is one that the
record's type may be exchanged with.  There are as many rows as the record count says. -/
theorem C48_catalog_partial (g : GoodSizes hdrSize maxHash binSize) {past : List Op} {s : Eng}
    (R : Reachable (create hdrSize maxHash binSize mul).1 (create hdrSize maxHash binSize mul).2 past s) :
    ∃ rows, zcatalog (create hdrSize maxHash binSize mul).1 s everything = some rows ∧ rows.length = s.hdr.numberRecords ∧
      rows.Pairwise (fun a b => ¬ sameUpToCase a.path b.path) ∧
      (∀ r ∈ rows, r.path.length ≤ 392 ∧ ∃ rec, zread (create hdrSize maxHash binSize mul).1 s r.path = some (some rec) ∧
        compatible (UInt32.ofNat r.dataType) rec.dataType) ∧
      ∀ q rec, q.length ≤ 392 → zread (create hdrSize maxHash binSize mul).1 s q = some (some rec) → ∃ r ∈ rows, sameUpToCase r.path q := by
  obtain ⟨G, H⟩ := reach g R
  have hc := create_OK (mul := mul) g
  generalize (create hdrSize maxHash binSize mul).1 = c at *
  obtain ⟨L, h1, h2, h3, h4⟩ := walk_all hc H.inv
  have hi := hc.isize
  have hEnt := fun (p : BinEnt × Nat) (hp : p ∈ binsPlaced L) => entry_of_mem hc H.inv h2 hp
  have hrows := rowsOf_valid (c := c) (L := L) (fun p hp => (hEnt p hp).2.2) (q := everything) rfl
  have hcnt := rows_count h2 h3 h4 H.inv (by omega)
  have hall : ∀ l : List CatRow, l.filter (rowFound everything) = l := by
    intro l; apply List.filter_eq_self.mpr; intro a _; rfl
  rw [hall] at hrows
  have hlen : (rowsOf everything L).length = s.hdr.numberRecords := by rw [hrows, List.length_map, hcnt, H.count]
  refine ⟨rowsOf everything L, ?_, hlen, ?_, ?_, ?_⟩
  · unfold zcatalog
    rw [h1 everything, Option.map_some, List.take_of_length_le]
    unfold catListSize
    simp only [everything] at *
    rw [hlen]; simp; omega
  · rw [hrows, List.pairwise_map, List.pairwise_filter]
    have hpw : (binsPlaced L).Pairwise fun a b => Same a.1.path b.1.path → dead a.1 ∨ dead b.1 := by
      unfold binsPlaced
      rw [List.pairwise_flatMap]
      constructor
      · intro be hbe
        obtain ⟨h, hh, hm⟩ := h2 be hbe
        have ho := (H.inv.w.chains h hh).order
        obtain ⟨C1, C2, hC⟩ := List.append_of_mem hm
        obtain ⟨b, es⟩ := be
        rw [hC] at ho
        have ho2 : es.Pairwise fun e f => ¬ gone e → Same e.path f.path → dead f := by
          refine ho.sublist ?_
          simp
        have : ((placed b es).map (·.1)).Pairwise fun e f => ¬ gone e → Same e.path f.path → dead f := by rw [placed_fst]; exact ho2
        rw [List.pairwise_map] at this
        exact this.imp (fun {a b} hab hs => (Classical.em (gone a.1)).elim (fun h => Or.inl (Or.inr h)) (fun h => Or.inr (hab h hs)))
      · refine List.Pairwise.imp_of_mem ?_ h3
        intro be1 be2 hb1 hb2 hlt x hx y hy hs
        obtain ⟨k1, hk1, hm1⟩ := h2 be1 hb1
        obtain ⟨k2, hk2, hm2⟩ := h2 be2 hb2
        have hx' := placed_mem _ hx
        have hy' := placed_mem _ hy
        obtain ⟨x, xa⟩ := x
        obtain ⟨y, ya⟩ := y
        have ex := hEnt (x, xa) (List.mem_flatMap.mpr ⟨be1, hb1, hx⟩)
        have ey := hEnt (y, ya) (List.mem_flatMap.mpr ⟨be2, hb2, hy⟩)
        have hxk : c.tHash x.path = k1 := by
          refine ((H.inv.w.chains k1 hk1).ok x ?_).hash
          obtain ⟨C1, C2, hC⟩ := List.append_of_mem hm1
          obtain ⟨b, es⟩ := be1
          rw [hC]; simp [hx']
        have hyk : c.tHash y.path = k2 := by
          refine ((H.inv.w.chains k2 hk2).ok y ?_).hash
          obtain ⟨C1, C2, hC⟩ := List.append_of_mem hm2
          obtain ⟨b, es⟩ := be2
          rw [hC]; simp [hy']
        have hkk : k1 = k2 := by rw [← hxk, ← hyk]; exact hc.tHash_same _ _ hs
        subst hkk
        have ho := (H.inv.w.chains k1 hk1).order
        have key : ∀ {C : Chain} {b1 b2 : Nat × List BinEnt} {x y : BinEnt}, (centries C).Pairwise (fun e f => ¬ gone e → Same e.path f.path → dead f) →
            b1 ∈ C → b2 ∈ C → b1 ≠ b2 → x ∈ b1.2 → y ∈ b2.2 → Same x.path y.path → dead x ∨ dead y := by
          intro C b1 b2 x y hC hb1 hb2 hne hx hy hs
          have mem_of : ∀ {C : Chain} {b : Nat × List BinEnt} {x : BinEnt}, b ∈ C → x ∈ b.2 → x ∈ centries C := by
            intro C b x hb hx
            obtain ⟨C1, C2, hC⟩ := List.append_of_mem hb
            obtain ⟨b0, es⟩ := b
            rw [hC]; simp [hx]
          induction C with
          | nil => simp at hb1
          | cons b0 C ih =>
            obtain ⟨a0, es⟩ := b0
            rw [centries_cons, List.pairwise_append] at hC
            rcases List.mem_cons.mp hb1 with h1 | h1
            · rcases List.mem_cons.mp hb2 with h2 | h2
              · exact absurd (h1.trans h2.symm) hne
              · rcases Classical.em (gone x) with hg | hg
                · exact Or.inl (Or.inr hg)
                exact Or.inr (hC.2.2 x (by rw [h1] at hx; exact hx) y (mem_of h2 hy) hg hs)
            · rcases List.mem_cons.mp hb2 with h2 | h2
              · rcases Classical.em (gone y) with hg | hg
                · exact Or.inr (Or.inr hg)
                exact Or.inl (hC.2.2 y (by rw [h2] at hy; exact hy) x (mem_of h1 hx) hg hs.symm)
              · exact ih hC.2.1 h1 h2
        exact key ho hm1 hm2 (fun he => by subst he; omega) hx' hy' hs
    refine hpw.imp ?_
    intro a b hab ha hb hs
    simp only [rowOf] at hs
    rw [same_iff] at hs
    simp only [decide_eq_true_eq] at ha hb
    rcases hab hs with h | h
    · exact live_not_dead ha h
    · exact live_not_dead hb h
  · intro r hr
    rw [hrows] at hr
    obtain ⟨p, hp, rfl⟩ := List.mem_map.mp hr
    obtain ⟨hp, hl⟩ := List.mem_filter.mp hp
    obtain ⟨e, y⟩ := p
    obtain ⟨e1, e2, e3⟩ := hEnt _ hp
    exact ⟨e3.len, live_read hc H.inv e1 e2 (by simpa using hl)⟩
  · intro q rec hq hz
    rw [zread_abs hc H.inv hq] at hz
    injection hz with hz
    obtain ⟨A, B, e, T, hm, hl, hA, hB⟩ := live_entry hc H.inv hq hz
    have hem : e ∈ centries (G.chain (c.tHash q)) := by rw [T.ents]; simp
    have hmem : ∃ y, (e, y) ∈ binsPlaced L := by
      have : e ∈ (G.chain (c.tHash q)).flatMap (·.2) := by simpa [centries] using hem
      obtain ⟨be, hbe, he⟩ := List.mem_flatMap.mp this
      obtain ⟨y, hy⟩ := mem_placed be.2 (x := be.1) he
      exact ⟨y, List.mem_flatMap.mpr ⟨be, h4 _ (hc.tHash_lt q hq) be hbe, hy⟩⟩
    obtain ⟨y, hy⟩ := hmem
    refine ⟨rowOf e y, ?_, sameUp_symm (same_iff.mpr T.same)⟩
    rw [hrows, List.mem_map]
    exact ⟨(e, y), List.mem_filter.mpr ⟨hy, by simpa using hl⟩, rfl⟩

theorem timeFound_iff (q : CatReq) (x : Nat) : timeFound q x = true ↔ (q.searchTime = 0 ∨ WrittenIn q.searchFlag q.searchTime x) := by
  unfold timeFound
  split
  · next h =>
    have hz : ¬ q.searchTime = 0 := by omega
    simp only [hz, false_or]
    split
    · next hf => rw [hf, decide_eq_true_eq]; exact ⟨fun h => .before h, fun h => by cases h; assumption⟩
    · split
      · next hf => rw [hf, decide_eq_true_eq]; exact ⟨fun h => .notAfter h, fun h => by cases h; assumption⟩
      · split
        · next hf => rw [hf, decide_eq_true_eq]; exact ⟨fun h => .at_ h, fun h => by cases h; assumption⟩
        · split
          · next hf => rw [hf, decide_eq_true_eq]; exact ⟨fun h => .notBefore h, fun h => by cases h; assumption⟩
          · split
            · next hf => rw [hf, decide_eq_true_eq]; exact ⟨fun h => .after h, fun h => by cases h; assumption⟩
            · next a b d e f => 
              refine ⟨fun h => (by cases h), fun h => ?_⟩
              generalize hfl : q.searchFlag = fl at *
              cases h <;> simp at *
  · next h =>
    simp only [true_iff]
    left; omega

/-- C48.  A request with a pathname pattern, a range of types and a condition on the time of the last
write lists rows of the full catalog, in the same order, all with a matching pathname; of the rows whose
type is in the range, those that meet the other two conditions (for those whose type is not, see
`C48_type_range_violation`).  If a number of rows is given, at most that many of them, from the first on. -/
theorem C48_selection_partial (g : GoodSizes hdrSize maxHash binSize) {past : List Op} {s : Eng}
    (R : Reachable (create hdrSize maxHash binSize mul).1 (create hdrSize maxHash binSize mul).2 past s) (q : CatReq)
    (h0 : q.statusWanted = REC_STATUS_VALID) :
    ∃ rows sel, zcatalog (create hdrSize maxHash binSize mul).1 s everything = some rows ∧
      sel.Sublist rows ∧ (∀ r ∈ sel, q.wild r.path = true) ∧
      (∀ r, (q.typeStart = 0 ∨ q.typeStart ≤ r.dataType ∧ r.dataType ≤ q.typeEnd) →
        (r ∈ sel ↔ r ∈ rows ∧ q.wild r.path = true ∧ (q.searchTime = 0 ∨ WrittenIn q.searchFlag q.searchTime r.lastWrite))) ∧
      zcatalog (create hdrSize maxHash binSize mul).1 s q = some (if q.numberWanted = 0 then sel else sel.take q.numberWanted) := by
  obtain ⟨rows0, z0, z1, _⟩ := C48_catalog_partial g R
  obtain ⟨G, H⟩ := reach g R
  have hc := create_OK (mul := mul) g
  generalize (create hdrSize maxHash binSize mul).1 = c at *
  obtain ⟨L, h1, h2, h3, h4⟩ := walk_all hc H.inv
  have hi := hc.isize
  have hEnt := fun (p : BinEnt × Nat) (hp : p ∈ binsPlaced L) => entry_of_mem hc H.inv h2 hp
  have hcnt := rows_count h2 h3 h4 H.inv (by omega)
  have hr0 := rowsOf_valid (c := c) (L := L) (fun p hp => (hEnt p hp).2.2) (q := everything) rfl
  have hr1 := rowsOf_valid (c := c) (L := L) (fun p hp => (hEnt p hp).2.2) (q := q) h0
  have hall : ∀ l : List CatRow, l.filter (rowFound everything) = l := by
    intro l; apply List.filter_eq_self.mpr; intro a _; rfl
  rw [hall] at hr0
  rw [← hr0] at hr1
  have hlen : (rowsOf everything L).length = s.hdr.numberRecords := by rw [hr0, List.length_map, hcnt, H.count]
  have hz : zcatalog c s everything = some (rowsOf everything L) := by
    unfold zcatalog
    rw [h1 everything, Option.map_some, List.take_of_length_le]
    unfold catListSize
    simp only [everything] at *
    rw [hlen]; simp; omega
  have hsl : (rowsOf q L).length ≤ s.hdr.numberRecords := by
    rw [hr1, ← hlen]; exact List.length_filter_le _ _
  refine ⟨_, rowsOf q L, hz, ?_, ?_, ?_, ?_⟩
  · rw [hr1]; exact List.filter_sublist
  · intro r hr
    rw [hr1, List.mem_filter] at hr
    have := hr.2
    unfold rowFound at this
    split at this
    · assumption
    · simp at this
  · intro r hty
    rw [hr1, List.mem_filter]
    refine and_congr_right fun _ => ?_
    rw [← timeFound_iff]
    unfold rowFound
    have hty' : q.typeStart = 0 ∨ r.dataType ≥ q.typeStart ∧ r.dataType ≤ q.typeEnd := hty
    simp only [hty', if_true]
    split
    · next h => simp [h]
    · next h => simp [h]
  · unfold zcatalog
    rw [h1 q, Option.map_some]
    congr 1
    unfold catListSize
    by_cases h : q.numberWanted = 0
    · simp only [h, if_true]
      rw [if_neg (by omega), List.take_of_length_le (by omega)]
    · simp only [if_neg h]
      split
      · rfl
      · rw [List.take_of_length_le (by omega), List.take_of_length_le (by omega)]

end

/-- The theorems speak about a history of writes and deletes (Props/EngineCases.lean). -/
example : ∃ s rows, Reachable tiny.1 tiny.2 sample s ∧ zcatalog tiny.1 s everything = some rows ∧ rows.length = s.hdr.numberRecords := by
  obtain ⟨s, h⟩ := sample_reachable
  obtain ⟨rows, h1, h2, _⟩ := C48_catalog_partial (mul := id) tiny_good h
  exact ⟨s, rows, h, h1, h2⟩

/-- The rows of that history, evaluated, and those of two selections. -/
example :
    ((runs tiny.1 tiny.2 sample).bind fun p => zcatalog tiny.1 p.1 everything).map (·.map fun r => (r.path, r.dataType, r.lastWrite)) =
      some [(pA, 100, 5), (pB, 100, 5)] ∧
    ((runs tiny.1 tiny.2 sample).bind fun p => zcatalog tiny.1 p.1 { everything with searchTime := 5, searchFlag := 2 }) = some [] ∧
    ((runs tiny.1 tiny.2 sample).bind fun p => zcatalog tiny.1 p.1 { everything with searchTime := 4, searchFlag := 2, numberWanted := 1 }).map
      (·.map (·.path)) = some [pA] := by decide +kernel

/-- Records of a given type and time. -/
def reqT (p : Bytes) (t : UInt32) (now : Nat) : Req := ⟨p, t, [], [], [], [1], [], [], 1, 0, 0, 0, now, 0, 0, 0, (0, 0)⟩

/-- C48 fails for a range of types: a record of type 200 is listed when types 100 to 199 are asked for,
and it is listed although the condition on the time does not hold for it. -/
theorem C48_type_range_violation :
    ((runs tiny.1 tiny.2 [.write (reqT pA 100 5), .write (reqT pB 200 5)]).bind fun p =>
      zcatalog tiny.1 p.1 { everything with typeStart := 100, typeEnd := 199 }).map (·.map fun r => (r.path, r.dataType)) =
        some [(pA, 100), (pB, 200)] ∧
    ((runs tiny.1 tiny.2 [.write (reqT pA 100 5), .write (reqT pB 200 5)]).bind fun p =>
      zcatalog tiny.1 p.1 { everything with typeStart := 100, typeEnd := 199, searchTime := 7, searchFlag := 2 }).map
        (·.map fun r => (r.path, r.lastWrite)) = some [(pB, 5)] := by decide +kernel

/-- C48 fails for the type in the row: after overwriting single precision values with double precision
ones, the record has type 105 and the catalog says 100. -/
theorem C48_stale_type_violation :
    (runs tiny.1 tiny.2 [.write (reqT pA 100 5), .write (reqT pA 105 6)]).bind (fun p => (zread tiny.1 p.1 pA).map fun r => (p.2, r.map (·.dataType))) =
      some ([.ok, .ok], some 105) ∧
    ((runs tiny.1 tiny.2 [.write (reqT pA 100 5), .write (reqT pA 105 6)]).bind fun p => zcatalog tiny.1 p.1 everything).map
      (·.map (·.dataType)) = some [100] := by decide +kernel

/-- C48 fails for the time in the row: a write that is refused (another type) leaves the record as it was
and changes the time of the last write that the catalog shows. -/
theorem C48_refused_time_violation :
    (runs tiny.1 tiny.2 [.write (reqT pA 100 5), .write (reqT pA 200 9)]).bind (fun p => (zread tiny.1 p.1 pA).map fun r => (p.2, r.map fun r => (r.dataType, r.lastWrite))) =
      some ([.ok, .differentType], some (100, 5)) ∧
    ((runs tiny.1 tiny.2 [.write (reqT pA 100 5), .write (reqT pA 200 9)]).bind fun p => zcatalog tiny.1 p.1 everything).map
      (·.map (·.lastWrite)) = some [9] := by decide +kernel

end Hec
