import Verif.Spec.SortCat
import Verif.Proofs.SortCat
import Verif.Proofs.SortSlots
/-!
C86: a sorted catalog lists the same records as an unsorted one, whatever was done to the file in between.
-/
namespace Hec
set_option linter.unusedSimpArgs false
set_option linter.unusedVariables false
open _root_.Spec (Op Allowed AllAllowed run runs join create GoodSizes Reachable SixParts SortName ShortLines SortHistory IsPart)
open Hec.Spec (sameUpToCase)

variable {c : Cfg}

/-- The pathnames and the addresses of the entries of all records are the same in the two files. -/
def SamePlaces (c : Cfg) (s s' : Eng) : Prop :=
  ∃ rows rows' : List CatRow, zcatalog c s everything = some rows ∧ zcatalog c s' everything = some rows' ∧ rows'.map pathAt = rows.map pathAt

theorem same_places (hc : c.OK) {G G' : Ghost} {s s' : Eng} (I : Inv c G s) (hn : s.hdr.numberRecords = liveCount c G) (I' : Inv c G' s')
    (hn' : s'.hdr.numberRecords = liveCount c G') (h : ∀ h, (G'.chain h).map shape = (G.chain h).map shape) : SamePlaces c s s' := by
  obtain ⟨L, a1, _, _, a2, a3, a4⟩ := all_rows hc I hn
  obtain ⟨L', b1, _, _, b2, b3, b4⟩ := all_rows hc I' hn'
  refine ⟨_, _, a1, b1, ?_⟩
  have hL : L'.map shape = L.map shape := by
    refine increasing_unique' ?_ ?_ ?_
    · exact (List.pairwise_map.mpr b3)
    · exact (List.pairwise_map.mpr a3)
    · intro be
      constructor
      · intro hb
        obtain ⟨x, hx, rfl⟩ := List.mem_map.mp hb
        obtain ⟨k, hk, hm⟩ := b2 x hx
        have : shape x ∈ (G.chain k).map shape := by rw [← h k]; exact List.mem_map_of_mem hm
        obtain ⟨y, hy, hxy⟩ := List.mem_map.mp this
        rw [← hxy]
        exact List.mem_map_of_mem (a4 k hk y hy)
      · intro hb
        obtain ⟨x, hx, rfl⟩ := List.mem_map.mp hb
        obtain ⟨k, hk, hm⟩ := a2 x hx
        have : shape x ∈ (G'.chain k).map shape := by rw [h k]; exact List.mem_map_of_mem hm
        obtain ⟨y, hy, hxy⟩ := List.mem_map.mp this
        rw [← hxy]
        exact List.mem_map_of_mem (b4 k hk y hy)
  rw [rows_shape, rows_shape, hL]

theorem same_file (hc : c.OK) {G : Ghost} {s : Eng} {past : List Op} (H : HInv c G s past) : SamePlaces c s (s.permWrite c) := by
  have H' := (permWrite_HInv hc H).1
  exact same_places hc H.inv H.count H'.inv H'.count (fun _ => rfl)

theorem same_self (hc : c.OK) {G : Ghost} {s : Eng} {past : List Op} (H : HInv c G s past) : SamePlaces c s s :=
  same_places hc H.inv H.count H.inv H.count (fun _ => rfl)

theorem zdelete_missing {s s' : Eng} {p : Bytes} {u : Bool} {res : Res} (h : zdeleteInternal c s p u = some (s', res)) (hr : res ≠ .ok) : s' = s.permWrite c := by
  unfold zdeleteInternal at h
  obtain ⟨q, _, h⟩ := Option.map_eq_some_iff.mp h
  split at h
  · simp only [Prod.mk.injEq] at h; exact h.1.symm
  · simp only [Prod.mk.injEq] at h; exact absurd h.2.symm hr

theorem renameFrom_missing {s s' : Eng} {o n : Bytes} {v : RenEnv} {res : Res} (h : renameFrom c s o n v = some (s', res)) (hr : res ≠ .ok) : s' = s := by
  unfold renameFrom at h
  obtain ⟨k, _, h⟩ := Option.bind_eq_some_iff.mp h
  split at h
  · simp only [Option.some.injEq, Prod.mk.injEq] at h; exact h.1.symm
  · simp only at h
    obtain ⟨p, _, h⟩ := Option.bind_eq_some_iff.mp h
    obtain ⟨t, _, h⟩ := Option.map_eq_some_iff.mp h
    simp only [Prod.mk.injEq] at h
    exact absurd h.2.symm hr

/-- A call that leaves the list marked as good leaves every entry at its place. -/
theorem call_places (hc : c.OK) {G : Ghost} {s s' : Eng} {past : List Op} (H : HInv c G s past) {op : Op} {res : Res} {h : SortHdr}
    (ha : Allowed c past s op) (hr : run c s op = some (s', res)) (h1 : (sortAfter op res s s' h).status = 1) :
    h.status = 1 ∧ (sortAfter op res s s' h).list = h.list ∧ SamePlaces c s s' := by
  obtain ⟨G1, s1, res1, hr1, S, H1⟩ := H.step hc ha
  rw [hr] at hr1
  simp only [Option.some.injEq, Prod.mk.injEq] at hr1
  obtain ⟨rfl, rfl⟩ := hr1
  cases op with
  | write r =>
    simp only [sortAfter] at h1 ⊢
    have hg := H.guard hc ha
    cases hl : (abs c G s.disk).live r.path with
    | none =>
      obtain ⟨hpos, hlen, _, hsz⟩ := hg
      obtain ⟨G', s2, e, hrun, D, _, _, hnr, _⟩ := zwrite_new_ok hc H.inv r hpos hlen (dead_entries hc H.inv hlen hl) (fun f hf hs => by
        have := hsz hl f hf hs.1
        have := hs.2
        omega)
      have : run c s (.write r) = zwrite c s r := rfl
      rw [this, hrun] at hr
      simp only [Option.some.injEq, Prod.mk.injEq] at hr
      obtain ⟨rfl, rfl⟩ := hr
      by_cases hs : h.status = 1
      · rw [if_pos ⟨by omega, hs⟩] at h1
        simp at h1
      · rw [if_neg (fun x => hs x.2)] at h1
        exact absurd h1 hs
    | some R =>
      obtain ⟨G', s2, res2, hrun, I', hnr, hsh⟩ := overwrite_slots hc H.inv hg hl
      rw [hr] at hrun
      simp only [Option.some.injEq, Prod.mk.injEq] at hrun
      obtain ⟨rfl, rfl⟩ := hrun
      rw [if_neg (fun x => x.1 hnr)] at h1 ⊢
      refine ⟨h1, rfl, ?_⟩
      have hcount : liveCount c G' = liveCount c G := by
        unfold liveCount
        congr 1
        apply List.map_congr_left
        intro k _
        have hk := congrArg (fun l : List (Nat × List (Bytes × Nat)) => (l.flatMap (·.2)).map (·.2)) (hsh k)
        have hst : ∀ C : Chain, (((C.map shape).flatMap (·.2)).map (·.2)) = (centries C).map (·.st) := by
          intro C
          unfold centries
          rw [List.map_flatMap, List.flatMap_map, List.map_flatMap]
          congr 1
          funext be
          simp [shape]
        simp only [hst] at hk
        have hcp : ∀ C : Chain, ((centries C).countP fun e => decide (live e)) = ((centries C).map (·.st)).countP fun x => decide (live ⟨x, [], 0, 0, 0, 0⟩) := by
          intro C
          rw [List.countP_map]
          rfl
        rw [hcp, hcp, hk]
      exact same_places hc H.inv H.count I' (by rw [hnr, H.count, hcount]) hsh
  | delete p =>
    simp only [sortAfter] at h1 ⊢
    by_cases hres : res = .ok
    · by_cases hs : h.status > 0
      · rw [if_pos ⟨hres, hs⟩] at h1; simp at h1
      · rw [if_neg (fun x => hs x.2)] at h1; omega
    · rw [if_neg (fun x => hres x.1)] at h1 ⊢
      have := zdelete_missing hr hres
      subst this
      exact ⟨h1, rfl, same_file hc H⟩
  | undelete p =>
    simp only [sortAfter] at h1 ⊢
    by_cases hres : res = .ok
    · by_cases hs : h.status > 0
      · rw [if_pos ⟨hres, hs⟩] at h1; simp at h1
      · rw [if_neg (fun x => hs x.2)] at h1; omega
    · rw [if_neg (fun x => hres x.1)] at h1 ⊢
      have := zdelete_missing hr hres
      subst this
      exact ⟨h1, rfl, same_file hc H⟩
  | rename o n v =>
    simp only [sortAfter] at h1 ⊢
    by_cases hres : res = .ok
    · rw [if_pos hres] at h1; simp at h1
    · rw [if_neg hres] at h1 ⊢
      have hne := ha.2.2.2.2.1
      have hto : zrename c s (join o) (join n) v = zrenameTo c s (join o) (join n) v := by
        unfold zrename
        exact if_neg (not_case_only fun x => hne (same_iff.mpr x))
      have hr' : zrenameTo c s (join o) (join n) v = some (s', res) := by rw [← hto]; exact hr
      unfold zrenameTo at hr'
      obtain ⟨k, hk, hr'⟩ := Option.bind_eq_some_iff.mp hr'
      split at hr'
      · obtain ⟨q, hq, hr'⟩ := Option.bind_eq_some_iff.mp hr'
        split at hr'
        · rename_i hok
          have d1 := delete_dels hq
          have d2 := renameFrom_dels hr'
          rw [if_pos hok] at d1
          by_cases hs : h.status > 0
          · rw [if_pos ⟨by omega, hs⟩] at h1; simp at h1
          · rw [if_neg (fun x => hs x.2)] at h1; omega
        · simp at hr'
      · have := renameFrom_missing hr' hres
        subst this
        rw [if_neg (fun x => x.1 rfl)] at h1 ⊢
        exact ⟨h1, rfl, same_self hc H⟩

/-- The list in the header is good: the addresses of all entries, in an order with the property `K` of the pathnames. -/
def GoodList (K : Bytes → Bytes → Prop) (c : Cfg) (s : Eng) (h : SortHdr) : Prop :=
  h.status = 1 → ∃ L : List (Bytes × Nat), h.list = L.map (·.2) ∧ (L.Pairwise fun x y => K x.1 y.1) ∧
    ∀ rows, zcatalog c s everything = some rows → L.Perm (rows.map pathAt)

theorem GoodList.moved {K : Bytes → Bytes → Prop} {s s' : Eng} {h h' : SortHdr} (hg : GoodList K c s h) (hs : h'.status = 1 → h.status = 1 ∧ h'.list = h.list ∧ SamePlaces c s s') :
    GoodList K c s' h' := by
  intro h1
  obtain ⟨k1, k2, r, r', e1, e2, e3⟩ := hs h1
  obtain ⟨L, l1, l2, l3⟩ := hg k1
  refine ⟨L, by rw [k2, l1], l2, fun rows hr => ?_⟩
  rw [e2, Option.some.injEq] at hr
  subst hr
  rw [e3]
  exact l3 r e1

theorem name_sortable {p : Bytes} (h : SortName p) : Sortable p := by
  obtain ⟨ps, ⟨hl, hp⟩, rfl, hb⟩ := h
  refine ⟨?_, hb⟩
  have hp' : ∀ q ∈ ps, ∀ b ∈ q, b ≠ 47 := fun q hq b hb => (hp q hq b hb).1
  unfold sixParts zpathnamePartLengths join
  simp only [List.drop_succ_cons, List.drop_zero, show ¬ ((6 : Nat) > 6) from by omega, if_false]
  have h2 := partLengths_join ps hp' 1 [] 6 (by simp; omega)
  simp only [List.nil_append] at h2
  rw [show (1 : Int) - 1 = 0 from rfl] at h2
  rw [h2]
  simp [hl]

theorem find_address {rows : List CatRow} (hn : (rows.map (·.address)).Nodup) {r : CatRow} (hr : r ∈ rows) :
    (rows.find? fun x : CatRow => x.address == r.address) = some r := by
  induction rows with
  | nil => simp at hr
  | cons x rows ih =>
    rw [List.map_cons, List.nodup_cons] at hn
    rcases List.mem_cons.mp hr with rfl | hm
    · simp
    · rw [List.find?_cons]
      have : (x.address == r.address) = false := by
        rw [beq_eq_false_iff_ne]
        intro he
        exact hn.1 (he ▸ List.mem_map_of_mem hm)
      rw [this]
      exact ih hn.2 hm

theorem find_addresses {rows : List CatRow} (hn : (rows.map (·.address)).Nodup) :
    (rows.map (·.address)).filterMap (fun a => rows.find? fun x : CatRow => x.address == a) = rows := by
  rw [List.filterMap_map]
  have : ∀ l : List CatRow, (∀ r ∈ l, r ∈ rows) → l.filterMap ((fun a => rows.find? fun x : CatRow => x.address == a) ∘ (·.address)) = l := by
    intro l
    induction l with
    | nil => intro _; rfl
    | cons r l ih =>
      intro h
      rw [List.filterMap_cons]
      simp only [Function.comp]
      rw [find_address hn (h r (by simp))]
      simp only [List.cons.injEq, true_and]
      exact ih (fun x hx => h x (by simp [hx]))
  exact this rows (fun _ h => h)

theorem found_rows {rows : List CatRow} (hn : (rows.map (·.address)).Nodup) (L : List (Bytes × Nat)) (h : ∀ x ∈ L, x ∈ rows.map pathAt) :
    ((L.map (·.2)).filterMap fun a => rows.find? fun x : CatRow => x.address == a).map pathAt = L := by
  induction L with
  | nil => rfl
  | cons x L ih =>
    obtain ⟨r, hr, he⟩ := List.mem_map.mp (h x (by simp))
    have hx : x.2 = r.address := by rw [← he]; rfl
    rw [List.map_cons, List.filterMap_cons, hx, find_address hn hr]
    simp only [List.map_cons]
    rw [ih (fun y hy => h y (by simp [hy])), he]

/-- The sorted catalog of a file whose list, when it is marked as good, is good. -/
theorem sorted_rows (hc : c.OK) {G : Ghost} {s : Eng} {past : List Op} (H : HInv c G s past) {h : SortHdr} {K : Bytes → Bytes → Prop}
    (hl : GoodList K c s h) (e : SortEnv) (q : SortReq)
    (hq : q.statusWanted = REC_STATUS_VALID) (hu : q.useList = true → ∀ p, q.wild p = true) (hw : ShortLines e.width)
    (hr : ∀ rows, zcatalog c s q.inner = some rows → rows.length ≤ 10 ^ 10 ∧ ∀ row ∈ rows, SortName row.path)
    (hK : ∀ rows, zcatalog c s q.inner = some rows → ∀ out : List CatRow, (sortFully s h e rows).rows = out.map some → out.Pairwise fun r r' => K r.path r'.path) :
    ∃ (rows out : List CatRow) (h' : SortHdr), zcatalog c s q.inner = some rows ∧ zcatInternalSort c s h e q = some ⟨rows.length, out.map some, h'⟩ ∧ out.Perm rows ∧
      (out.Pairwise fun r r' => K r.path r'.path) ∧ GoodList K c s h' := by
  obtain ⟨L, a1, a2, a3, a4, a5, a6⟩ := all_rows hc H.inv H.count
  have hin := a3 q.inner hq rfl rfl
  have hnd := rows_places hc H.inv a4 a5
  obtain ⟨hlen, hnames⟩ := hr _ hin
  obtain ⟨out, hp, hs⟩ := sortFully_perm s h e _ (fun r hr => name_sortable (hnames r hr)) hw hlen
  have hord : out.Pairwise fun r r' => K r.path r'.path := hK _ hin out (by rw [hs])
  have hfull : ∃ (out : List CatRow) (h' : SortHdr), sortFully s h e ((rowsOf everything L).filter fun r => q.inner.wild r.path) =
      ⟨((rowsOf everything L).filter fun r => q.inner.wild r.path).length, out.map some, h'⟩ ∧ out.Perm ((rowsOf everything L).filter fun r => q.inner.wild r.path) ∧
      (out.Pairwise fun r r' => K r.path r'.path) ∧ GoodList K c s h' := by
    refine ⟨out, _, hs, hp, hord, ?_⟩
    by_cases hcond : e.save = true ∧ ((rowsOf everything L).filter fun r => q.inner.wild r.path).length = s.hdr.numberRecords
    · rw [if_pos hcond]
      intro _
      refine ⟨out.map pathAt, by rw [List.map_map]; rfl, by rw [List.pairwise_map]; exact hord, fun all hall => ?_⟩
      rw [a1, Option.some.injEq] at hall
      subst hall
      have : (rowsOf everything L).filter (fun r => q.inner.wild r.path) = rowsOf everything L :=
        List.filter_sublist.eq_of_length (by rw [hcond.2, a2])
      rw [this] at hp
      exact hp.map _
    · rw [if_neg hcond]
      exact hl
  unfold zcatInternalSort
  rw [hin, Option.map_some]
  by_cases hb : q.useList = true ∧ h.status = 1
  · have hall : (rowsOf everything L).filter (fun r => q.inner.wild r.path) = rowsOf everything L :=
      List.filter_eq_self.mpr (fun r _ => hu hb.1 r.path)
    obtain ⟨M, m1, m2, m3⟩ := hl hb.2
    have hM := m3 _ a1
    have hperm : h.list.Perm ((rowsOf everything L).map (·.address)) := by
      rw [m1]
      have := hM.map (·.2)
      rw [List.map_map] at this
      exact this
    have hleq : h.list.length = (rowsOf everything L).length := by rw [hperm.length_eq, List.length_map]
    simp only [if_pos hb]
    rw [hall]
    by_cases h0 : (rowsOf everything L).length = 0
    · rw [if_pos h0]
      refine ⟨_, [], h, rfl, ?_, ?_, List.Pairwise.nil, hl⟩
      · rw [h0]; rfl
      · rw [List.length_eq_zero_iff.mp h0]
    · rw [if_neg h0, if_neg (by omega)]
      rw [hleq, Nat.sub_self, List.replicate_zero, List.append_nil]
      have hf : (h.list.filterMap fun a => (rowsOf everything L).find? fun x : CatRow => x.address == a).Perm (rowsOf everything L) := by
        have := hperm.filterMap (fun a => (rowsOf everything L).find? fun x : CatRow => x.address == a)
        rwa [find_addresses hnd] at this
      refine ⟨_, h.list.filterMap fun a => (rowsOf everything L).find? fun x : CatRow => x.address == a, h, rfl, ?_, hf, ?_, hl⟩
      · rw [hf.length_eq, Nat.sub_self, List.replicate_zero, List.append_nil]
      · have hfr := found_rows hnd M (fun x hx => hM.mem_iff.mp hx)
        rw [← m1] at hfr
        have m2' := m2
        rw [← hfr, List.pairwise_map] at m2'
        exact m2'
  · simp only [if_neg hb]
    obtain ⟨o, h', k1, k2, k3, k4⟩ := hfull
    exact ⟨_, o, h', rfl, by rw [k1], k2, k3, k4⟩

theorem reachable_more (hc : c.OK) {s0 s s' : Eng} {past : List Op} {op : Op} {res : Res} (R : Reachable c s0 past s) (ha : Allowed c past s op)
    (hr : run c s op = some (s', res)) : Reachable c s0 (past ++ [op]) s' := by
  obtain ⟨h1, ress, h2⟩ := R
  refine ⟨?_, _, runs_one_more h2 hr⟩
  have : ∀ (ops pre : List Op) (t : Eng) (rs : List Res), AllAllowed c pre t ops → runs c t ops = some (s, rs) → Allowed c (pre ++ ops) s op →
      AllAllowed c pre t (ops ++ [op]) := by
    intro ops
    induction ops with
    | nil =>
      intro pre t rs _ h2 ha
      simp only [runs, Option.some.injEq, Prod.mk.injEq] at h2
      obtain ⟨rfl, _⟩ := h2
      rw [List.append_nil] at ha
      exact ⟨ha, fun _ _ _ => trivial⟩
    | cons o ops ih =>
      intro pre t rs h1 h2 ha
      refine ⟨h1.1, fun t' r' ht => ?_⟩
      simp only [runs, ht, Option.bind_some] at h2
      obtain ⟨q, hq, h2⟩ := Option.map_eq_some_iff.mp h2
      simp only [Prod.mk.injEq] at h2
      refine ih (pre ++ [o]) t' q.2 (h1.2 t' r' ht) (by rw [hq, ← h2.1]) (by simpa using ha)
  exact this past [] s0 ress h1 h2 (by simpa using ha)

variable {hdrSize maxHash binSize : Nat} {mul : Nat → Nat}

/-- What holds all along a history of calls and catalogs. -/
theorem sort_history (g : GoodSizes hdrSize maxHash binSize) {ok : SortEnv → List CatRow → Prop} {K : Bytes → Bytes → Prop}
    (hK : ∀ s h e rows, ShortLines e.width → rows.length ≤ 10 ^ 10 → (∀ row ∈ rows, SortName row.path) → ok e rows → ∀ out : List CatRow, (sortFully s h e rows).rows = out.map some →
      out.Pairwise fun r r' => K r.path r'.path) {past : List Op} {s : Eng} {h : SortHdr}
    (R : SortHistory ok (create hdrSize maxHash binSize mul).1 (create hdrSize maxHash binSize mul).2 past s h) :
    Reachable (create hdrSize maxHash binSize mul).1 (create hdrSize maxHash binSize mul).2 past s ∧
      GoodList K (create hdrSize maxHash binSize mul).1 s h := by
  have hc := create_OK (mul := mul) g
  induction R with
  | new => exact ⟨⟨trivial, [], rfl⟩, fun h => by simp at h⟩
  | call R ha hr ih =>
    obtain ⟨i1, i2⟩ := ih
    refine ⟨reachable_more hc i1 ha hr, ?_⟩
    obtain ⟨G, H⟩ := reach g i1
    exact i2.moved (call_places hc H ha hr)
  | catalog R hq hu hw hn hr ih =>
    obtain ⟨i1, i2⟩ := ih
    refine ⟨i1, ?_⟩
    obtain ⟨G, H⟩ := reach g i1
    obtain ⟨rows, out, h', k1, k2, k3, k4, k5⟩ := sorted_rows hc H i2 _ _ hq hu hw (fun rows hr => ⟨(hn rows hr).1, (hn rows hr).2.1⟩)
      (fun rows hr => hK _ _ _ rows hw (hn rows hr).1 (hn rows hr).2.1 (hn rows hr).2.2)
    rw [hr] at k2
    injection k2 with k2
    subst k2
    exact k5

/-- C86.  A file is used in any way: records are written, written over, deleted, undeleted and renamed, and sorted catalogs of
its records are made in between (which may store the list of the sorted addresses in the file, and may use the stored one).
Then a sorted catalog gives out exactly the records that an unsorted catalog gives out, each one once, and returns
their number.  Conditions: existing records are asked for (status valid); the stored list is used only if all records are asked
for; the pathnames have six parts and no end of line in them; the columns leave room for the number at the end of the line. -/
theorem C86_same_records_partial (g : GoodSizes hdrSize maxHash binSize) {past : List Op} {s : Eng} {h : SortHdr}
    (R : SortHistory (fun _ _ => True) (create hdrSize maxHash binSize mul).1 (create hdrSize maxHash binSize mul).2 past s h) (e : SortEnv) (q : SortReq)
    (hq : q.statusWanted = REC_STATUS_VALID) (hu : q.useList = true → ∀ p, q.wild p = true) (hw : ShortLines e.width)
    (hn : ∀ rows, zcatalog (create hdrSize maxHash binSize mul).1 s q.inner = some rows → rows.length ≤ 10 ^ 10 ∧ ∀ row ∈ rows, SortName row.path) :
    ∃ (rows out : List CatRow) (h' : SortHdr), zcatalog (create hdrSize maxHash binSize mul).1 s q.inner = some rows ∧
      zcatInternalSort (create hdrSize maxHash binSize mul).1 s h e q = some ⟨rows.length, out.map some, h'⟩ ∧ out.Perm rows := by
  obtain ⟨R1, R2⟩ := sort_history (K := fun _ _ => True) g (fun _ _ _ _ _ _ _ _ out _ => List.pairwise_of_forall (fun _ _ => trivial)) R
  obtain ⟨G, H⟩ := reach g R1
  obtain ⟨rows, out, h', k1, k2, k3, _⟩ := sorted_rows (create_OK (mul := mul) g) H R2 e q hq hu hw hn
    (fun _ _ out _ => List.pairwise_of_forall (fun _ _ => trivial))
  exact ⟨rows, out, h', k1, k2, k3⟩

end Hec
