import Verif.Props.Catalog
import Verif.Props.Undelete
import Verif.Proofs.EngineCopy3
import Verif.Proofs.Squeeze
/-! Where the entries of the records are: they stay there when records are written over. -/
namespace Hec
set_option linter.unusedSimpArgs false
set_option linter.unusedVariables false
open _root_.Spec (Op Allowed run join)
open Hec.Spec (sameUpToCase)

variable {c : Cfg}

/-- A bin: its address, the pathnames and the status of its entries. -/
def shape (be : Nat × List BinEnt) : Nat × List (Bytes × Nat) := (be.1, be.2.map fun e => (e.path, e.st))

theorem overwrite_slots (hc : c.OK) {G : Ghost} {s : Eng} (I : Inv c G s) {r : Req} (hg : Guard c G s (.write r)) {R : Rec}
    (hsome : (abs c G s.disk).live r.path = some R) :
    ∃ G' s' res, run c s (.write r) = some (s', res) ∧ Inv c G' s' ∧ s'.hdr.numberRecords = s.hdr.numberRecords ∧
      ∀ h, (G'.chain h).map shape = (G.chain h).map shape := by
  obtain ⟨hpos, hlen, hodd, _⟩ := hg
  obtain ⟨A, B, e, T, hm, hl, hA, hB⟩ := live_entry hc I hlen hsome
  obtain ⟨G', s', e', res, hrun, D, ⟨hpath, hlw⟩, hst, hnr, hH, ⟨h2, C1, b, pre, post, C2, hC, hC'⟩, hres⟩ :=
    zwrite_existing_ok hc I r hlen T hm hl hA hB (hodd R hsome)
  refine ⟨G', s', res, hrun, D.inv, hnr, fun h => ?_⟩
  by_cases hh : h = c.tHash r.path
  · subst hh
    rw [hC, hC']
    simp [shape, hpath, hst]
  · rw [(D.st.near.others h hh).1]

/-- The entries of bins of these shapes. -/
def placedShape : Nat → List (Bytes × Nat) → List ((Bytes × Nat) × Nat)
  | _, [] => []
  | x, e :: es => (e, x) :: placedShape (x + (7 + nLongsB e.1.length)) es

theorem placed_shape (es : List BinEnt) : ∀ x, (placed x es).map (fun p => ((p.1.path, p.1.st), p.2)) = placedShape x (es.map fun e => (e.path, e.st)) := by
  induction es with
  | nil => intro x; rfl
  | cons e es ih =>
    intro x
    simp only [placed, List.map_cons, placedShape]
    rw [ih]
    rfl

theorem binsPlaced_shape (L : Chain) : (binsPlaced L).map (fun p => ((p.1.path, p.1.st), p.2)) = (L.map shape).flatMap fun be => placedShape be.1 be.2 := by
  unfold binsPlaced
  rw [List.map_flatMap, List.flatMap_map]
  congr 1
  funext be
  exact placed_shape be.2 be.1

/-- Pathname and address of the rows of a full catalog. -/
def pathAt (r : CatRow) : Bytes × Nat := (r.path, r.address)

theorem rows_shape (L : Chain) : (rowsOf everything L).map pathAt =
    (((L.map shape).flatMap fun be => placedShape be.1 be.2).filter fun p => zcompareRecordStatus p.1.2 REC_STATUS_VALID).map fun p => (p.1.1, p.2) := by
  rw [← binsPlaced_shape, List.filter_map, List.map_map]
  unfold rowsOf
  rw [List.map_map]
  have : (binsPlaced L).filter (want everything) =
      (binsPlaced L).filter ((fun p : (Bytes × Nat) × Nat => zcompareRecordStatus p.1.2 REC_STATUS_VALID) ∘ fun p => ((p.1.path, p.1.st), p.2)) := by
    apply List.filter_congr
    intro p _
    simp only [want, Function.comp]
    rw [show rowFound everything (rowOf p.1 p.2) = true from rfl, Bool.and_true]
    rfl
  rw [this]
  apply List.map_congr_left
  intro p _
  rfl

theorem increasing_unique' {β : Type} {L M : List (Nat × β)} (h1 : L.Pairwise (fun x y => x.1 < y.1)) (h2 : M.Pairwise (fun x y => x.1 < y.1))
    (h : ∀ be, be ∈ L ↔ be ∈ M) : L = M := by
  have n1 : L.Nodup := h1.imp (fun {a b} hab he => by subst he; omega)
  have n2 : M.Nodup := h2.imp (fun {a b} hab he => by subst he; omega)
  exact ((List.perm_ext_iff_of_nodup n1 n2).mpr h).eq_of_pairwise (fun a b _ _ h3 h4 => by omega) h1 h2

/-- All rows, without the limit on their number. -/
theorem all_rows (hc : c.OK) {G : Ghost} {s : Eng} (I : Inv c G s) (hcount : s.hdr.numberRecords = liveCount c G) :
    ∃ L : Chain, zcatalog c s everything = some (rowsOf everything L) ∧ (rowsOf everything L).length = s.hdr.numberRecords ∧
      (∀ q : CatReq, q.statusWanted = REC_STATUS_VALID → q.searchTime = 0 → q.numberWanted = 0 →
        zcatalog c s q = some ((rowsOf everything L).filter fun r => q.wild r.path)) ∧
      (∀ be ∈ L, ∃ h, h < c.maxHash ∧ be ∈ G.chain h) ∧ L.Pairwise (fun x y => x.1 < y.1) ∧
      (∀ h, h < c.maxHash → ∀ be ∈ G.chain h, be ∈ L) := by
  obtain ⟨L, h1, h2, h3, h4⟩ := walk_all hc I
  have hi := hc.isize
  have hEnt := fun (p : BinEnt × Nat) (hp : p ∈ binsPlaced L) => entry_of_mem hc I h2 hp
  have hrows := rowsOf_valid (c := c) (L := L) (fun p hp => (hEnt p hp).2.2) (q := everything) rfl
  have hcnt := rows_count h2 h3 h4 I (by omega)
  have hall : ∀ l : List CatRow, l.filter (rowFound everything) = l := by
    intro l; apply List.filter_eq_self.mpr; intro a _; rfl
  rw [hall] at hrows
  have hlen : (rowsOf everything L).length = s.hdr.numberRecords := by rw [hrows, List.length_map, hcnt, hcount]
  have hq : ∀ q : CatReq, q.statusWanted = REC_STATUS_VALID → q.searchTime = 0 → q.numberWanted = 0 →
      zcatalog c s q = some ((rowsOf everything L).filter fun r => q.wild r.path) := by
    intro q hq1 hq2 hq3
    have hr := rowsOf_valid (c := c) (L := L) (fun p hp => (hEnt p hp).2.2) hq1
    rw [← hrows] at hr
    have hf : (rowsOf everything L).filter (rowFound q) = (rowsOf everything L).filter fun r => q.wild r.path := by
      apply List.filter_congr
      intro r _
      unfold rowFound timeFound
      rw [hq2]
      simp
    unfold zcatalog
    rw [h1 q, Option.map_some, hr, hf, List.take_of_length_le]
    have := List.length_filter_le (fun r : CatRow => q.wild r.path) (rowsOf everything L)
    unfold catListSize
    simp only [hq3]
    simp
    omega
  refine ⟨L, ?_, hlen, hq, h2, h3, h4⟩
  rw [hq everything rfl rfl rfl]
  congr 1
  exact List.filter_eq_self.mpr (fun _ _ => rfl)

/-- The entries of a file are at different places. -/
theorem placed_lt (es : List BinEnt) : ∀ {x : Nat} {p : BinEnt × Nat}, p ∈ placed x es → x ≤ p.2 ∧ p.2 + 7 ≤ x + esize es := by
  induction es with
  | nil => intro x p h; simp [placed] at h
  | cons e es ih =>
    intro x p h
    simp only [placed, List.mem_cons] at h
    have hs : 7 ≤ e.size := by unfold BinEnt.size; omega
    rcases h with rfl | h
    · simp only [esize]; omega
    · have := ih h
      simp only [esize]; omega

theorem placed_pairwise (es : List BinEnt) : ∀ x, (placed x es).Pairwise fun a b => a.2 < b.2 := by
  induction es with
  | nil => intro x; simp [placed]
  | cons e es ih =>
    intro x
    simp only [placed, List.pairwise_cons]
    refine ⟨fun p hp => ?_, ih _⟩
    have h := placed_lt es hp
    have hs : 7 ≤ e.size := by unfold BinEnt.size; omega
    omega

theorem rows_places (hc : c.OK) {G : Ghost} {s : Eng} (I : Inv c G s) {L : Chain} (h2 : ∀ be ∈ L, ∃ h, h < c.maxHash ∧ be ∈ G.chain h)
    (h3 : L.Pairwise (fun x y => x.1 < y.1)) : ((rowsOf everything L).map (·.address)).Nodup := by
  have hi := hc.isize
  have hown : ∀ be ∈ L, ∀ p ∈ placed be.1 be.2, ∃ h, G.own p.2 = .bin h be.1 := by
    intro be hbe p hp
    obtain ⟨h, hh, hm⟩ := h2 be hbe
    have K := I.w.chains h hh
    have hfit : esize be.2 ≤ c.isize - 2 := by
      obtain ⟨C1, C2, hC⟩ := List.append_of_mem hm
      obtain ⟨b, es⟩ := be
      have hat := K.at_
      rw [hC] at hat
      exact (ChainAt_bin C1 hat).1.fits
    have hlt := placed_lt be.2 hp
    have := K.bins be hm (p.2 - be.1) (by omega)
    rw [show be.1 + (p.2 - be.1) = p.2 by omega] at this
    exact ⟨h, this⟩
  have hpw : (binsPlaced L).Pairwise fun a b => a.2 ≠ b.2 := by
    unfold binsPlaced
    rw [List.pairwise_flatMap]
    constructor
    · intro be hbe
      exact (placed_pairwise be.2 be.1).imp (fun {a b} h => by omega)
    · refine List.Pairwise.imp_of_mem ?_ h3
      intro b1 b2 hb1 hb2 hlt x hx y hy he
      obtain ⟨k1, e1⟩ := hown b1 hb1 x hx
      obtain ⟨k2, e2⟩ := hown b2 hb2 y hy
      rw [he, e2] at e1
      injection e1 with _ e3
      omega
  unfold rowsOf List.Nodup
  rw [List.map_map, List.pairwise_map, List.pairwise_filter]
  exact hpw.imp (fun {a b} h _ _ => h)

end Hec
