import Verif.Proofs.EngineHist
import Verif.Model.Undelete
/-! The number of deleted records in the file header, and the deleted records there are. -/
namespace Hec
open _root_.Spec (Op Store Step Steps Allowed AllAllowed Reachable DropOne join)
open Hec.Spec (sameUpToCase)

@[simp] theorem put_hdr' (s : Eng) (a n : Nat) (f : Nat → Nat) : (s.put a n f).hdr = s.hdr := rfl

theorem putInts_hdr' (s : Eng) (a : Nat) (xs : List UInt32) : (s.putInts a xs).hdr = s.hdr := by
  unfold Eng.putInts
  split <;> rfl

theorem writeArrays_hdr' (s : Eng) (info : Nat → Nat) (r : Req) : (writeArrays s info r).hdr = s.hdr := by
  unfold writeArrays
  simp only [putInts_hdr']

theorem zbinNew_dels (c : Cfg) (s : Eng) (a b : Nat) : (zbinNew c s a b).1.hdr.numberDeletes = s.hdr.numberDeletes := by
  unfold zbinNew
  simp only [Eng.getFileSpace]
  repeat' split
  all_goals rfl

theorem zbinUpdate_dels {c : Cfg} {s s' : Eng} {k : Chk} {p : Bytes} {a st tc lw d : Nat} (h : zbinUpdate c s k p a st tc lw d = some s') :
    s'.hdr.numberDeletes = s.hdr.numberDeletes := by
  unfold zbinUpdate at h
  obtain ⟨b, _, h⟩ := Option.bind_eq_some_iff.mp h
  obtain ⟨ic, _, h⟩ := Option.map_eq_some_iff.mp h
  split at h
  · rw [← h]; exact zbinNew_dels ..
  · rw [← h]; rfl

theorem zwriteNew_dels {c : Cfg} {s : Eng} {k : Chk} {r : Req} {q : Eng × (Nat → Nat)} (h : zwriteNew c s k r = some q) :
    q.1.hdr.numberDeletes = s.hdr.numberDeletes := by
  unfold zwriteNew at h
  obtain ⟨s1, h1, h⟩ := Option.map_eq_some_iff.mp h
  rw [← h]
  show s1.hdr.numberDeletes = _
  rw [zbinUpdate_dels h1]
  simp only [Eng.getFileSpace]
  split
  · exact zbinNew_dels ..
  · rfl

theorem zwriteExisting_dels (c : Cfg) (s : Eng) (k : Chk) (r : Req) (info : Nat → Nat) :
    (zwriteExisting c s k r info).1.hdr.numberDeletes = s.hdr.numberDeletes := by
  unfold zwriteExisting
  simp only [Eng.getFileSpace]
  repeat' split
  all_goals rfl

theorem zwrite_dels {c : Cfg} {s s' : Eng} {r : Req} {res : Res} (h : zwrite c s r = some (s', res)) :
    s'.hdr.numberDeletes = s.hdr.numberDeletes := by
  unfold zwrite at h
  obtain ⟨p, _, h⟩ := Option.bind_eq_some_iff.mp h
  split at h
  · obtain ⟨q, hq, h⟩ := Option.map_eq_some_iff.mp h
    simp only [Prod.mk.injEq] at h
    rw [← h.1]
    show (writeArrays q.1 q.2 r).hdr.numberDeletes = _
    rw [writeArrays_hdr', zwriteNew_dels hq]
  · rename_i info _
    simp only at h
    have e := zwriteExisting_dels c s p.1 r info
    split at h
    · simp only [Option.some.injEq, Prod.mk.injEq] at h
      rw [← h.1]
      show (if _ then (writeArrays _ _ r).writeEOF else writeArrays _ _ r).hdr.numberDeletes = _
      split
      · show (writeArrays _ _ r).hdr.numberDeletes = _
        rw [writeArrays_hdr', e]
      · rw [writeArrays_hdr', e]
    · simp only [Option.some.injEq, Prod.mk.injEq] at h
      rw [← h.1, e]

theorem delete_dels {c : Cfg} {s s' : Eng} {p : Bytes} {res : Res} (h : zdeleteInternal c s p false = some (s', res)) :
    s'.hdr.numberDeletes = s.hdr.numberDeletes + if res = .ok then 1 else 0 := by
  unfold zdeleteInternal at h
  obtain ⟨q, _, h⟩ := Option.map_eq_some_iff.mp h
  split at h
  · simp only [Prod.mk.injEq] at h
    rw [← h.1, ← h.2]; rfl
  · simp only [Prod.mk.injEq] at h
    rw [← h.1, ← h.2]; rfl

theorem undelete_dels {c : Cfg} {s s' : Eng} {p : Bytes} {res : Res} (h : zdeleteInternal c s p true = some (s', res)) :
    s'.hdr.numberDeletes = (s.hdr.numberDeletes - if res = .ok then 1 else 0) ∧
    s'.hdr.numberRecords = s.hdr.numberRecords + if res = .ok then 1 else 0 := by
  unfold zdeleteInternal at h
  obtain ⟨q, _, h⟩ := Option.map_eq_some_iff.mp h
  split at h
  · simp only [Prod.mk.injEq] at h
    rw [← h.1, ← h.2]; exact ⟨rfl, rfl⟩
  · simp only [Prod.mk.injEq] at h
    rw [← h.1, ← h.2]; exact ⟨rfl, rfl⟩

theorem adopt_dels {c : Cfg} {s s' : Eng} {p : Bytes} {info : Nat → Nat} {a n w : Nat} {g : Bool} (h : adoptRecord c s p info a n w g = some s') :
    s'.hdr.numberDeletes = s.hdr.numberDeletes := by
  unfold adoptRecord at h
  obtain ⟨k, _, h⟩ := Option.bind_eq_some_iff.mp h
  obtain ⟨s1, h1, h⟩ := Option.map_eq_some_iff.mp h
  have e := zbinUpdate_dels h1
  rw [← h]
  have : s1.hdr.numberDeletes = s.hdr.numberDeletes := by
    rw [e]
    simp only [Eng.getFileSpace]
    split
    · show (if k.hashTableBinAdd = 0 then _ else _ : Eng × Chk).1.hdr.numberDeletes = _
      split
      · exact zbinNew_dels ..
      · rfl
    · split
      · exact zbinNew_dels ..
      · rfl
  cases g <;> exact this

theorem renameFrom_dels {c : Cfg} {s s' : Eng} {o n : Bytes} {v : RenEnv} {res : Res} (h : renameFrom c s o n v = some (s', res)) :
    s'.hdr.numberDeletes = s.hdr.numberDeletes := by
  unfold renameFrom at h
  obtain ⟨k, _, h⟩ := Option.bind_eq_some_iff.mp h
  split at h
  · simp only [Option.some.injEq, Prod.mk.injEq] at h
    rw [← h.1]
  · simp only at h
    obtain ⟨p, _, h⟩ := Option.bind_eq_some_iff.mp h
    obtain ⟨s1, h1, h⟩ := Option.map_eq_some_iff.mp h
    simp only [Prod.mk.injEq] at h
    rw [← h.1, adopt_dels h1]
    unfold markRenamed
    simp only
    split <;> rfl

/-! ### The deleted records there are -/

variable {c : Cfg}

theorem trash_same (hc : c.OK) {G : Ghost} {d : Disk} {p q : Bytes} (h : Same p q) : (abs c G d).trash p = (abs c G d).trash q := by
  simp only [abs]
  have hl : p.length ≤ 392 ↔ q.length ≤ 392 := ⟨same_len h, same_len h.symm⟩
  by_cases h1 : p.length ≤ 392
  · rw [if_pos h1, if_pos (hl.mp h1), hc.tHash_same _ _ h]
    congr 1
    apply List.filter_congr
    intro e _
    apply decide_eq_decide.mpr
    rw [EMatch_deleted, EMatch_deleted]
    exact ⟨fun hh => ⟨h.symm.trans hh.1, hh.2⟩, fun hh => ⟨h.trans hh.1, hh.2⟩⟩
  · rw [if_neg h1, if_neg (fun hq => h1 (hl.mpr hq))]

/-- Pairwise different pathnames have `n` deleted records at most. -/
def TrashBound (st : Store) (n : Nat) : Prop :=
  ∀ ps : List Bytes, ps.Pairwise (fun p q => ¬ Same p q) → (ps.map fun p => (st.trash p).length).sum ≤ n

theorem TrashBound.mono {st st' : Store} {n : Nat} (h : TrashBound st n) (hle : ∀ q, (st'.trash q).length ≤ (st.trash q).length) :
    TrashBound st' n := by
  intro ps hp
  refine Nat.le_trans ?_ (h ps hp)
  clear hp
  induction ps with
  | nil => simp
  | cons p ps ih => simp only [List.map_cons, List.sum_cons]; have := hle p; omega

theorem drop_le {f f' : Bytes → List Rec} (h : DropOne f f') (q : Bytes) : (f' q).length ≤ (f q).length := by
  obtain ⟨t, i, h⟩ := h
  by_cases hs : sameUpToCase t q
  · rw [(h q).1 hs]; exact List.length_eraseIdx_le ..
  · rw [(h q).2 hs]; exact Nat.le_refl _

theorem sum_other {st st' : Store} {p : Bytes} (h : ∀ q, ¬ Same p q → st'.trash q = st.trash q) (ps : List Bytes)
    (hn : ∀ q ∈ ps, ¬ Same p q) : (ps.map fun q => (st'.trash q).length).sum = (ps.map fun q => (st.trash q).length).sum := by
  congr 1
  apply List.map_congr_left
  intro q hq
  rw [h q (hn q hq)]

theorem TrashBound.put {st st' : Store} {n : Nat} {p : Bytes} {R : Rec} (h : TrashBound st n) (hs : ∀ q, Same p q → st.trash p = st.trash q)
    (hset : _root_.Spec.Set st.trash st'.trash p (R :: st.trash p)) : TrashBound st' (n + 1) := by
  intro ps hp
  have ho : ∀ q, ¬ Same p q → st'.trash q = st.trash q := fun q hq => (hset q).2 (fun hh => hq (same_iff.mp hh))
  have key : ∀ ps : List Bytes, ps.Pairwise (fun p q => ¬ Same p q) →
      (ps.map fun q => (st'.trash q).length).sum ≤ (ps.map fun q => (st.trash q).length).sum + 1 := by
    intro ps
    induction ps with
    | nil => intro _; simp
    | cons q ps ih =>
      intro hp
      rw [List.pairwise_cons] at hp
      simp only [List.map_cons, List.sum_cons]
      by_cases hq : Same p q
      · rw [(hset q).1 (same_iff.mpr hq), sum_other ho ps (fun x hx hpx => hp.1 x hx (hq.symm.trans hpx)), List.length_cons, hs q hq]
        omega
      · have := ih hp.2
        rw [ho q hq]; omega
  have := key ps hp
  have := h ps hp
  omega

theorem TrashBound.take {st st' : Store} {n : Nat} {p : Bytes} {R : Rec} {rest : List Rec} (h : TrashBound st n)
    (hs : ∀ q, Same p q → st.trash p = st.trash q) (hR : st.trash p = R :: rest)
    (hset : _root_.Spec.Set st.trash st'.trash p rest) : TrashBound st' (n - 1) := by
  intro ps hp
  have ho : ∀ q, ¬ Same p q → st'.trash q = st.trash q := fun q hq => (hset q).2 (fun hh => hq (same_iff.mp hh))
  by_cases hm : ∃ q ∈ ps, Same p q
  · have key : ∀ ps : List Bytes, ps.Pairwise (fun p q => ¬ Same p q) → (∃ q ∈ ps, Same p q) →
        (ps.map fun q => (st'.trash q).length).sum + 1 = (ps.map fun q => (st.trash q).length).sum := by
      intro ps
      induction ps with
      | nil => rintro _ ⟨q, hq, _⟩; cases hq
      | cons q ps ih =>
        intro hp hm
        rw [List.pairwise_cons] at hp
        simp only [List.map_cons, List.sum_cons]
        by_cases hq : Same p q
        · rw [(hset q).1 (same_iff.mpr hq), sum_other ho ps (fun x hx hpx => hp.1 x hx (hq.symm.trans hpx)), ← hs q hq, hR, List.length_cons]
          omega
        · have := ih hp.2 (by
            obtain ⟨x, hx, hpx⟩ := hm
            rcases List.mem_cons.mp hx with rfl | hx
            · exact absurd hpx hq
            · exact ⟨x, hx, hpx⟩)
          rw [ho q hq]; omega
    have := key ps hp hm
    have := h ps hp
    omega
  · have h1 := h (p :: ps) (List.pairwise_cons.mpr ⟨fun x hx hpx => hm ⟨x, hx, hpx⟩, hp⟩)
    rw [sum_other ho ps (fun x hx hpx => hm ⟨x, hx, hpx⟩)]
    simp only [List.map_cons, List.sum_cons, hR, List.length_cons] at h1
    omega

/-- What a deletion does to the bound. -/
theorem bound_delete {st st' : Store} {n : Nat} {p : Bytes} {res : Res} (hT : ∀ q, Same p q → st.trash p = st.trash q)
    (h : Step st (.delete p) res st') (hb : TrashBound st n) : TrashBound st' (n + if res = .ok then 1 else 0) := by
  cases h with
  | delete h1 h2 h3 => exact hb.put hT h3
  | deleteMissing h => exact hb

theorem step_bound (hc : c.OK) {G G' : Ghost} {s s' : Eng} {past : List Op} {op : Op} {res : Res} (H : HInv c G s past) (ha : Allowed c past s op)
    (hr : _root_.Spec.run c s op = some (s', res)) (S : Stepped c op G s res G' s') (hb : TrashBound (abs c G s.disk) s.hdr.numberDeletes) :
    TrashBound (abs c G' s'.disk) s'.hdr.numberDeletes := by
  have hT : ∀ p q, Same p q → (abs c G s.disk).trash p = (abs c G s.disk).trash q := fun p q h => trash_same hc h
  have h := S.step
  cases op with
  | write r =>
    have e := zwrite_dels (show zwrite c s r = some (s', res) from hr)
    rw [e]
    generalize abs c G' s'.disk = st1 at h ⊢
    generalize abs c G s.disk = st at h hT hb ⊢
    cases h with
    | writeNew h1 h2 h3 => exact hb.mono (drop_le h3)
    | overwrite h1 h2 h3 h4 => exact hb.mono (fun q => by rw [h4]; exact Nat.le_refl _)
    | refused => exact hb
  | delete p =>
    rw [delete_dels (show zdeleteInternal c s p false = some (s', res) from hr)]
    exact bound_delete (hT p) h hb
  | undelete p =>
    rw [(undelete_dels (show zdeleteInternal c s p true = some (s', res) from hr)).1]
    generalize abs c G' s'.disk = st1 at h ⊢
    generalize abs c G s.disk = st at h hT hb ⊢
    cases h with
    | undelete h1 h2 h3 => exact hb.take (hT p) h1 h3
    | undeleteMissing h => exact hb
  | rename o n v =>
    obtain ⟨_, _, _, hn, hd, _⟩ := ha
    have hr' : zrename c s (join o) (join n) v = some (s', res) := hr
    unfold zrename at hr'
    rw [if_neg (by
      rintro ⟨h1, h2⟩
      exact hd (same_iff.mpr ((compare_iff _ _ h1.symm).mp h2)))] at hr'
    unfold zrenameTo at hr'
    obtain ⟨k, hk, hkf⟩ := zcheck_found hc H.inv hn
    rw [hk] at hr'
    simp only [Option.bind_some] at hr'
    have e : s'.hdr.numberDeletes = s.hdr.numberDeletes + if ((abs c G s.disk).live (join n)).isSome = true then 1 else 0 := by
      by_cases hf : k.found = true
      · rw [if_pos hf] at hr'
        obtain ⟨q, hq, hr'⟩ := Option.bind_eq_some_iff.mp hr'
        split at hr'
        · rename_i hok
          have := delete_dels (s' := q.1) (res := q.2) hq
          rw [renameFrom_dels hr', this, hok, ← hkf, if_pos hf, if_pos rfl]
        · cases hr'
      · rw [if_neg hf] at hr'
        rw [renameFrom_dels hr', ← hkf, if_neg hf]
        rfl
    rw [e]
    have one : ∀ {st1 : Store} {res1 : Res}, Step (abs c G s.disk) (.delete (join n)) res1 st1 →
        TrashBound st1 (s.hdr.numberDeletes + if ((abs c G s.disk).live (join n)).isSome = true then 1 else 0) := by
      intro st1 res1 h1
      have := bound_delete (hT (join n)) h1 hb
      generalize abs c G s.disk = st at h1 hb this ⊢
      cases h1 with
      | delete h2 _ _ => rw [h2]; exact this
      | deleteMissing h2 => rw [h2]; exact this
    generalize abs c G' s'.disk = st1 at h ⊢
    cases h with
    | rename h1 h2 h3 h4 h5 => exact (one h1).mono (drop_le h5)
    | renameMissing h1 h2 => exact one h1

end Hec
