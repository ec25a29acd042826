import Verif.Proofs.EngineOps3
import Verif.Props.Hash
/-! The contents of a file, as its user sees them. -/
namespace Hec
set_option linter.unusedSimpArgs false
set_option linter.unusedVariables false

variable {c : Cfg}

theorem same_iff {p q : Bytes} : Spec.sameUpToCase p q ↔ Same p q := sameUpToCase_iff p q

/-- The record of an entry. -/
def recAt (d : Disk) (e : BinEnt) : Rec := readArrays d fun i => d (e.infoAdd + i)

/-- The contents of the file. -/
def abs (c : Cfg) (G : Ghost) (d : Disk) : _root_.Spec.Store where
  live q := if q.length ≤ 392 then
    ((centries (G.chain (c.tHash q))).find? fun e => decide (EMatch q REC_STATUS_VALID e)).map (recAt d) else none
  trash q := if q.length ≤ 392 then
    ((centries (G.chain (c.tHash q))).filter fun e => decide (EMatch q REC_STATUS_DELETED e)).map (recAt d) else []

theorem matches_valid {st : Nat} (h : st = 0 ∨ st = 1) : statusMatches st REC_STATUS_VALID = true := by
  rcases h with h | h <;> subst h <;> decide

theorem matches_valid_deleted : statusMatches REC_STATUS_DELETED REC_STATUS_VALID = false := by decide

theorem matches_valid_renamed : statusMatches REC_STATUS_RENAMED REC_STATUS_VALID = false := by decide

theorem matches_deleted {st : Nat} : statusMatches st REC_STATUS_DELETED = true ↔ st = REC_STATUS_DELETED := by
  unfold statusMatches
  rw [if_neg (by decide)]
  exact decide_eq_true_iff

theorem EMatch_valid {h : Nat} {q : Bytes} {e : BinEnt} (ho : EntryOK c h e) : EMatch q REC_STATUS_VALID e ↔ Same q e.path ∧ live e := by
  unfold EMatch
  constructor
  · rintro ⟨h1, h2⟩
    refine ⟨h1, ?_⟩
    rcases ho.st with h | h
    · exact h
    · rcases h with h | h
      · rw [h, matches_valid_deleted] at h2; cases h2
      · rw [gone] at h; rw [h, matches_valid_renamed] at h2; cases h2
  · rintro ⟨h1, h2⟩; exact ⟨h1, matches_valid h2⟩

theorem EMatch_deleted {q : Bytes} {e : BinEnt} : EMatch q REC_STATUS_DELETED e ↔ Same q e.path ∧ e.st = REC_STATUS_DELETED := by
  unfold EMatch; rw [matches_deleted]

theorem live_not_deleted {e : BinEnt} (h : live e) : e.st ≠ REC_STATUS_DELETED := by
  rcases h with h | h <;> rw [h] <;> decide

theorem EMatch.not_gone {q : Bytes} {e : BinEnt} (h : EMatch q REC_STATUS_VALID e ∨ EMatch q REC_STATUS_DELETED e) : ¬ gone e := by
  intro hg
  rw [gone] at hg
  rcases h with h | h
  · have := h.2
    rw [hg, matches_valid_renamed] at this; cases this
  · have := EMatch_deleted.mp h
    rw [hg] at this; exact absurd this.2 (by decide)

theorem EMatch.not_dead {q : Bytes} {e : BinEnt} (h : EMatch q REC_STATUS_VALID e) : ¬ dead e := by
  rintro (hg | hg)
  · have := h.2
    rw [hg, matches_valid_deleted] at this; cases this
  · exact EMatch.not_gone (Or.inl h) hg

/-- The first element with a property. -/
theorem split_find {α : Type} {P : α → Bool} {l : List α} {e : α} (h : l.find? P = some e) :
    ∃ A B, l = A ++ e :: B ∧ P e = true ∧ ∀ x ∈ A, P x = false := by
  rw [List.find?_eq_some_iff_append] at h
  obtain ⟨hp, A, B, hl, hA⟩ := h
  exact ⟨A, B, hl, hp, fun x hx => by simpa using hA x hx⟩

/-- Reading, in a state in which the chain of the pathname may be unfinished at its end and one
record (`ax`) may be half written: a record that is there is found. -/
theorem zread_found (hc : c.OK) {G : Ghost} {s : Eng} {hx ax : Nat} {q : Bytes} (I : InvW c G s.disk hx ax)
    (hh : c.tHash q < c.maxHash) (hlen : (G.chain (c.tHash q)).length ≤ s.hdr.totalBins + 1)
    {A B : List BinEnt} {e : BinEnt} (hE : centries (G.chain (c.tHash q)) = A ++ e :: B)
    (hm : EMatch q REC_STATUS_VALID e) (hA : ∀ x ∈ A, ¬ EMatch q REC_STATUS_VALID x)
    (hr : s.disk (e.infoAdd + kinfoHash) = c.pHash e.path) : zread c s q = some (some (recAt s.disk e)) := by
  obtain ⟨C1, b, pre, post, C2, hC, hAeq, hBeq⟩ := split_centries hE
  obtain ⟨ws, h⟩ := zreadInfo_some hc I hh hC hlen (by rw [← hAeq]; exact hA) hm hr
  unfold zread
  rw [h]
  rfl

theorem zread_abs (hc : c.OK) {G : Ghost} {s : Eng} (I : Inv c G s) {q : Bytes} (hq : q.length ≤ 392) :
    zread c s q = some ((abs c G s.disk).live q) := by
  have hh := hc.tHash_lt q hq
  have hlen : (G.chain (c.tHash q)).length ≤ s.hdr.totalBins + 1 := by have := I.h.len _ hh; omega
  unfold abs
  simp only [if_pos hq]
  cases hf : (centries (G.chain (c.tHash q))).find? fun e => decide (EMatch q REC_STATUS_VALID e) with
  | some e =>
    obtain ⟨A, B, hE, hp, hA⟩ := split_find hf
    have K := I.w.chains _ hh
    have hmem : e ∈ centries (G.chain (c.tHash q)) := by rw [hE]; simp
    exact zread_found hc I.w hh hlen hE (by simpa using hp) (fun x hx => by simpa using hA x hx)
      (K.recs e hmem (EMatch.not_gone (q := q) (Or.inl (by simpa using hp))) (by simp only [ite_self]; exact I.w.info_ne hc hh hmem (EMatch.not_gone (q := q) (Or.inl (by simpa using hp))))).hash
  | none =>
    have hno : ∀ x ∈ centries (G.chain (c.tHash q)), ¬ EMatch q REC_STATUS_VALID x := by
      intro x hx
      have := List.find?_eq_none.mp hf x hx
      simpa using this
    have := zcheck_none hc (hx := c.tHash q) (ax := 0) I.w.idle hh (I.last _ hh) hlen hno
    unfold zread zreadInfo
    rw [this]
    simp

/-- Contents of the entries an operation leaves alone. -/
theorem rd_keep (hc : c.OK) {G0 : Ghost} {d0 : Disk} {hx a0 : Nat} {p : Bytes} {G : Ghost} {d : Disk} {ax : Nat}
    (I0 : InvW c G0 d0 0 0) (N : Near c p G0 d0 hx a0 G d ax) {h : Nat} (hh : h < c.maxHash) {e : BinEnt}
    (he : e ∈ centries (G0.chain h)) (hg : ¬ gone e) (hne : ¬ (h = hx ∧ e.infoAdd = a0)) : recAt d e = recAt d0 e := by
  have hr := (I0.chains h hh).recs e he hg (by simp only [ite_self]; exact I0.info_ne hc hh he hg)
  exact readArrays_congr rfl hr (fun i hi _ => N.keep h hh e he hg hne _ (InRec.info30 hi)) (fun i hi => N.keep h hh e he hg hne _ (InRec.arr hi))

theorem Done.inv {p : Bytes} {a0 : Nat} {G G' : Ghost} {s s' : Eng} (D : Done c p a0 G s G' s') : Inv c G' s' :=
  ⟨D.st.inv.idle, D.h, D.last⟩

theorem find_congr {α β : Type} {P : α → Bool} {f g : α → β} {l : List α} (h : ∀ x ∈ l, P x = true → f x = g x) :
    (l.find? P).map f = (l.find? P).map g := by
  cases hf : l.find? P with
  | none => rfl
  | some x => simp only [Option.map_some]; rw [h x (List.mem_of_find?_eq_some hf) (List.find?_some hf)]

theorem find_none_append {α : Type} {P : α → Bool} {A B : List α} (h : ∀ x ∈ A, P x = false) :
    (A ++ B).find? P = B.find? P := by
  rw [List.find?_append]
  have : A.find? P = none := List.find?_eq_none.mpr (by intro x hx; simp [h x hx])
  rw [this]; rfl

/-- How one edit of a chain shows. -/
structure EditAt (c : Cfg) (p : Bytes) (G : Ghost) (s : Eng) (G' : Ghost) (s' : Eng) (A B o n : List BinEnt) : Prop where
  before : centries (G.chain (c.tHash p)) = A ++ o ++ B
  after : centries (G'.chain (c.tHash p)) = A ++ n ++ B
  others : ∀ h, h ≠ c.tHash p → G'.chain h = G.chain h
  rdA : ∀ x ∈ A ++ B, ¬ gone x → recAt s'.disk x = recAt s.disk x
  rdO : ∀ h, h < c.maxHash → h ≠ c.tHash p → ∀ x ∈ centries (G.chain h), ¬ gone x → recAt s'.disk x = recAt s.disk x

theorem EditAt.of_done (hc : c.OK) {p : Bytes} {a0 : Nat} {G G' : Ghost} {s s' : Eng} (hp : c.tHash p < c.maxHash) (I : Inv c G s)
    (D : Done c p a0 G s G' s') {A B o n : List BinEnt} (h1 : centries (G.chain (c.tHash p)) = A ++ o ++ B)
    (h2 : centries (G'.chain (c.tHash p)) = A ++ n ++ B) (h3 : ∀ x ∈ A ++ B, ¬ gone x → x.infoAdd ≠ a0) : EditAt c p G s G' s' A B o n := by
  refine ⟨h1, h2, fun h hh => (D.st.near.others h hh).1, fun x hx hg => ?_, fun h hh hne x hx hg => ?_⟩
  · refine rd_keep hc I.w D.st.near hp (e := x) ?_ hg (fun h => h3 x hx hg h.2)
    rw [h1]
    rcases List.mem_append.mp hx with h | h <;> simp [h]
  · exact rd_keep hc I.w D.st.near hh hx hg (fun h => hne h.1)

/-- The deleted records under a pathname, and the record under it, after an edit. -/
theorem EditAt.live {p : Bytes} {G G' : Ghost} {s s' : Eng} {A B o n : List BinEnt} (E : EditAt c p G s G' s' A B o n)
    {q : Bytes} (hc : c.OK)
    (ho : ∀ x ∈ o, ¬ EMatch q REC_STATUS_VALID x) (hn : ∀ x ∈ n, ¬ EMatch q REC_STATUS_VALID x) :
    (abs c G' s'.disk).live q = (abs c G s.disk).live q := by
  simp only [abs]
  by_cases hql : q.length ≤ 392
  case neg => simp only [if_neg hql]
  have hq := hc.tHash_lt q hql
  simp only [if_pos hql]
  by_cases h : c.tHash q = c.tHash p
  · rw [h, E.before, E.after]
    have hh : ∀ m : List BinEnt, (∀ x ∈ m, ¬ EMatch q REC_STATUS_VALID x) →
        (A ++ m ++ B).find? (fun e => decide (EMatch q REC_STATUS_VALID e)) = (A ++ B).find? fun e => decide (EMatch q REC_STATUS_VALID e) := by
      intro m hm
      rw [List.append_assoc, List.find?_append, find_none_append (A := m) (by simpa using hm), ← List.find?_append]
    rw [hh o ho, hh n hn]
    exact find_congr fun x hx hp => E.rdA x hx (EMatch.not_gone (q := q) (Or.inl (by simpa using hp)))
  · rw [E.others _ h]
    exact find_congr fun x hx hp => E.rdO _ hq h x hx (EMatch.not_gone (q := q) (Or.inl (by simpa using hp)))

theorem EditAt.trash {p : Bytes} {G G' : Ghost} {s s' : Eng} {A B o n : List BinEnt} (E : EditAt c p G s G' s' A B o n)
    {q : Bytes} (hc : c.OK)
    (ho : ∀ x ∈ o, ¬ EMatch q REC_STATUS_DELETED x) (hn : ∀ x ∈ n, ¬ EMatch q REC_STATUS_DELETED x) :
    (abs c G' s'.disk).trash q = (abs c G s.disk).trash q := by
  simp only [abs]
  by_cases hql : q.length ≤ 392
  case neg => simp only [if_neg hql]
  have hq := hc.tHash_lt q hql
  simp only [if_pos hql]
  by_cases h : c.tHash q = c.tHash p
  · rw [h, E.before, E.after]
    have hh : ∀ m : List BinEnt, (∀ x ∈ m, ¬ EMatch q REC_STATUS_DELETED x) →
        (A ++ m ++ B).filter (fun e => decide (EMatch q REC_STATUS_DELETED e)) = (A ++ B).filter fun e => decide (EMatch q REC_STATUS_DELETED e) := by
      intro m hm
      simp only [List.filter_append]
      have hf : m.filter (fun e => decide (EMatch q REC_STATUS_DELETED e)) = [] := List.filter_eq_nil_iff.mpr (by simpa using hm)
      rw [hf]; simp
    rw [hh o ho, hh n hn]
    exact List.map_congr_left (fun x hx => E.rdA x (List.mem_filter.mp hx).1 (EMatch.not_gone (q := q) (Or.inr (by simpa using (List.mem_filter.mp hx).2))))
  · rw [E.others _ h]
    exact List.map_congr_left (fun x hx => E.rdO _ hq h x (List.mem_filter.mp hx).1 (EMatch.not_gone (q := q) (Or.inr (by simpa using (List.mem_filter.mp hx).2))))

end Hec
