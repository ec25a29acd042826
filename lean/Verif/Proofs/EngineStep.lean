import Verif.Proofs.EngineAbs
import Verif.Spec.Histories
/-! Each call does to the contents what the specification says. -/
namespace Hec
set_option linter.unusedSimpArgs false
set_option linter.unusedVariables false
open _root_.Spec (Op Store Step Steps run runs Set DropOne join renamed keepDates SixParts)

variable {c : Cfg}

/-- The only entry at the address of the record of `p` is that of `p`. -/
theorem mine_same {own : Nat → Own} {room : Nat → Ext} {d : Disk} {last ax : Nat} {G : Ghost} {p : Bytes} {A B : List BinEnt} {e : BinEnt} {R : Rec}
    (K : ChainOK c own room d (c.tHash p) last ax (G.chain (c.tHash p))) (T : Target c G d p A B e R) (hge : ¬ gone e) :
    ∀ x ∈ centries (G.chain (c.tHash p)), ¬ gone x → x.infoAdd = e.infoAdd → Same p x.path := by
  intro x hx hg h
  have : x = e := Classical.byContradiction fun hne => by
    rcases pairwise_mem K.nodupR hx (show e ∈ _ by rw [T.ents]; simp) hne with h' | h'
    · exact h' hg hge h
    · exact h' hge hg h.symm
  rw [this]; exact T.same

/-- Number of records in the chains. -/
def liveCount (c : Cfg) (G : Ghost) : Nat :=
  ((List.range c.maxHash).map fun h => (centries (G.chain h)).countP fun e => decide (live e)).sum

theorem sum_map_congr {f g : Nat → Nat} {n k : Nat} (hk : k < n) (h : ∀ i, i < n → i ≠ k → f i = g i) :
    ((List.range n).map f).sum + g k = ((List.range n).map g).sum + f k := by
  induction n with
  | zero => omega
  | succ n ih =>
    rw [List.range_succ, List.map_append, List.map_append, List.sum_append, List.sum_append]
    simp only [List.map_cons, List.map_nil, List.sum_cons, List.sum_nil, Nat.add_zero]
    by_cases hkn : k = n
    · subst hkn
      have : (List.range k).map f = (List.range k).map g := by
        apply List.map_congr_left
        intro i hi
        have := List.mem_range.mp hi
        exact h i (by omega) (by omega)
      rw [this]; omega
    · have := ih (by omega) (fun i hi hne => h i (by omega) hne)
      have h2 := h n (by omega) (fun h => hkn h.symm)
      omega

theorem EditAt.count {p : Bytes} {G G' : Ghost} {s s' : Eng} {A B o n : List BinEnt} (E : EditAt c p G s G' s' A B o n)
    (hp : c.tHash p < c.maxHash) :
    liveCount c G' + o.countP (fun e => decide (Hec.live e)) = liveCount c G + n.countP fun e => decide (Hec.live e) := by
  have h := sum_map_congr (f := fun h => (centries (G'.chain h)).countP fun e => decide (Hec.live e))
    (g := fun h => (centries (G.chain h)).countP fun e => decide (Hec.live e)) hp (by
      intro i _ hne
      simp only [E.others i hne])
  simp only [E.before, E.after, List.countP_append] at h
  simp only [liveCount]
  omega

theorem EditAt.deleted {p : Bytes} {G G' : Ghost} {s s' : Eng} {A B o n : List BinEnt} (E : EditAt c p G s G' s' A B o n)
    {P : BinEnt → Prop} (hn : ∀ x ∈ n, x.st = REC_STATUS_DELETED → P x) (h : Nat) (e : BinEnt) (he : e ∈ centries (G'.chain h))
    (hd : e.st = REC_STATUS_DELETED) : (∃ e0 ∈ centries (G.chain h), e0.st = REC_STATUS_DELETED ∧ e0.path = e.path) ∨ P e := by
  by_cases hh : h = c.tHash p
  · subst hh
    rw [E.after] at he
    rcases List.mem_append.mp he with h1 | h1
    · rcases List.mem_append.mp h1 with h2 | h2
      · exact Or.inl ⟨e, by rw [E.before]; simp [h2], hd, rfl⟩
      · exact Or.inr (hn e h2 hd)
    · exact Or.inl ⟨e, by rw [E.before]; simp [h1], hd, rfl⟩
  · rw [E.others h hh] at he
    exact Or.inl ⟨e, he, hd, rfl⟩

/-- No entry has the status 0 (only undeleting sets it). -/
def NoZeros (c : Cfg) (G : Ghost) : Prop := ∀ h, h < c.maxHash → ∀ e ∈ centries (G.chain h), e.st ≠ 0

theorem EditAt.noZeros {p : Bytes} {G G' : Ghost} {s s' : Eng} {A B o n : List BinEnt} (E : EditAt c p G s G' s' A B o n)
    (hn : ∀ x ∈ n, x.st ≠ 0) (H : NoZeros c G) : NoZeros c G' := by
  intro h hm e he
  by_cases hh : h = c.tHash p
  · subst hh
    rw [E.after] at he
    rcases List.mem_append.mp he with h1 | h1
    · rcases List.mem_append.mp h1 with h2 | h2
      · exact H _ hm e (by rw [E.before]; simp [h2])
      · exact hn e h2
    · exact H _ hm e (by rw [E.before]; simp [h1])
  · rw [E.others h hh] at he
    exact H h hm e he

/-- The condition under which a call is made. -/
def Guard (c : Cfg) (G : Ghost) (s : Eng) : Op → Prop
  | .write r => 0 < r.path.length ∧ r.path.length ≤ 392 ∧
      (∀ R, (abs c G s.disk).live r.path = some R → Spec.oddHeaders r.ih r.h2 r.uh ≤ 1 ∨ Spec.oddHeaders r.ih r.h2 r.uh ≤ Spec.oddHeaders R.ih R.h2 R.uh) ∧
      ((abs c G s.disk).live r.path = none →
        ∀ f ∈ centries (G.chain (c.tHash r.path)), f.st = REC_STATUS_DELETED → nLongsB f.path.length ≤ nLongsB r.path.length)
  | .delete p => p.length ≤ 392
  | .undelete p => p.length ≤ 392 ∧ (abs c G s.disk).live p = none
  | .rename o n _ => SixParts o ∧ SixParts n ∧ (join o).length ≤ 392 ∧ (join n).length ≤ 392 ∧ ¬ Same (join o) (join n) ∧
      ∀ R, (abs c G s.disk).live (join o) = some R →
        (renamed R.dataType o n).length ≤ 392 ∧ nLongsB (renamed R.dataType o n).length ≤ nLongsB (join n).length ∧
        (Same (renamed R.dataType o n) (join o) ∨ Same (renamed R.dataType o n) (join n) ∨ (abs c G s.disk).live (renamed R.dataType o n) = none) ∧
        (∀ f ∈ centries (G.chain (c.tHash (renamed R.dataType o n))), f.st = REC_STATUS_DELETED → nLongsB f.path.length ≤ nLongsB (renamed R.dataType o n).length) ∧
        ((abs c G s.disk).live (join n) = none ∨ nLongsB (join n).length ≤ nLongsB (renamed R.dataType o n).length)

/-- The entry of a live record. -/
theorem live_entry (hc : c.OK) {G : Ghost} {s : Eng} (I : Inv c G s) {p : Bytes} (hlen : p.length ≤ 392) {R : Rec}
    (h : (abs c G s.disk).live p = some R) :
    ∃ A B e, Target c G s.disk p A B e R ∧ EMatch p REC_STATUS_VALID e ∧ live e ∧ (∀ x ∈ A, Same p x.path → gone x) ∧
      ∀ x ∈ B, Same p x.path → dead x := by
  have hh := hc.tHash_lt p hlen
  have K := I.w.chains _ hh
  simp only [abs, if_pos hlen] at h
  cases hf : (centries (G.chain (c.tHash p))).find? fun e => decide (EMatch p REC_STATUS_VALID e) with
  | none => rw [hf] at h; cases h
  | some e =>
    rw [hf] at h
    obtain ⟨A, B, hE, hp, hA⟩ := split_find hf
    have hmem : e ∈ centries (G.chain (c.tHash p)) := by rw [hE]; simp
    have hm : EMatch p REC_STATUS_VALID e := by simpa using hp
    have hl := ((EMatch_valid (K.ok e hmem)).mp hm).2
    obtain ⟨o1, o2⟩ := order_split K hE
    refine ⟨A, B, e, ⟨hE, hm.1, ⟨K.recs e hmem (live_not_gone hl) (by simp only [ite_self]; exact I.w.info_ne hc hh hmem (live_not_gone hl)), by
      rw [Option.map_some] at h; injection h⟩⟩, hm, hl, ?_, ?_⟩
    · intro x hx hs
      exact Decidable.byContradiction fun hg => live_not_dead hl (o1 x hx hg (hs.symm.trans hm.1))
    · intro x hx hs
      exact o2 x hx (live_not_gone hl) (hm.1.symm.trans hs)

/-- No record: all entries of the pathname are deleted. -/
theorem dead_entries (hc : c.OK) {G : Ghost} {s : Eng} (I : Inv c G s) {p : Bytes} (hlen : p.length ≤ 392)
    (h : (abs c G s.disk).live p = none) :
    ∀ f ∈ centries (G.chain (c.tHash p)), Same p f.path → dead f := by
  intro f hf hs
  have hh := hc.tHash_lt p hlen
  have K := I.w.chains _ hh
  simp only [abs, if_pos hlen, Option.map_eq_none_iff, List.find?_eq_none, decide_eq_true_eq] at h
  rcases (K.ok f hf).st with h1 | h1
  · exact absurd ((EMatch_valid (K.ok f hf)).mpr ⟨hs, h1⟩) (h f hf)
  · exact h1

theorem abs_live_of (hc : c.OK) {G : Ghost} {s : Eng} (I : Inv c G s) {q : Bytes} (hlen : q.length ≤ 392) {A B : List BinEnt} {e : BinEnt}
    (hE : centries (G.chain (c.tHash q)) = A ++ e :: B) (hA : ∀ x ∈ A, Same q x.path → gone x) (hs : Same q e.path) (hl : live e) :
    (abs c G s.disk).live q = some (recAt s.disk e) := by
  have hh := hc.tHash_lt q hlen
  have K := I.w.chains _ hh
  simp only [abs, if_pos hlen]
  rw [hE, find_none_append (by intro x hx; simp only [decide_eq_false_iff_not]; intro h; exact EMatch.not_gone (Or.inl h) (hA x hx h.1))]
  rw [List.find?_cons_of_pos (by simpa using (EMatch_valid (K.ok e (by rw [hE]; simp))).mpr ⟨hs, hl⟩)]
  rfl

theorem not_match_of_not_same {q p : Bytes} {w : Nat} {x : BinEnt} (hx : Same p x.path) (h : ¬ Same p q) : ¬ EMatch q w x :=
  fun hm => h (hx.trans hm.1.symm)

theorem same_len {p q : Bytes} (h : Same p q) (hp : p.length ≤ 392) : q.length ≤ 392 := by rw [← h.length]; exact hp

/-- A record that is there before a call can be read in every state a crash during the call leaves. -/
theorem crash_read (hc : c.OK) {G : Ghost} {s : Eng} (I : Inv c G s) {p : Bytes} (hp : p.length ≤ 392) {a0 : Nat}
    (hm : ∀ x ∈ centries (G.chain (c.tHash p)), ¬ gone x → x.infoAdd = a0 → Same p x.path)
    {d : Disk} (C : CrashOK c p G s.disk (c.tHash p) a0 d) {q : Bytes} (hq : q.length ≤ 392) (hne : ¬ Same p q) {R : Rec}
    (hR : (abs c G s.disk).live q = some R) {h : Hdr} (hh : s.hdr.totalBins ≤ h.totalBins) (l : List Wr) :
    zread c ⟨d, h, l⟩ q = some (some R) := by
  obtain ⟨G1, ax, W, N⟩ := C
  obtain ⟨A, B, e, T, hm2, hl, hA, hB⟩ := live_entry hc I hq hR
  have hqh := hc.tHash_lt q hq
  have hmem : e ∈ centries (G.chain (c.tHash q)) := by rw [T.ents]; simp
  have hnea : ¬ (c.tHash q = c.tHash p ∧ e.infoAdd = a0) := by
    rintro ⟨h1, h2⟩
    rw [h1] at hmem
    exact hne ((hm e hmem (live_not_gone hl) h2).trans T.same.symm)
  have hrec : recAt d e = R := (rd_keep hc I.w N hqh hmem (live_not_gone hl) hnea).trans T.rcd.eq
  have hhash : d (e.infoAdd + kinfoHash) = c.pHash e.path := by
    rw [N.keep _ hqh e hmem (live_not_gone hl) hnea _ (InRec.info30 (by decide))]
    exact T.rcd.ok.hash
  have hno : ∀ x, Same p x.path → ¬ EMatch q REC_STATUS_VALID x := fun x hx hmm => hne (hx.trans hmm.1.symm)
  have fin : ∀ {A' B' : List BinEnt}, centries (G1.chain (c.tHash q)) = A' ++ e :: B' → (∀ x ∈ A', ¬ EMatch q REC_STATUS_VALID x) →
      (G1.chain (c.tHash q)).length ≤ s.hdr.totalBins + 1 → zread c ⟨d, h, l⟩ q = some (some R) := by
    intro A' B' h1 h2 h3
    rw [← hrec]
    exact zread_found hc (s := ⟨d, h, l⟩) W hqh (Nat.le_trans h3 (by simp only; omega)) h1 hm2 h2 hhash
  have hlen := I.h.len _ hqh
  by_cases heq : c.tHash q = c.tHash p
  · obtain ⟨hL, A1, B1, o, n, k1, k2, k3, k4⟩ := N.edit
    rw [← heq] at hL k1 k2
    have hL' : (G1.chain (c.tHash q)).length ≤ s.hdr.totalBins + 1 := by omega
    have hA1 : ∀ x ∈ A, ¬ EMatch q REC_STATUS_VALID x := fun x hx hmm => EMatch.not_gone (Or.inl hmm) (hA x hx hmm.1)
    have hT := T.ents
    rw [k1] at hT
    -- where the entry is
    have hnd := (I.w.chains _ hqh).nodupR
    have he_o : e ∉ o := by
      intro ho
      rcases k3 e ho with h1 | h1
      · exact hne (h1.trans T.same.symm)
      · exact live_not_dead hl h1
    have hfirst : ∀ x ∈ A1 ++ o ++ B1, EMatch q REC_STATUS_VALID x → x = e := by
      intro x hx hmm
      rw [hT] at hx
      rcases List.mem_append.mp hx with h1 | h1
      · exact absurd hmm (hA1 x h1)
      · rcases List.mem_cons.mp h1 with h1 | h1
        · exact h1
        · have := hB x h1 hmm.1
          exact absurd this (EMatch.not_dead hmm)
    have hsplit : ∀ l : List BinEnt, e ∈ l → ∃ u v, l = u ++ e :: v ∧ e ∉ u := fun l hl => List.eq_append_cons_of_mem hl
    have hmemA : e ∈ A1 ++ o ++ B1 := by rw [hT]; simp
    rcases List.mem_append.mp hmemA with h1 | h1
    · rcases List.mem_append.mp h1 with h1 | h1
      · obtain ⟨u, v, hu, hu2⟩ := hsplit A1 h1
        refine fin (A' := u) (B' := v ++ n ++ B1) (by rw [k2, hu]; simp) ?_ hL'
        intro x hx hmm
        have : x = e := hfirst x (by rw [hu]; simp [hx]) hmm
        rw [this] at hx; exact hu2 hx
      · exact absurd h1 he_o
    · obtain ⟨u, v, hu, hu2⟩ := hsplit B1 h1
      refine fin (A' := A1 ++ n ++ u) (B' := v) (by rw [k2, hu]; simp) ?_ hL'
      intro x hx hmm
      simp only [List.mem_append] at hx
      have hA1e : e ∉ A1 := by
        intro h2
        rw [k1, List.pairwise_append] at hnd
        exact hnd.2.2 e (List.mem_append_left _ h2) e h1 (live_not_gone hl) (live_not_gone hl) rfl
      rcases hx with (hx | hx) | hx
      · have : x = e := hfirst x (by simp [hx]) hmm
        rw [this] at hx; exact hA1e hx
      · exact hno x (k4 x hx) hmm
      · have : x = e := hfirst x (by rw [hu]; simp [hx]) hmm
        rw [this] at hx; exact hu2 hx
  · have h1 := (N.others _ heq).1
    refine fin (A' := A) (B' := B) (by rw [h1]; exact T.ents) (fun x hx hmm => EMatch.not_gone (Or.inl hmm) (hA x hx hmm.1)) (by rw [h1]; omega)

theorem applyLog_append (d : Disk) (a b : List Wr) : applyLog d (a ++ b) = applyLog (applyLog d a) b := by
  simp [applyLog, List.foldl_append]

/-- A record with another pathname can be read in every state a crash between `s` and `s'` leaves. -/
def Safe (c : Cfg) (ps : List Bytes) (G : Ghost) (s s' : Eng) : Prop :=
  ∃ ws, s'.log = s.log ++ ws ∧ s'.disk = applyLog s.disk ws ∧
    ∀ (n : Nat) (h : Hdr) (l : List Wr) (q : Bytes) (R : Rec), s.hdr.totalBins ≤ h.totalBins → q.length ≤ 392 → (∀ p ∈ ps, ¬ Same p q) →
      (abs c G s.disk).live q = some R → zread c ⟨applyLog s.disk (ws.take n), h, l⟩ q = some (some R)

theorem Safe.of_done (hc : c.OK) {G G' : Ghost} {s s' : Eng} (I : Inv c G s) {p : Bytes} (hp : p.length ≤ 392) {a0 : Nat}
    (D : Done c p a0 G s G' s') (hm : ∀ x ∈ centries (G.chain (c.tHash p)), ¬ gone x → x.infoAdd = a0 → Same p x.path) : Safe c [p] G s s' := by
  obtain ⟨ws, h1, h2, h3⟩ := D.st.trace
  refine ⟨ws, h1, h2, fun n h l q R hb hq hne hz => ?_⟩
  exact crash_read hc I hp hm (h3 n) hq (hne p (by simp)) hz hb l

theorem Safe.trans {ps1 ps2 : List Bytes} {G G1 : Ghost} {s s1 s2 : Eng} (S1 : Safe c ps1 G s s1) (S2 : Safe c ps2 G1 s1 s2)
    (hb : s1.hdr.totalBins ≤ s.hdr.totalBins) (ha : ∀ q, (∀ p ∈ ps1, ¬ Same p q) → (abs c G1 s1.disk).live q = (abs c G s.disk).live q) :
    Safe c (ps1 ++ ps2) G s s2 := by
  obtain ⟨w1, a1, b1, c1⟩ := S1
  obtain ⟨w2, a2, b2, c2⟩ := S2
  refine ⟨w1 ++ w2, by rw [a2, a1, List.append_assoc], by rw [b2, b1, applyLog_append], fun n h l q R hh hq hne hz => ?_⟩
  have hne1 : ∀ p ∈ ps1, ¬ Same p q := fun p hp => hne p (by simp [hp])
  by_cases hn : n ≤ w1.length
  · rw [List.take_append_of_le_length hn]
    exact c1 n h l q R hh hq hne1 hz
  · rw [List.take_append, List.take_of_length_le (by omega), applyLog_append, ← b1]
    exact c2 _ h l q R (by omega) hq (fun p hp => hne p (by simp [hp])) (by rw [ha q hne1]; exact hz)

theorem Safe.mono {ps ps' : List Bytes} {G : Ghost} {s s' : Eng} (S : Safe c ps G s s') (h : ∀ p ∈ ps, p ∈ ps') : Safe c ps' G s s' := by
  obtain ⟨ws, a, b, e⟩ := S
  exact ⟨ws, a, b, fun n hd l q R h1 h2 h3 => e n hd l q R h1 h2 (fun p hp => h3 p (h p hp))⟩

/-- The info blocks agree with the entries of the bins.  This holds between calls. -/
def Heads (c : Cfg) (G : Ghost) (d : Disk) : Prop := ∀ h, h < c.maxHash → ∀ e ∈ centries (G.chain h), ¬ gone e → HeadOK d e

theorem Heads.edit (hc : c.OK) {p : Bytes} {a0 : Nat} {G G' : Ghost} {s s' : Eng}
    (D : Done c p a0 G s G' s') {A B o n : List BinEnt} (h1 : centries (G.chain (c.tHash p)) = A ++ o ++ B)
    (h2 : centries (G'.chain (c.tHash p)) = A ++ n ++ B) (h3 : ∀ x ∈ A ++ B, ¬ gone x → x.infoAdd ≠ a0)
    (hn : ∀ x ∈ n, ¬ gone x → HeadOK s'.disk x) (H : Heads c G s.disk) : Heads c G' s'.disk := by
  intro h hh e he hg
  have keep : ∀ e ∈ centries (G.chain h), ¬ gone e → ¬ (h = c.tHash p ∧ e.infoAdd = a0) → HeadOK s'.disk e := fun e he hg hne =>
    HeadOK.congr (e := e) rfl rfl (fun i hi => D.st.near.keep h hh e he hg hne _ (InRec.info hi)) (H h hh e he hg)
  by_cases hx : h = c.tHash p
  · subst hx
    rw [h2] at he
    have hAB : e ∈ A ++ B → HeadOK s'.disk e := fun hm => keep e (by
      rw [h1]
      rcases List.mem_append.mp hm with h | h <;> simp [h]) hg (fun h => h3 e hm hg h.2)
    simp only [List.mem_append] at he
    rcases he with (he | he) | he
    · exact hAB (List.mem_append_left _ he)
    · exact hn e he hg
    · exact hAB (List.mem_append_right _ he)
  · rw [(D.st.near.others h hx).1] at he
    exact keep e he hg (fun h => hx h.1)

/-- The times of the last writes in the bins are those of the records.  Kept by all calls but renames and refused writes. -/
def Dated (c : Cfg) (G : Ghost) (d : Disk) : Prop := ∀ h, h < c.maxHash → ∀ e ∈ centries (G.chain h), ¬ gone e → e.lastWrite = (recAt d e).lastWrite

theorem Dated.edit (hc : c.OK) {p : Bytes} {a0 : Nat} {G G' : Ghost} {s s' : Eng}
    (D : Done c p a0 G s G' s') {A B o n : List BinEnt} (h1 : centries (G.chain (c.tHash p)) = A ++ o ++ B)
    (h2 : centries (G'.chain (c.tHash p)) = A ++ n ++ B) (h3 : ∀ x ∈ A ++ B, ¬ gone x → x.infoAdd ≠ a0)
    (hn : ∀ x ∈ n, ¬ gone x → x.lastWrite = (recAt s'.disk x).lastWrite) (H : Dated c G s.disk) : Dated c G' s'.disk := by
  intro h hh e he hg
  have keep : ∀ e ∈ centries (G.chain h), ¬ gone e → ¬ (h = c.tHash p ∧ e.infoAdd = a0) → e.lastWrite = (recAt s'.disk e).lastWrite := fun e he hg hne =>
    (H h hh e he hg).trans (D.st.near.keep h hh e he hg hne _ (InRec.info (by simp only [numberInfo, infoSize, kinfoLastWriteTime]; omega))).symm
  by_cases hx : h = c.tHash p
  · subst hx
    rw [h2] at he
    have hAB : e ∈ A ++ B → e.lastWrite = (recAt s'.disk e).lastWrite := fun hm => keep e (by
      rw [h1]
      rcases List.mem_append.mp hm with h | h <;> simp [h]) hg (fun h => h3 e hm hg h.2)
    simp only [List.mem_append] at he
    rcases he with (he | he) | he
    · exact hAB (List.mem_append_left _ he)
    · exact hn e he hg
    · exact hAB (List.mem_append_right _ he)
  · rw [(D.st.near.others h hx).1] at he
    exact keep e he hg (fun h => hx h.1)

/-- What one call gives. -/
structure Stepped (c : Cfg) (op : Op) (G : Ghost) (s : Eng) (res : Res) (G' : Ghost) (s' : Eng) : Prop where
  step : Step (abs c G s.disk) op res (abs c G' s'.disk)
  inv : Inv c G' s'
  safe : Safe c op.paths G s s'
  count : s.hdr.numberRecords = liveCount c G → s'.hdr.numberRecords = liveCount c G'
  heads : Heads c G s.disk → Heads c G' s'.disk
  trash : ∀ h, h < c.maxHash → ∀ e ∈ centries (G'.chain h), e.st = REC_STATUS_DELETED →
    (∃ e0 ∈ centries (G.chain h), e0.st = REC_STATUS_DELETED ∧ e0.path = e.path) ∨
    (∃ p ∈ op.deletes, Same p e.path)
  prim : (∀ p, op ≠ .undelete p) → NoZeros c G → NoZeros c G'
  dated : (∀ o n v, op ≠ .rename o n v) → res ≠ .differentType → Dated c G s.disk → Dated c G' s'.disk

/-- What a new entry does to the contents. -/
theorem new_entry (hc : c.OK) {G G' : Ghost} {s s' : Eng} (I : Inv c G s) {p : Bytes} (hlen : p.length ≤ 392) {R : Rec} {e : BinEnt}
    (D : Done c p 0 G s G' s') (hpath : e.path = p) (hst : e.st = REC_STATUS_PRIMARY) (hR : RecIs c s'.disk (G'.room e.infoAdd) e R) {A B o : List BinEnt}
    (h1 : centries (G.chain (c.tHash p)) = A ++ o ++ B) (h2 : centries (G'.chain (c.tHash p)) = A ++ e :: B) (ho : ∀ x ∈ o, dead x) (ho1 : o.length ≤ 1)
    (hA : ∀ x ∈ A, Same p x.path → gone x) :
    Set (abs c G s.disk).live (abs c G' s'.disk).live p (some R) ∧ DropOne (abs c G s.disk).trash (abs c G' s'.disk).trash ∧
      liveCount c G' = liveCount c G + 1 ∧
      (∀ h, ∀ f ∈ centries (G'.chain h), f.st = REC_STATUS_DELETED → ∃ e0 ∈ centries (G.chain h), e0.st = REC_STATUS_DELETED ∧ e0.path = f.path) ∧
      (HeadOK s'.disk e → Heads c G s.disk → Heads c G' s'.disk) ∧ (NoZeros c G → NoZeros c G') ∧
      (e.lastWrite = R.lastWrite → Dated c G s.disk → Dated c G' s'.disk) := by
  have hh := hc.tHash_lt p hlen
  have hlive : live e := Or.inr hst
  have hz : ∀ x ∈ A ++ B, ¬ gone x → x.infoAdd ≠ 0 := by
    intro x hx hg
    refine I.w.info_ne hc hh (e := x) ?_ hg
    rw [h1]
    rcases List.mem_append.mp hx with h | h <;> simp [h]
  have E : EditAt c p G s G' s' A B o [e] := .of_done hc hh I D h1 (by simpa using h2) hz
  have hns : ∀ q, ¬ Same p q → ∀ w, ∀ x ∈ [e], ¬ EMatch q w x := by
    intro q hq w x hx
    simp at hx; subst hx
    exact not_match_of_not_same (by rw [hpath]; rfl) hq
  have hov : ∀ q, ∀ x ∈ o, ¬ EMatch q REC_STATUS_VALID x := by
    intro q x hx hm
    exact EMatch.not_dead hm (ho x hx)
  refine ⟨?_, ?_, ?_, ?_, fun hH => Heads.edit hc D (n := [e]) h1 (by simpa using h2) hz (by intro x hx _; simp at hx; subst hx; exact hH),
    E.noZeros (by intro x hx; simp at hx; subst hx; rw [hst]; decide),
    fun hd => Dated.edit hc D (n := [e]) h1 (by simpa using h2) hz (by intro x hx _; simp at hx; subst hx; rw [hd, ← hR.eq]; rfl)⟩
  · intro q
    rw [same_iff]
    constructor
    · intro hs
      have hql := same_len hs hlen
      have := abs_live_of hc D.inv hql (A := A) (B := B) (e := e) (by rw [← hc.tHash_same _ _ hs]; exact h2)
        (fun x hx h => hA x hx (hs.trans h)) (by rw [hpath]; exact hs.symm) hlive
      rw [this, ← hR.eq]
      rfl
    · intro hs
      exact E.live hc (hov q) (hns q hs _)
  · have he11 : ∀ q, ∀ x ∈ [e], ¬ EMatch q REC_STATUS_DELETED x := by
      intro q x hx hm
      simp at hx; subst hx
      exact live_not_deleted hlive (EMatch_deleted.mp hm).2
    have hkeep : (∀ x ∈ o, x.st ≠ REC_STATUS_DELETED) → DropOne (abs c G s.disk).trash (abs c G' s'.disk).trash := by
      intro hod
      refine ⟨p, ((abs c G s.disk).trash p).length, fun q => ?_⟩
      have : (abs c G' s'.disk).trash q = (abs c G s.disk).trash q := E.trash hc (fun x hx hm => hod x hx (EMatch_deleted.mp hm).2) (he11 q)
      refine ⟨fun hs => ?_, fun _ => this⟩
      rw [same_iff] at hs
      rw [this, List.eraseIdx_of_length_le]
      have : (abs c G s.disk).trash q = (abs c G s.disk).trash p := by
        have hql := same_len hs hlen
        simp only [abs, if_pos hql, if_pos hlen]
        rw [hc.tHash_same _ _ hs]
        congr 1
        apply List.filter_congr
        intro x hx
        rw [decide_eq_decide, EMatch_deleted, EMatch_deleted]
        exact ⟨fun h => ⟨hs.trans h.1, h.2⟩, fun h => ⟨hs.symm.trans h.1, h.2⟩⟩
      rw [this]
      exact Nat.le_refl _
    match o, ho1, E, hkeep with
    | [], _, E, hkeep => exact hkeep (by simp)
    | [x], _, E, hkeep =>
      by_cases hxd : x.st = REC_STATUS_DELETED
      case neg => exact hkeep (by simpa using hxd)
      have K := I.w.chains _ hh
      have hxm : x ∈ centries (G.chain (c.tHash p)) := by rw [E.before]; simp
      have hxo := K.ok x hxm
      refine ⟨x.path, (A.filter fun e => decide (EMatch x.path REC_STATUS_DELETED e)).length, fun q => ?_⟩
      rw [same_iff]
      constructor
      · intro hs
        have hql := same_len hs hxo.len
        have htq : c.tHash q = c.tHash p := by rw [← hc.tHash_same _ _ hs]; exact hxo.hash
        have hff : ∀ l : List BinEnt, l.filter (fun e => decide (EMatch q REC_STATUS_DELETED e)) =
            l.filter fun e => decide (EMatch x.path REC_STATUS_DELETED e) := by
          intro l
          apply List.filter_congr
          intro y hy
          rw [decide_eq_decide, EMatch_deleted, EMatch_deleted]
          exact ⟨fun h => ⟨hs.trans h.1, h.2⟩, fun h => ⟨hs.symm.trans h.1, h.2⟩⟩
        simp only [abs, if_pos hql, htq, E.before, E.after, hff]
        simp only [List.filter_append, List.map_append]
        rw [List.filter_cons_of_neg (by simpa using he11 x.path e (by simp)), List.filter_cons_of_pos (by
          simp only [decide_eq_true_eq, EMatch_deleted]; exact ⟨rfl, hxd⟩)]
        simp only [List.filter_nil, List.map_nil, List.append_nil, List.map_cons, List.append_assoc]
        rw [List.eraseIdx_append_of_length_le (by simp)]
        simp only [List.length_map, Nat.sub_self, List.cons_append, List.nil_append, List.eraseIdx_cons_zero]
        congr 1
        · exact List.map_congr_left (fun y hy => E.rdA y (List.mem_append_left _ (List.mem_filter.mp hy).1) (EMatch.not_gone (Or.inr (by simpa using (List.mem_filter.mp hy).2))))
        · exact List.map_congr_left (fun y hy => E.rdA y (List.mem_append_right _ (List.mem_filter.mp hy).1) (EMatch.not_gone (Or.inr (by simpa using (List.mem_filter.mp hy).2))))
      · intro hs
        refine E.trash hc ?_ (he11 q)
        intro y hy
        simp at hy; subst hy
        exact not_match_of_not_same (Same.refl _) hs
  · have := E.count hh
    have h0 : o.countP (fun e => decide (live e)) = 0 := by
      rw [List.countP_eq_zero]
      intro x hx
      simp only [decide_eq_true_eq]
      intro hl
      exact live_not_dead hl (ho x hx)
    rw [List.countP_cons_of_pos (by simpa using hlive)] at this
    simp at this
    omega
  · intro h e' he' hd'
    refine (E.deleted (P := fun _ => False) (fun x hx hd => ?_) h e' he' hd').elim id (fun h => h.elim)
    simp at hx; subst hx
    exact live_not_deleted hlive hd

theorem step_write_new (hc : c.OK) {G : Ghost} {s : Eng} (I : Inv c G s) {r : Req} (hg : Guard c G s (.write r))
    (hnone : (abs c G s.disk).live r.path = none) :
    ∃ G' s' res, run c s (.write r) = some (s', res) ∧ Stepped c (.write r) G s res G' s' := by
  obtain ⟨hpos, hlen, _, hsz⟩ := hg
  have hh := hc.tHash_lt r.path hlen
  have hdead := dead_entries hc I hlen hnone
  obtain ⟨G', s', e, hrun, D, ⟨hpath, hlw⟩, hst, hnr, hR, hH, A, B, o, h1, h2, ho, ho1, hA⟩ :=
    zwrite_new_ok hc I r hpos hlen hdead (fun f hf hs => by
      have := hsz hnone f hf hs.1
      have := hs.2
      omega)
  obtain ⟨k1, k2, k3, k4, k5, k6, k7⟩ := new_entry hc I hlen D hpath hst hR h1 h2 ho ho1 hA
  refine ⟨G', s', .ok, hrun, ⟨.writeNew hnone k1 k2, D.inv, .of_done hc I hlen D (fun x hx hg h => absurd h (I.w.info_ne hc hh hx hg)), ?_, k5 hH, ?_, fun _ => k6, fun _ _ => k7 hlw⟩⟩
  · intro hcnt; rw [hnr, hcnt, k3]
  · intro h _ e' he' hd'; exact Or.inl (k4 h e' he' hd')

theorem step_overwrite (hc : c.OK) {G : Ghost} {s : Eng} (I : Inv c G s) {r : Req} (hg : Guard c G s (.write r)) {R : Rec}
    (hsome : (abs c G s.disk).live r.path = some R) :
    ∃ G' s' res, run c s (.write r) = some (s', res) ∧ Stepped c (.write r) G s res G' s' := by
  obtain ⟨hpos, hlen, hodd, _⟩ := hg
  have hh := hc.tHash_lt r.path hlen
  obtain ⟨A, B, e, T, hm, hl, hA, hB⟩ := live_entry hc I hlen hsome
  obtain ⟨G', s', e', res, hrun, D, ⟨hpath, hlw⟩, hst, hnr, hH, ⟨h2, _⟩, hres⟩ := zwrite_existing_ok hc I r hlen T hm hl hA hB (hodd R hsome)
  have hl' : live e' := by unfold live; rw [hst]; exact hl
  have K := I.w.chains _ hh
  have E : EditAt c r.path G s G' s' A B [e] [e'] := .of_done hc hh I D (by simpa using T.ents) (by simpa using h2)
    (fun x hx hg => others_ne (e := e) K T.ents x hx hg (live_not_gone hl))
  have hheads : Heads c G s.disk → Heads c G' s'.disk := fun H =>
    Heads.edit hc D (o := [e]) (n := [e']) (by simpa using T.ents) (by simpa using h2) (fun x hx hg => others_ne (e := e) K T.ents x hx hg (live_not_gone hl))
      (by intro x hx _; simp at hx; subst hx; exact hH (H _ hh e (by rw [T.ents]; simp) (live_not_gone hl))) H
  have htr : (abs c G' s'.disk).trash = (abs c G s.disk).trash := by
    funext q
    apply E.trash hc
    · intro x hx hmm
      simp at hx; subst hx
      exact live_not_deleted hl (EMatch_deleted.mp hmm).2
    · intro x hx hmm
      simp at hx; subst hx
      exact live_not_deleted hl' (EMatch_deleted.mp hmm).2
  have hother : ∀ q, ¬ Same r.path q → (abs c G' s'.disk).live q = (abs c G s.disk).live q := by
    intro q hs
    apply E.live hc
    · intro x hx
      simp at hx; subst hx
      exact not_match_of_not_same T.same hs
    · intro x hx
      simp at hx; subst hx
      exact not_match_of_not_same (by rw [hpath]; exact T.same) hs
  have hmine : ∀ q, Same r.path q → (abs c G' s'.disk).live q = some (recAt s'.disk e') := by
    intro q hs
    exact abs_live_of hc D.inv (same_len hs hlen) (A := A) (B := B) (e := e') (by rw [← hc.tHash_same _ _ hs]; exact h2)
        (fun x hx h => hA x hx (hs.trans h)) (by rw [hpath]; exact hs.symm.trans T.same) hl'
  have hsame : ∀ q, Same r.path q → (abs c G s.disk).live q = some R := by
    intro q hs
    have := abs_live_of hc I (same_len hs hlen) (A := A) (B := B) (e := e) (by rw [← hc.tHash_same _ _ hs]; exact T.ents)
        (fun x hx h => hA x hx (hs.trans h)) (hs.symm.trans T.same) hl
    rw [this]; exact congrArg some T.rcd.eq
  have hcount : s.hdr.numberRecords = liveCount c G → s'.hdr.numberRecords = liveCount c G' := by
    intro hcnt
    have := E.count hh
    rw [List.countP_cons_of_pos (by simpa using hl), List.countP_cons_of_pos (by simpa using hl')] at this
    simp at this
    rw [hnr, hcnt]; omega
  have htrash : ∀ h, h < c.maxHash → ∀ e ∈ centries (G'.chain h), e.st = REC_STATUS_DELETED →
    (∃ e0 ∈ centries (G.chain h), e0.st = REC_STATUS_DELETED ∧ e0.path = e.path) ∨
    (∃ p ∈ (Op.write r).deletes, Same p e.path) := by
    intro h _ f hf hd'
    refine E.deleted (P := fun _ => False) (fun x hx hd => ?_) h f hf hd' |>.imp id (fun h => h.elim)
    simp at hx; subst hx
    exact live_not_deleted hl' hd
  have hprim : NoZeros c G → NoZeros c G' := fun H =>
    E.noZeros (by intro x hx; simp at hx; subst hx; rw [hst]; exact H _ hh e (by rw [T.ents]; simp)) H
  have hdated : e'.lastWrite = (recAt s'.disk e').lastWrite → Dated c G s.disk → Dated c G' s'.disk := fun hd =>
    Dated.edit hc D (o := [e]) (n := [e']) (by simpa using T.ents) (by simpa using h2) (fun x hx hg => others_ne (e := e) K T.ents x hx hg (live_not_gone hl))
      (by intro x hx _; simp at hx; subst hx; exact hd)
  rcases hres with ⟨hts, hr, hR⟩ | ⟨hts, hr, hR⟩
  · subst hr
    refine ⟨G', s', .ok, hrun, ⟨.overwrite hsome ((typeSupported_iff _ _).mp hts) ?_ htr, D.inv, .of_done hc I hlen D (mine_same K T (live_not_gone hl)), hcount, hheads, htrash, fun _ => hprim, fun _ _ => hdated (hlw.trans (congrArg Rec.lastWrite hR.eq).symm)⟩⟩
    intro q
    rw [same_iff]
    refine ⟨fun hs => ?_, hother q⟩
    rw [hmine q hs]; exact congrArg some hR.eq
  · subst hr
    refine ⟨G', s', .differentType, hrun, ⟨?_, D.inv, .of_done hc I hlen D (mine_same K T (live_not_gone hl)), hcount, hheads, htrash, fun _ => hprim, fun _ h => absurd rfl h⟩⟩
    have : abs c G' s'.disk = abs c G s.disk := by
      have hlv : (abs c G' s'.disk).live = (abs c G s.disk).live := by
        funext q
        by_cases hs : Same r.path q
        · rw [hmine q hs, hsame q hs]; exact congrArg some hR.eq
        · exact hother q hs
      cases h1 : abs c G' s'.disk
      cases h2 : abs c G s.disk
      rw [h1, h2] at hlv htr
      simp only at hlv htr
      rw [hlv, htr]
    rw [this]
    exact .refused hsome (fun h => by rw [(typeSupported_iff _ _).mpr h] at hts; cases hts)

/-- A call that finds nothing. -/
theorem step_missing (hc : c.OK) {G : Ghost} {s : Eng} (I : Inv c G s) {p : Bytes} (hlen : p.length ≤ 392) (u : Bool)
    (hno : ∀ x ∈ centries (G.chain (c.tHash p)), ¬ EMatch p (if u then REC_STATUS_DELETED else REC_STATUS_VALID) x) :
    ∃ s', zdeleteInternal c s p u = some (s', .notFound) ∧ Done c p 0 G s G s' ∧ abs c G s'.disk = abs c G s.disk ∧ s'.hdr = s.hdr ∧
      (Heads c G s.disk → Heads c G s'.disk) := by
  have hh := hc.tHash_lt p hlen
  have hlen' : (G.chain (c.tHash p)).length ≤ s.hdr.totalBins + 1 := by have := I.h.len _ hh; omega
  have hchk := zcheck_none hc (hx := c.tHash p) (ax := 0) I.w.idle hh (I.last _ hh) hlen' hno
  have I0 : InvW c G s.disk (c.tHash p) 0 := I.w.idle
  have S0 : St c p G s (c.tHash p) 0 G s 0 := St.start I0 hh hc
  have hq : ∀ i, i < c.hdrSize → G.own (0 + i) = .sys := fun i hi => by rw [Nat.zero_add]; exact I.w.sys i hi
  have S1 : St c p G s (c.tHash p) 0 G (s.permWrite c) 0 := S0.quiet hc I0 (fun i hi => Or.inr (Or.inl (hq i hi)))
  have D : Done c p 0 G s G (s.permWrite c) := ⟨S1, I.h, I.last⟩
  have hz : ∀ x ∈ centries (G.chain (c.tHash p)), ¬ gone x → x.infoAdd ≠ 0 := fun x hx => I.w.info_ne hc hh hx
  have E : EditAt c p G s G (s.permWrite c) (centries (G.chain (c.tHash p))) [] [] [] :=
    .of_done hc hh I D (by simp) (by simp) (by simpa using hz)
  refine ⟨_, ?_, D, ?_, rfl, Heads.edit hc D (A := centries (G.chain (c.tHash p))) (B := []) (o := []) (n := []) (by simp) (by simp) (by simpa using hz) (by simp)⟩
  · unfold zdeleteInternal zreadInfo
    simp only [hchk, Option.map_some]
    simp
  · have h1 : (abs c G (s.permWrite c).disk).live = (abs c G s.disk).live := by funext q; exact E.live hc (by simp) (by simp)
    have h2 : (abs c G (s.permWrite c).disk).trash = (abs c G s.disk).trash := by funext q; exact E.trash hc (by simp) (by simp)
    cases h3 : abs c G (s.permWrite c).disk
    cases h4 : abs c G s.disk
    rw [h3, h4] at h1 h2
    simp only at h1 h2
    rw [h1, h2]

theorem trash_cong (hc : c.OK) {G : Ghost} {s : Eng} {p q : Bytes} (hs : Same p q) :
    (abs c G s.disk).trash q = (abs c G s.disk).trash p := by
  have hl := hs.length
  simp only [abs, hl]
  split
  · rw [hc.tHash_same _ _ hs]
    congr 1
    apply List.filter_congr
    intro x hx
    rw [decide_eq_decide, EMatch_deleted, EMatch_deleted]
    exact ⟨fun h => ⟨hs.trans h.1, h.2⟩, fun h => ⟨hs.symm.trans h.1, h.2⟩⟩
  · rfl

theorem step_delete (hc : c.OK) {G : Ghost} {s : Eng} (I : Inv c G s) {p : Bytes} (hlen : p.length ≤ 392) :
    ∃ G' s' res, run c s (.delete p) = some (s', res) ∧ Stepped c (.delete p) G s res G' s' := by
  have hh := hc.tHash_lt p hlen
  have K := I.w.chains _ hh
  cases hlv : (abs c G s.disk).live p with
  | none =>
    have hdead := dead_entries hc I hlen hlv
    obtain ⟨s', hrun, D, habs, hhdr, hheads⟩ := step_missing hc I hlen false (by
      intro x hx hm
      simp only [Bool.false_eq_true, if_false] at hm
      exact EMatch.not_dead hm (hdead x hx hm.1))
    refine ⟨G, s', .notFound, hrun, ⟨by rw [habs]; exact .deleteMissing hlv, D.inv, .of_done hc I hlen D (fun x hx hg h => absurd h (I.w.info_ne hc hh hx hg)), by rw [hhdr]; exact id, hheads, ?_, fun _ => id, fun _ _ => Dated.edit hc D (A := centries (G.chain (c.tHash p))) (B := []) (o := []) (n := []) (by simp) (by simp) (fun x hx hg => I.w.info_ne hc hh (by simpa using hx) hg) (by simp)⟩⟩
    intro h _ e he hd
    exact Or.inl ⟨e, he, hd, rfl⟩
  | some R =>
    obtain ⟨A, B, e, T, hm, hl, hA, hB⟩ := live_entry hc I hlen hlv
    obtain ⟨G', s', e', hrun, D, ⟨hpath, hlw⟩, hst, hnr, hR, hH, h2⟩ := setStatus_ok hc I p hlen false T hm hA hB
    simp only [Bool.false_eq_true, if_false] at hst hnr
    have E : EditAt c p G s G' s' A B [e] [e'] := .of_done hc hh I D (by simpa using T.ents) (by simpa using h2)
      (fun x hx hg => others_ne (e := e) K T.ents x hx hg (live_not_gone hl))
    have hnot : ∀ q w, ¬ Same p q → (∀ x ∈ [e], ¬ EMatch q w x) ∧ (∀ x ∈ [e'], ¬ EMatch q w x) := by
      intro q w hs
      constructor
      · intro x hx; simp at hx; subst hx; exact not_match_of_not_same T.same hs
      · intro x hx; simp at hx; subst hx; exact not_match_of_not_same (by rw [hpath]; exact T.same) hs
    refine ⟨G', s', .ok, hrun, ⟨.delete hlv ?_ ?_, D.inv, .of_done hc I hlen D (mine_same K T (live_not_gone hl)), ?_,
      fun H => Heads.edit hc D (o := [e]) (n := [e']) (by simpa using T.ents) (by simpa using h2) (fun x hx hg => others_ne (e := e) K T.ents x hx hg (live_not_gone hl))
        (by intro x hx _; simp at hx; subst hx; exact hH (H _ hh e (by rw [T.ents]; simp) (live_not_gone hl))) H, ?_,
      fun _ => E.noZeros (by intro x hx; simp at hx; subst hx; rw [hst]; decide),
      fun _ _ Hd => Dated.edit hc D (o := [e]) (n := [e']) (by simpa using T.ents) (by simpa using h2) (fun x hx hg => others_ne (e := e) K T.ents x hx hg (live_not_gone hl))
        (by intro x hx _; simp at hx; subst hx
            rw [hlw, Hd _ hh e (by rw [T.ents]; simp) (live_not_gone hl)]
            exact (congrArg Rec.lastWrite T.rcd.eq).trans (congrArg Rec.lastWrite hR.eq).symm) Hd⟩⟩
    · intro q
      rw [same_iff]
      refine ⟨fun hs => ?_, fun hs => E.live hc (hnot q _ hs).1 (hnot q _ hs).2⟩
      have hql := same_len hs hlen
      simp only [abs, if_pos hql]
      rw [Option.map_eq_none_iff, List.find?_eq_none]
      intro x hx
      rw [← hc.tHash_same _ _ hs, h2] at hx
      simp only [decide_eq_true_eq]
      intro hmm
      have hnv : ¬ dead x := EMatch.not_dead hmm
      simp only [List.mem_append, List.mem_cons] at hx
      rcases hx with h | h | h
      · exact hnv (Or.inr (hA x h (hs.trans hmm.1)))
      · rw [h] at hnv; exact hnv (Or.inl hst)
      · exact hnv (hB x h (hs.trans hmm.1))
    · intro q
      rw [same_iff]
      refine ⟨fun hs => ?_, fun hs => E.trash hc (hnot q _ hs).1 (hnot q _ hs).2⟩
      rw [trash_cong hc hs]
      have hfA : A.filter (fun e => decide (EMatch p REC_STATUS_DELETED e)) = [] := by
        rw [List.filter_eq_nil_iff]
        intro x hx
        simp only [decide_eq_true_eq]
        intro h
        exact EMatch.not_gone (Or.inr h) (hA x hx h.1)
      simp only [abs, if_pos hlen, h2, T.ents, List.filter_append, hfA, List.nil_append]
      rw [List.filter_cons_of_pos (by simp only [decide_eq_true_eq, EMatch_deleted]; exact ⟨by rw [hpath]; exact T.same, hst⟩),
        List.filter_cons_of_neg (by simp only [decide_eq_true_eq, EMatch_deleted]; intro h; exact live_not_deleted hl h.2)]
      rw [List.map_cons]
      congr 1
      · exact hR.eq
      · exact List.map_congr_left (fun y hy => E.rdA y (List.mem_append_right _ (List.mem_filter.mp hy).1) (EMatch.not_gone (Or.inr (by simpa using (List.mem_filter.mp hy).2))))
    · intro hcnt
      have := E.count hh
      rw [List.countP_cons_of_pos (by simpa using hl), List.countP_cons_of_neg (by
        simp only [decide_eq_true_eq]; intro h; exact live_not_deleted h hst)] at this
      simp at this
      rw [hnr, hcnt]; omega
    · intro h _ f hf hd'
      refine E.deleted (P := fun f => ∃ p' ∈ (Op.delete p).deletes, Same p' f.path) (fun x hx hd => ?_) h f hf hd'
      simp at hx; subst hx
      exact ⟨p, by simp [_root_.Spec.Op.deletes], by rw [hpath]; exact T.same⟩

theorem step_undelete (hc : c.OK) {G : Ghost} {s : Eng} (I : Inv c G s) {p : Bytes} (hlen : p.length ≤ 392)
    (hnone : (abs c G s.disk).live p = none) :
    ∃ G' s' res, run c s (.undelete p) = some (s', res) ∧ Stepped c (.undelete p) G s res G' s' := by
  have hh := hc.tHash_lt p hlen
  have K := I.w.chains _ hh
  have hdead := dead_entries hc I hlen hnone
  cases hf : (centries (G.chain (c.tHash p))).find? fun e => decide (EMatch p REC_STATUS_DELETED e) with
  | none =>
    have hno : ∀ x ∈ centries (G.chain (c.tHash p)), ¬ EMatch p REC_STATUS_DELETED x := by
      intro x hx
      have := List.find?_eq_none.mp hf x hx
      simpa using this
    obtain ⟨s', hrun, D, habs, hhdr, hheads⟩ := step_missing hc I hlen true (by simpa using hno)
    refine ⟨G, s', .notFound, hrun, ⟨by
      rw [habs]
      refine .undeleteMissing ?_
      simp only [abs, if_pos hlen, List.map_eq_nil_iff, List.filter_eq_nil_iff, decide_eq_true_eq]
      exact hno, D.inv, .of_done hc I hlen D (fun x hx hg h => absurd h (I.w.info_ne hc hh hx hg)), by rw [hhdr]; exact id, hheads, ?_, fun h => absurd rfl (h p), fun _ _ => Dated.edit hc D (A := centries (G.chain (c.tHash p))) (B := []) (o := []) (n := []) (by simp) (by simp) (fun x hx hg => I.w.info_ne hc hh (by simpa using hx) hg) (by simp)⟩⟩
    intro h _ e he hd
    exact Or.inl ⟨e, he, hd, rfl⟩
  | some e =>
    obtain ⟨A, B, hE, hp, hA0⟩ := split_find hf
    have hmem : e ∈ centries (G.chain (c.tHash p)) := by rw [hE]; simp
    have hm : EMatch p REC_STATUS_DELETED e := by simpa using hp
    have hA : ∀ x ∈ A, Same p x.path → gone x := by
      intro x hx hs
      have h1 := hA0 x hx
      simp only [decide_eq_false_iff_not, EMatch_deleted] at h1
      exact (hdead x (by rw [hE]; simp [hx]) hs).resolve_left fun h => h1 ⟨hs, h⟩
    have hB : ∀ x ∈ B, Same p x.path → dead x := fun x hx => hdead x (by rw [hE]; simp [hx])
    have hed := (EMatch_deleted.mp hm).2
    have hge : ¬ gone e := deleted_not_gone hed
    have T : Target c G s.disk p A B e (recAt s.disk e) :=
      ⟨hE, hm.1, K.recs e hmem hge (by simp only [ite_self]; exact I.w.info_ne hc hh hmem hge), rfl⟩
    obtain ⟨G', s', e', hrun, D, ⟨hpath, hlw⟩, hst, hnr, hR, hH, h2⟩ := setStatus_ok hc I p hlen true T (by simpa using hm) hA hB
    simp only [if_true] at hst hnr
    have hl' : live e' := Or.inl hst
    have E : EditAt c p G s G' s' A B [e] [e'] := .of_done hc hh I D (by simpa using T.ents) (by simpa using h2)
      (fun x hx hg => others_ne (e := e) K T.ents x hx hg hge)
    have hnot : ∀ q w, ¬ Same p q → (∀ x ∈ [e], ¬ EMatch q w x) ∧ (∀ x ∈ [e'], ¬ EMatch q w x) := by
      intro q w hs
      constructor
      · intro x hx; simp at hx; subst hx; exact not_match_of_not_same T.same hs
      · intro x hx; simp at hx; subst hx; exact not_match_of_not_same (by rw [hpath]; exact T.same) hs
    have hfA : A.filter (fun e => decide (EMatch p REC_STATUS_DELETED e)) = [] := by
      rw [List.filter_eq_nil_iff]
      intro x hx
      simp only [decide_eq_true_eq]
      intro h
      exact EMatch.not_gone (Or.inr h) (hA x hx h.1)
    refine ⟨G', s', .ok, hrun, ⟨.undelete (R := recAt s.disk e)
      (rest := (B.filter fun e => decide (EMatch p REC_STATUS_DELETED e)).map (recAt s.disk)) ?_ ?_ ?_, D.inv, .of_done hc I hlen D (mine_same K T hge), ?_,
      fun H => Heads.edit hc D (o := [e]) (n := [e']) (by simpa using T.ents) (by simpa using h2) (fun x hx hg => others_ne (e := e) K T.ents x hx hg hge)
        (by intro x hx _; simp at hx; subst hx; exact hH (H _ hh e (by rw [T.ents]; simp) hge)) H, ?_, fun h => absurd rfl (h p),
      fun _ _ Hd => Dated.edit hc D (o := [e]) (n := [e']) (by simpa using T.ents) (by simpa using h2) (fun x hx hg => others_ne (e := e) K T.ents x hx hg hge)
        (by intro x hx _; simp at hx; subst hx
            rw [hlw, Hd _ hh e (by rw [T.ents]; simp) hge]
            exact (congrArg Rec.lastWrite T.rcd.eq).trans (congrArg Rec.lastWrite hR.eq).symm) Hd⟩⟩
    · simp only [abs, if_pos hlen, hE, List.filter_append, hfA, List.nil_append]
      rw [List.filter_cons_of_pos (by simpa using hm), List.map_cons]
    · intro q
      rw [same_iff]
      refine ⟨fun hs => ?_, fun hs => E.live hc (hnot q _ hs).1 (hnot q _ hs).2⟩
      have := abs_live_of hc D.inv (same_len hs hlen) (A := A) (B := B) (e := e') (by rw [← hc.tHash_same _ _ hs]; exact h2)
        (fun x hx h => hA x hx (hs.trans h)) (by rw [hpath]; exact hs.symm.trans T.same) hl'
      rw [this]; exact congrArg some hR.eq
    · intro q
      rw [same_iff]
      refine ⟨fun hs => ?_, fun hs => E.trash hc (hnot q _ hs).1 (hnot q _ hs).2⟩
      rw [trash_cong hc hs]
      simp only [abs, if_pos hlen, h2, List.filter_append, hfA, List.nil_append]
      rw [List.filter_cons_of_neg (by simp only [decide_eq_true_eq, EMatch_deleted]; intro h; exact live_not_deleted hl' h.2)]
      exact List.map_congr_left (fun y hy => E.rdA y (List.mem_append_right _ (List.mem_filter.mp hy).1) (EMatch.not_gone (Or.inr (by simpa using (List.mem_filter.mp hy).2))))
    · intro hcnt
      have := E.count hh
      rw [List.countP_cons_of_neg (by
        simp only [decide_eq_true_eq]; intro h; exact live_not_deleted h hed), List.countP_cons_of_pos (by simpa using hl')] at this
      simp at this
      rw [hnr, hcnt]; omega
    · intro h _ f hf hd'
      refine E.deleted (P := fun _ => False) (fun x hx hd => ?_) h f hf hd' |>.imp id (fun h => h.elim)
      simp at hx; subst hx
      exact live_not_deleted hl' hd

end Hec
