import Verif.Proofs.EngineSteps
/-! The state in the middle of an operation on pathname `p`, relative to the state before it. -/
namespace Hec
set_option linter.unusedSimpArgs false
set_option linter.unusedVariables false

/-- The entries of a chain differ only by entries for `p` and by deleted entries that were dropped. -/
def Edited (p : Bytes) (C0 C : Chain) : Prop :=
  C.length ≤ C0.length + 1 ∧ ∃ A B o n, centries C0 = A ++ o ++ B ∧ centries C = A ++ n ++ B ∧
    (∀ x ∈ o, Same p x.path ∨ dead x) ∧ ∀ x ∈ n, Same p x.path

theorem Edited.refl (p : Bytes) (C : Chain) : Edited p C C :=
  ⟨by omega, centries C, [], [], [], by simp, by simp, by simp, by simp⟩

/-- What an operation on `p` (chain `hx`, record at `a0`) has left alone. -/
structure Near (c : Cfg) (p : Bytes) (G0 : Ghost) (d0 : Disk) (hx a0 : Nat) (G : Ghost) (d : Disk) (ax : Nat) : Prop where
  mono : ∀ x h a, G0.own x = .rcd h a → G.own x = .rcd h a
  others : ∀ h, h ≠ hx → G.chain h = G0.chain h ∧ G.last h = G0.last h
  keep : ∀ h, h < c.maxHash → ∀ e ∈ centries (G0.chain h), ¬ gone e → ¬ (h = hx ∧ e.infoAdd = a0) →
    ∀ x, InRec (G0.room e.infoAdd) e x → d x = d0 x
  room : ∀ x h, G0.own x = .rcd h x → G.room x = G0.room x
  edit : Edited p (G0.chain hx) (G.chain hx)
  fresh : ax = a0 ∨ ∀ e ∈ centries (G0.chain hx), ¬ gone e → e.infoAdd ≠ ax

/-- Every disk a crash in the middle of the operation can leave is such a state. -/
def CrashOK (c : Cfg) (p : Bytes) (G0 : Ghost) (d0 : Disk) (hx a0 : Nat) (d : Disk) : Prop :=
  ∃ G ax, InvW c G d hx ax ∧ Near c p G0 d0 hx a0 G d ax

structure St (c : Cfg) (p : Bytes) (G0 : Ghost) (s0 : Eng) (hx a0 : Nat) (G : Ghost) (s : Eng) (ax : Nat) : Prop where
  inv : InvW c G s.disk hx ax
  near : Near c p G0 s0.disk hx a0 G s.disk ax
  trace : ∃ ws, s.log = s0.log ++ ws ∧ s.disk = applyLog s0.disk ws ∧
    ∀ n, CrashOK c p G0 s0.disk hx a0 (applyLog s0.disk (ws.take n))

theorem St.start {c : Cfg} {p : Bytes} {G0 : Ghost} {s0 : Eng} {hx a0 : Nat} (I : InvW c G0 s0.disk hx 0) (h : hx < c.maxHash) (hc : c.OK) :
    St c p G0 s0 hx a0 G0 s0 0 := by
  have hn : Near c p G0 s0.disk hx a0 G0 s0.disk 0 :=
    ⟨fun _ _ _ h => h, fun _ _ => ⟨rfl, rfl⟩, fun _ _ _ _ _ _ _ _ => rfl, fun _ _ _ => rfl, Edited.refl _ _,
      Or.inr fun e he hg => I.info_ne hc h he hg⟩
  refine ⟨I, hn, [], by simp, rfl, fun n => ⟨G0, 0, ?_, ?_⟩⟩
  · simpa [applyLog] using I
  · simpa [applyLog] using hn

/-- The header in memory plays no part. -/
theorem St.hdr {c : Cfg} {p : Bytes} {G0 : Ghost} {s0 : Eng} {hx a0 : Nat} {G : Ghost} {s : Eng} {ax : Nat}
    (S : St c p G0 s0 hx a0 G s ax) {s' : Eng} (hd : s'.disk = s.disk) (hl : s'.log = s.log) :
    St c p G0 s0 hx a0 G s' ax := by
  refine ⟨by rw [hd]; exact S.inv, by rw [hd]; exact S.near, ?_⟩
  rw [hd, hl]; exact S.trace

/-- The ghost state changes without a disk write. -/
theorem St.ghost {c : Cfg} {p : Bytes} {G0 : Ghost} {s0 : Eng} {hx a0 : Nat} {G G' : Ghost} {s : Eng} {ax ax' : Nat}
    (S : St c p G0 s0 hx a0 G s ax) (inv' : InvW c G' s.disk hx ax')
    (hmono : ∀ x h a, G.own x = .rcd h a → G'.own x = .rcd h a)
    (hroom : ∀ x h, G.own x = .rcd h x → G'.room x = G.room x)
    (hoth : ∀ h, h ≠ hx → G'.chain h = G.chain h ∧ G'.last h = G.last h)
    (hedit : Edited p (G0.chain hx) (G'.chain hx))
    (hfresh : ax' = a0 ∨ ∀ e ∈ centries (G0.chain hx), ¬ gone e → e.infoAdd ≠ ax') :
    St c p G0 s0 hx a0 G' s ax' := by
  refine ⟨inv', ⟨fun x h a hh => hmono x h a (S.near.mono x h a hh), fun h hh => ?_, S.near.keep, fun x h hh => ?_, hedit, hfresh⟩, S.trace⟩
  · rw [(hoth h hh).1, (hoth h hh).2]; exact S.near.others h hh
  · rw [hroom x h (S.near.mono x h x hh)]; exact S.near.room x h hh

theorem St.step {c : Cfg} (hc : c.OK) {p : Bytes} {G0 : Ghost} {s0 : Eng} {hx a0 : Nat} {G G' : Ghost} {s : Eng} {ax ax' : Nat}
    (I0 : InvW c G0 s0.disk hx 0) (S : St c p G0 s0 hx a0 G s ax) {a n : Nat} {f : Nat → Nat}
    (inv' : InvW c G' (s.put a n f).disk hx ax')
    (hmono : ∀ x h a, G.own x = .rcd h a → G'.own x = .rcd h a)
    (hroom : ∀ x h, G.own x = .rcd h x → G'.room x = G.room x)
    (hoth : ∀ h, h ≠ hx → G'.chain h = G.chain h ∧ G'.last h = G.last h)
    (hw : ∀ i, i < n → ∀ h b, G.own (a + i) = .rcd h b → h = hx ∧ b = ax)
    (hedit : Edited p (G0.chain hx) (G'.chain hx))
    (hfresh : ax' = a0 ∨ ∀ e ∈ centries (G0.chain hx), ¬ gone e → e.infoAdd ≠ ax') :
    St c p G0 s0 hx a0 G' (s.put a n f) ax' := by
  have hn : Near c p G0 s0.disk hx a0 G' (s.put a n f).disk ax' := by
    refine ⟨fun x h a hh => hmono x h a (S.near.mono x h a hh), fun h hh => ?_, ?_, fun x h hh => ?_, hedit, hfresh⟩
    · rw [(hoth h hh).1, (hoth h hh).2]; exact S.near.others h hh
    · intro h hh e he hg hne y hy
      rw [← S.near.keep h hh e he hg hne y hy]
      have hcol := S.near.mono _ _ _ (((I0.chains h hh).rcd e he hg).mine y hy)
      rw [put_disk]
      by_cases hin : a ≤ y ∧ y < a + n
      · exfalso
        have h1 := hw (y - a) (by omega) h e.infoAdd (by rw [show a + (y - a) = y by omega]; exact hcol)
        rcases S.near.fresh with h2 | h2
        · exact hne ⟨h1.1, by rw [h1.2, h2]⟩
        · refine h2 e ?_ hg h1.2
          rw [← h1.1]; exact he
      · exact apply_out hin
    · rw [hroom x h (S.near.mono x h x hh)]; exact S.near.room x h hh
  refine ⟨inv', hn, ?_⟩
  obtain ⟨ws, h1, h2, h3⟩ := S.trace
  refine ⟨ws ++ [⟨a, n, f⟩], by simp [h1], ?_, ?_⟩
  · simp only [put_disk, applyLog, List.foldl_append, List.foldl_cons, List.foldl_nil]
    rw [h2]; rfl
  · intro m
    by_cases hm : m ≤ ws.length
    · have : (ws ++ [(⟨a, n, f⟩ : Wr)]).take m = ws.take m := by
        rw [List.take_append_of_le_length hm]
      rw [this]; exact h3 m
    · have : (ws ++ [(⟨a, n, f⟩ : Wr)]).take m = ws ++ [⟨a, n, f⟩] := by
        apply List.take_of_length_le; simp; omega
      rw [this]
      refine ⟨G', ax', ?_, ?_⟩
      · simp only [applyLog, List.foldl_append, List.foldl_cons, List.foldl_nil]
        have : ws.foldl (fun d w => w.apply d) s0.disk = s.disk := by rw [h2]; rfl
        rw [this]; exact inv'
      · simp only [applyLog, List.foldl_append, List.foldl_cons, List.foldl_nil]
        have : ws.foldl (fun d w => w.apply d) s0.disk = s.disk := by rw [h2]; rfl
        rw [this]; exact hn

theorem St.quiet {c : Cfg} (hc : c.OK) {p : Bytes} {G0 : Ghost} {s0 : Eng} {hx a0 : Nat} {G : Ghost} {s : Eng} {ax : Nat}
    (I0 : InvW c G0 s0.disk hx 0) (S : St c p G0 s0 hx a0 G s ax) {a n : Nat} {f : Nat → Nat}
    (hq : ∀ i, i < n → Quiet G.own hx ax (a + i)) : St c p G0 s0 hx a0 G (s.put a n f) ax := by
  refine S.step hc I0 (S.inv.quiet hc fun x hx' => ?_) (fun _ _ _ h => h) (fun _ _ _ => rfl) (fun _ _ => ⟨rfl, rfl⟩) ?_ S.near.edit S.near.fresh
  · rw [put_disk]
    apply apply_out
    rintro ⟨h1, h2⟩
    simp only at h1 h2
    apply hx'
    have := hq (x - a) (by omega)
    rwa [show a + (x - a) = x by omega] at this
  · intro i hi h b hb
    rcases hq i hi with h1 | h1 | ⟨h1, _⟩ <;> rw [hb] at h1
    · cases h1
    · cases h1
    · injection h1 with h2 h3
      exact ⟨h2, h3⟩

theorem St.quietInts {c : Cfg} (hc : c.OK) {p : Bytes} {G0 : Ghost} {s0 : Eng} {hx a0 : Nat} {G : Ghost} {s : Eng} {ax : Nat}
    (I0 : InvW c G0 s0.disk hx 0) (S : St c p G0 s0 hx a0 G s ax) {a : Nat} {xs : List UInt32}
    (hq : ∀ i, i < nLongs xs.length → Quiet G.own hx ax (a + i)) : St c p G0 s0 hx a0 G (s.putInts a xs) ax := by
  unfold Eng.putInts
  split
  · exact S
  · exact S.quiet hc I0 hq

/-! ### Writing an entry into a bin -/

def mkEntry (path : Bytes) (infoAdd st typeCat lastWrite dates : Nat) : BinEnt :=
  ⟨st, path, infoAdd, typeCat, lastWrite, dates⟩

theorem setEntry_spec {c : Cfg} {d : Disk} {b ic : Nat} {bin : Nat → Nat} {path : Bytes} {infoAdd st typeCat lastWrite dates : Nat}
    (hbin : ∀ i, i < c.isize → bin i = d (b + i)) (hfit : ic + (7 + nLongsB path.length) ≤ c.isize) :
    let d' := Wr.apply ⟨b, c.isize, setEntry c bin ic path infoAdd st typeCat lastWrite dates⟩ d
    EntryAt c d' (b + ic) (mkEntry path infoAdd st typeCat lastWrite dates) ∧
    ∀ x, d' x = d x ∨ (b + ic ≤ x ∧ x < b + ic + (7 + nLongsB path.length)) := by
  intro d'
  have hin : ∀ i, i < c.isize → d' (b + i) = setEntry c bin ic path infoAdd st typeCat lastWrite dates i :=
    fun i hi => apply_in (w := ⟨b, c.isize, _⟩) hi
  constructor
  · refine ⟨?_, ?_, ?_, ?_, ?_, ?_, ?_, ?_⟩
    · rw [hin ic (by omega)]; simp [setEntry, mkEntry]
    · rw [Nat.add_assoc, hin (ic + 1) (by omega)]; simp [setEntry, mkEntry]
    · rw [Nat.add_assoc, hin (ic + 2) (by omega)]; simp [setEntry, mkEntry]
    · rw [Nat.add_assoc, hin (ic + 3) (by omega)]; simp [setEntry, mkEntry]
    · rw [Nat.add_assoc, hin (ic + 4) (by omega)]; simp [setEntry, mkEntry]
    · rw [Nat.add_assoc, hin (ic + 5) (by omega)]; simp [setEntry, mkEntry]
    · rw [Nat.add_assoc, hin (ic + 6) (by omega)]; simp [setEntry, mkEntry]
    · show unpackBytes _ path.length = path
      refine Eq.trans (unpackBytes_congr (g := packBytes (fun j => bin (ic + 7 + j)) path) fun j hj => ?_) (unpack_pack _ _)
      rw [show b + ic + 7 + j = b + (ic + 7 + j) by omega, hin _ (by omega)]
      simp only [setEntry]
      rw [if_neg (by omega), if_neg (by omega), if_neg (by omega), if_neg (by omega), if_neg (by omega), if_neg (by omega),
        if_neg (by omega), if_pos (by omega)]
      rw [show ic + 7 + j - (ic + 7) = j by omega]
  · intro x
    by_cases h1 : b ≤ x ∧ x < b + c.isize
    · have hx : x = b + (x - b) := by omega
      by_cases h2 : b + ic ≤ x ∧ x < b + ic + (7 + nLongsB path.length)
      · exact Or.inr h2
      · left
        rw [hx, hin _ (by omega)]
        simp only [setEntry]
        rw [if_neg (by omega), if_neg (by omega), if_neg (by omega), if_neg (by omega), if_neg (by omega), if_neg (by omega),
        if_neg (by omega), if_neg (by omega)]
        exact hbin _ (by omega)
    · exact Or.inl (apply_out h1)

/-! ### The search for a slot -/

theorem findSlot_step {c : Cfg} (hc : c.OK) {d : Disk} {h : Nat} {path : Bytes} {b fuel ic : Nat} {rec : Bool}
    {e : BinEnt} (he : EntryAt c d (b + ic) e) (ho : EntryOK c h e)
    (hno : ¬ (rec = true ∧ dead e ∧ nLongsB e.path.length = nLongsB path.length))
    (hns : ¬ Same path e.path) (hb : ic + e.size ≤ c.isize - 2) :
    findSlot c path rec (fun i => d (b + i)) (fuel + 1) ic = findSlot c path rec (fun i => d (b + i)) fuel (ic + e.size) := by
  have hi := hc.isize
  obtain ⟨h0, h1, h2, h3, h4, h5, h6, h7⟩ := he
  have hlen := ho.len
  have hlo : lo32 (d (b + (ic + 2))) = e.path.length := by
    rw [show b + (ic + 2) = b + ic + 2 by omega, h2]; exact lo32_pack (by omega)
  have hhi : hi32 (d (b + (ic + 2))) = nLongsB e.path.length := by
    rw [show b + (ic + 2) = b + ic + 2 by omega, h2]; exact hi32_pack (by omega)
  have hne : ¬ d (b + ic) = 0 := by rw [h0]; exact hc.pHash_ne _
  have hst : d (b + (ic + 1)) = e.st := by rw [show b + (ic + 1) = b + ic + 1 by omega, h1]
  conv => lhs; unfold findSlot
  simp only [hst, hhi, hlo]
  rw [if_neg, if_neg hne, if_neg]
  · have : ¬ (ic + (7 + nLongsB e.path.length) ≥ c.isize - 1) := by simp only [BinEnt.size] at hb; omega
    rw [if_neg this]
    simp only [BinEnt.size, ite_self]
  · rintro ⟨_, hl, hcmp⟩
    apply hns
    have hub : unpackBytes (fun j => d (b + (ic + 7 + j))) path.length = e.path := by
      rw [← hl]; conv => rhs; rw [← h7]
      congr 1; funext j; congr 1; omega
    rw [hub, compare_iff _ _ hl] at hcmp
    exact hcmp
  · rintro ⟨hr, hs, hz⟩
    exact hno ⟨hr, hs, hz⟩

theorem findSlot_end {c : Cfg} (hc : c.OK) {d : Disk} {h : Nat} {path : Bytes} {b : Nat} (es : List BinEnt) :
    ∀ {fuel ic : Nat}, EntriesAt c d (b + ic) es → (∀ e ∈ es, EntryOK c h e) → ic + esize es ≤ c.isize - 2 →
    d (b + (ic + esize es)) = 0 → es.length < fuel → (∀ e ∈ es, ¬ Same path e.path) →
    findSlot c path false (fun i => d (b + i)) fuel ic = some (ic + esize es) := by
  induction es with
  | nil =>
    intro fuel ic _ _ _ hz hf _
    obtain ⟨f, rfl⟩ : ∃ f, fuel = f + 1 := ⟨fuel - 1, by simp at hf; omega⟩
    simp only [esize, Nat.add_zero] at hz
    unfold findSlot
    simp [hz, esize]
  | cons e es ih =>
    intro fuel ic hat hok hfit hz hf hns
    obtain ⟨f, rfl⟩ : ∃ f, fuel = f + 1 := ⟨fuel - 1, by simp at hf; omega⟩
    simp only [esize] at hfit hz
    rw [findSlot_step hc hat.1 (hok e (by simp)) (by simp) (hns e (by simp)) (by omega)]
    have hat2 := hat.2
    rw [Nat.add_assoc] at hat2
    rw [ih hat2 (fun x hx => hok x (by simp [hx])) (by omega) (by rw [Nat.add_assoc]; exact hz) (by simp at hf; omega) (fun x hx => hns x (by simp [hx]))]
    simp only [esize, Nat.add_assoc]

theorem findSlot_reuse {c : Cfg} (hc : c.OK) {d : Disk} {h : Nat} {path : Bytes} {b : Nat} {e : BinEnt} {post : List BinEnt}
    (hd : dead e) (hz : nLongsB e.path.length = nLongsB path.length) (pre : List BinEnt) :
    ∀ {fuel ic : Nat}, EntriesAt c d (b + ic) (pre ++ e :: post) → (∀ x ∈ pre ++ e :: post, EntryOK c h x) →
    ic + esize (pre ++ e :: post) ≤ c.isize - 2 → pre.length < fuel → (∀ x ∈ pre, ¬ Same path x.path) →
    (∀ x ∈ pre, ¬ (dead x ∧ nLongsB x.path.length = nLongsB path.length)) →
    findSlot c path true (fun i => d (b + i)) fuel ic = some (ic + esize pre) := by
  induction pre with
  | nil =>
    intro fuel ic hat hok hfit hf _ _
    obtain ⟨f, rfl⟩ : ∃ f, fuel = f + 1 := ⟨fuel - 1, by simp at hf; omega⟩
    obtain ⟨⟨h0, h1, h2, _⟩, _⟩ := hat
    have hlen := (hok e (by simp)).len
    have hhi : hi32 (d (b + (ic + 2))) = nLongsB e.path.length := by
      rw [show b + (ic + 2) = b + ic + 2 by omega, h2]; exact hi32_pack (by omega)
    have hst : d (b + (ic + 1)) = e.st := by rw [show b + (ic + 1) = b + ic + 1 by omega, h1]
    unfold findSlot
    have hd' : e.st = REC_STATUS_DELETED ∨ e.st = REC_STATUS_RENAMED := hd
    simp [hhi, hst, hd', hz, esize]
  | cons x pre ih =>
    intro fuel ic hat hok hfit hf hns hno
    obtain ⟨f, rfl⟩ : ∃ f, fuel = f + 1 := ⟨fuel - 1, by simp at hf; omega⟩
    simp only [List.cons_append] at hat hok hfit
    simp only [esize, esize_append] at hfit
    rw [findSlot_step hc hat.1 (hok x (by simp)) (fun hh => hno x (by simp) hh.2) (hns x (by simp)) (by omega)]
    have hat2 := hat.2
    rw [Nat.add_assoc] at hat2
    rw [ih hat2 (fun y hy => hok y (by simp only [List.mem_cons]; exact Or.inr hy)) (by simp only [esize, esize_append]; omega)
      (by simp at hf; omega) (fun y hy => hns y (by simp [hy])) (fun y hy => hno y (by simp [hy]))]
    simp only [esize, Nat.add_assoc]

/-- The search stops at an entry with the same pathname. -/
theorem findSlot_own {c : Cfg} (hc : c.OK) {d : Disk} {h : Nat} {path : Bytes} {b : Nat} {e : BinEnt} {post : List BinEnt}
    (hs : Same path e.path) (pre : List BinEnt) :
    ∀ {fuel ic : Nat}, EntriesAt c d (b + ic) (pre ++ e :: post) → (∀ x ∈ pre ++ e :: post, EntryOK c h x) →
    ic + esize (pre ++ e :: post) ≤ c.isize - 2 → pre.length < fuel → (∀ x ∈ pre, ¬ Same path x.path) →
    findSlot c path false (fun i => d (b + i)) fuel ic = some (ic + esize pre) := by
  induction pre with
  | nil =>
    intro fuel ic hat hok hfit hf _
    obtain ⟨f, rfl⟩ : ∃ f, fuel = f + 1 := ⟨fuel - 1, by simp at hf; omega⟩
    obtain ⟨⟨h0, h1, h2, h3, h4, h5, h6, h7⟩, _⟩ := hat
    have hlen := (hok e (by simp)).len
    have hlo : lo32 (d (b + (ic + 2))) = path.length := by
      rw [show b + (ic + 2) = b + ic + 2 by omega, h2, hs.length]; exact lo32_pack (by omega)
    have hne : ¬ d (b + ic) = 0 := by rw [h0]; exact hc.pHash_ne _
    have hub : unpackBytes (fun j => d (b + (ic + 7 + j))) path.length = e.path := by
      rw [hs.length]; conv => rhs; rw [← h7]
      congr 1; funext j; congr 1; omega
    unfold findSlot
    simp only [Bool.false_eq_true, false_and, if_false, if_neg hne, esize, Nat.add_zero]
    rw [if_pos]
    refine ⟨?_, hlo, ?_⟩
    · rw [h0]; exact (hc.pHash_same _ _ hs).symm
    · rw [hub, compare_iff _ _ hs.length.symm]; exact hs
  | cons x pre ih =>
    intro fuel ic hat hok hfit hf hns
    obtain ⟨f, rfl⟩ : ∃ f, fuel = f + 1 := ⟨fuel - 1, by simp at hf; omega⟩
    simp only [List.cons_append] at hat hok hfit
    simp only [esize, esize_append] at hfit
    rw [findSlot_step hc hat.1 (hok x (by simp)) (by simp) (hns x (by simp)) (by omega)]
    have hat2 := hat.2
    rw [Nat.add_assoc] at hat2
    rw [ih hat2 (fun y hy => hok y (by simp only [List.mem_cons]; exact Or.inr hy)) (by simp only [esize, esize_append]; omega)
      (by simp at hf; omega) (fun y hy => hns y (by simp [hy]))]
    simp only [esize, Nat.add_assoc]

theorem ChainAt_last {c : Cfg} {d : Disk} {last : Nat} (C : Chain) : ∀ {a : Nat}, C ≠ [] → ChainAt c d a C last →
    d (lastAddr C + (c.isize - 1)) = last := by
  induction C with
  | nil => intro a h; exact absurd rfl h
  | cons be C ih =>
    obtain ⟨b, es⟩ := be
    intro a _ h
    obtain ⟨_, _, _, h4⟩ := h
    cases C with
    | nil => exact h4
    | cons be2 C2 => rw [lastAddr_cons (by simp)]; exact ih (by simp) h4

theorem chain_snoc {C : Chain} (h : C ≠ []) : ∃ C1 es, C = C1 ++ [(lastAddr C, es)] := by
  refine ⟨C.dropLast, (C.getLast h).2, ?_⟩
  have h2 : lastAddr C = (C.getLast h).1 := by simp [lastAddr, List.getLast?_eq_some_getLast h]
  rw [h2]
  exact (List.dropLast_concat_getLast h).symm

end Hec
