import Verif.Proofs.Reg
import Verif.Spec.Reg
/-! Storing in one block of a regular series. -/
namespace Hec
open _root_.Spec (SameValue replaces regStored)

theorem areaNumber_pos {W : Type} [DecidableEq W] (flag size : Nat) (els : List (List W))
    (hs : 0 < size) (hn : els ≠ []) : areaNumber flag size els ≠ 0 := by
  match els, hn with
  | x :: xs, _ =>
    have := changes_repeats xs x
    have h1 : 0 < (x :: xs).length - repeatNumber (x :: xs) := by
      simp only [repeatNumber, List.length_cons]; omega
    unfold areaNumber
    have := Nat.mul_pos h1 hs
    have h3 : 0 < (x :: xs).length * size := Nat.mul_pos (by simp) hs
    split
    · omega
    · split <;> omega

/-- The library settings make sense. -/
structure CfgOK {W : Type} (cfg : RegCfg W) : Prop where
  vsz : 0 < cfg.vsz
  miss : cfg.isMissing cfg.missing = true
  missLen : cfg.missing.length = cfg.vsz

/-- A record as written for a block of `nib` values: values `V` from position `S`, quality `Q` of
`qs` words. -/
structure RecHas {W : Type} [DecidableEq W] [Inhabited W] (cfg : RegCfg W) (nib : Nat) (r : RegRec W)
    (S : Nat) (V : List (List W)) (qs : Nat) (Q : List (List W)) : Prop where
  packed : r.packed = aggregate cfg.pol [] cfg.vsz V qs Q 0 []
  ne : V ≠ []
  vlen : ∀ e ∈ V, e.length = cfg.vsz
  qlen : ∀ e ∈ Q, e.length = qs
  qnum : 0 < qs → Q.length = V.length
  start : r.startPos = S
  stop : r.endPos = S + V.length - 1
  num : r.numberData = V.length
  logical : r.logicalNumber = nib
  room : S + V.length ≤ nib
  full : 0 < qs → S = 0 ∧ V.length = nib

/-- Element `p` of an array stored from position `S`. -/
def atPos {E : Type} (S : Nat) (V : List E) (miss : E) (p : Int) : E :=
  if (S : Int) ≤ p ∧ p < S + V.length then (V[(p - S).toNat]?).getD miss else miss

theorem read_vals {W : Type} [DecidableEq W] [Inhabited W] {cfg : RegCfg W} {nib : Nat} {r : RegRec W}
    {S : Nat} {V : List (List W)} {qs : Nat} {Q : List (List W)} (hc : CfgOK cfg)
    (h : RecHas cfg nib r S V qs Q) (qreq : Nat) (N B : Int) (hN : 0 ≤ N) :
    (regReadBlock cfg (some r) qreq N B).1 =
      (List.range N.toNat).map (fun i : Nat => atPos S V cfg.missing (B + i)) := by
  unfold regReadBlock
  simp only
  obtain ⟨cv, cq, cn, ht, hd, hb, hq0, hn0, hh⟩ :=
    aggregate_shape cfg.pol [] cfg.vsz V qs Q 0 [] h.vlen h.ne h.qlen h.qnum (by simp) (by simp)
  rw [if_neg (by rw [h.packed, hh]; exact areaNumber_pos _ _ _ hc.vsz h.ne), h.num]
  rw [windowFill_spec N _ _ S B V _ cfg.missing _ hN h.ne (by rw [h.start])
    (by rw [h.start, h.stop]; omega) (by simp)]
  · rfl
  · intro a b hab hbl
    rw [h.packed]
    exact (C42_pack_roundtrip cfg.pol [] cfg.vsz V qs Q 0 [] a b hc.vsz h.vlen h.qlen h.qnum
      (by simp) (by simp) hab hbl).1

theorem read_quals {W : Type} [DecidableEq W] [Inhabited W] {cfg : RegCfg W} {nib : Nat} {r : RegRec W}
    {S : Nat} {V : List (List W)} {qs : Nat} {Q : List (List W)} (hc : CfgOK cfg)
    (h : RecHas cfg nib r S V qs Q) (q : Nat) (hq : 0 < q) (hqs : qs = 0 ∨ qs = q) (N B : Int)
    (hN : 0 ≤ N) :
    (regReadBlock cfg (some r) q N B).2 =
      (List.range N.toNat).map (fun i : Nat => if qs = 0 then noFlag q else atPos S Q (noFlag q) (B + i)) := by
  unfold regReadBlock
  simp only
  rw [if_neg (by omega)]
  obtain ⟨cv, cq, cn, ht, hd, hb, hq0, hn0, hh⟩ :=
    aggregate_shape cfg.pol [] cfg.vsz V qs Q 0 [] h.vlen h.ne h.qlen h.qnum (by simp) (by simp)
  have hqn : r.packed.head.qualityNumber = if qs > 0 then areaNumber (areaFlag cq Q) qs Q else 0 := by
    rw [h.packed, hh]
  rcases hqs with h0 | h0
  · rw [if_pos (by rw [hqn, if_neg (by omega)])]
    simp only [h0, if_true]
    apply List.ext_getElem?
    intro i
    by_cases hi : i < N.toNat <;> simp [hi]
  · subst h0
    have hQ : Q ≠ [] := by
      intro hQ
      have := h.qnum hq
      rw [hQ] at this
      exact h.ne (List.eq_nil_of_length_eq_zero this.symm)
    rw [if_neg (by rw [hqn, if_pos hq]; exact areaNumber_pos _ _ _ hq hQ), h.num, ← h.qnum hq]
    rw [windowFill_spec N _ _ S B Q _ (noFlag qs) _ hN hQ (by rw [h.start])
      (by rw [h.start, h.stop, h.qnum hq]; omega) (by simp)]
    · apply List.map_congr_left
      intro i _
      have : qs ≠ 0 := by omega
      simp only [this, if_false, atPos]
    · intro a b hab hbl
      rw [h.packed, h.qnum hq]
      exact (C42_pack_roundtrip cfg.pol [] cfg.vsz V qs Q 0 [] a b hc.vsz h.vlen h.qlen h.qnum
        (by simp) (by simp) hab (by rw [← h.qnum hq]; exact hbl)).2.1 hq

/-- The block's values and quality flags as functions of the position. -/
structure View {W : Type} [DecidableEq W] [Inhabited W] (cfg : RegCfg W) (nib q : Nat)
    (rec : Option (RegRec W)) (f g : Int → List W) : Prop where
  vals : ∀ (qreq : Nat) (N B : Int), 0 ≤ N → (regReadBlock cfg rec qreq N B).1 =
    (List.range N.toNat).map (fun i : Nat => f (B + i))
  quals : ∀ (N B : Int), 0 < q → 0 ≤ N → (regReadBlock cfg rec q N B).2 =
    (List.range N.toNat).map (fun i : Nat => g (B + i))
  flen : ∀ p, (f p).length = cfg.vsz
  glen : 0 < q → ∀ p, (g p).length = q

/-- Every stored block has a view. -/
def RegOK {W : Type} [DecidableEq W] [Inhabited W] (cfg : RegCfg W) (nib q : Nat)
    (rec : Option (RegRec W)) : Prop :=
  match rec with
  | none => True
  | some r => ∃ S V qs Q, RecHas cfg nib r S V qs Q ∧ (qs = 0 ∨ qs = q)

theorem view_none {W : Type} [DecidableEq W] [Inhabited W] {cfg : RegCfg W} (hc : CfgOK cfg) (nib q : Nat) :
    View cfg nib q none (fun _ => cfg.missing) (fun _ => noFlag q) where
  vals := by
    intro qreq N B _
    show List.replicate N.toNat cfg.missing = _
    apply List.ext_getElem?
    intro i
    by_cases hi : i < N.toNat <;> simp [hi]
  quals := by
    intro N B hq _
    show (if q > 0 then List.replicate N.toNat (noFlag q) else []) = _
    rw [if_pos hq]
    apply List.ext_getElem?
    intro i
    by_cases hi : i < N.toNat <;> simp [hi]
  flen := by intro _; exact hc.missLen
  glen := by intro _ _; simp [noFlag]

theorem atPos_len {W : Type} (S : Nat) (V : List (List W)) (miss : List W) (n : Nat)
    (hv : ∀ e ∈ V, e.length = n) (hm : miss.length = n) (p : Int) : (atPos S V miss p).length = n := by
  unfold atPos
  split
  · rename_i h
    rw [List.getElem?_eq_getElem (by omega)]
    exact hv _ (List.getElem_mem _)
  · exact hm

theorem view_some {W : Type} [DecidableEq W] [Inhabited W] {cfg : RegCfg W} {nib : Nat} {r : RegRec W}
    {S : Nat} {V : List (List W)} {qs : Nat} {Q : List (List W)} (hc : CfgOK cfg)
    (h : RecHas cfg nib r S V qs Q) (q : Nat) (hqs : qs = 0 ∨ qs = q) :
    View cfg nib q (some r) (atPos S V cfg.missing)
      (fun p => if qs = 0 then noFlag q else atPos S Q (noFlag q) p) where
  vals := fun qreq N B hN => read_vals hc h qreq N B hN
  quals := fun N B hq hN => read_quals hc h q hq hqs N B hN
  flen := atPos_len _ _ _ _ h.vlen hc.missLen
  glen := by
    intro hq p
    split
    · simp [noFlag]
    · rename_i h0
      rcases hqs with h1 | h1
      · exact absurd h1 h0
      · exact atPos_len _ _ _ _ (by rw [← h1]; exact h.qlen) (by simp [noFlag]) p

theorem view_exists {W : Type} [DecidableEq W] [Inhabited W] {cfg : RegCfg W} (hc : CfgOK cfg) {nib q : Nat}
    {rec : Option (RegRec W)} (h : RegOK cfg nib q rec) : ∃ f g, View cfg nib q rec f g := by
  match rec, h with
  | none, _ => exact ⟨_, _, view_none hc nib q⟩
  | some r, ⟨S, V, qs, Q, hh, hq⟩ => exact ⟨_, _, view_some hc hh q hq⟩

theorem firstLoop_spec (l : List Bool) : ∀ i : Nat,
    match firstLoop l i with
    | none => ∀ j : Nat, l[j]? ≠ some true
    | some k => i ≤ k ∧ l[k - i]? = some true ∧ ∀ j : Nat, j < k - i → l[j]? = some false := by
  induction l with
  | nil => intro i; simp [firstLoop]
  | cons b bs ih =>
    intro i
    unfold firstLoop
    cases b with
    | true => simp
    | false =>
      simp only [Bool.false_eq_true, if_false]
      have := ih (i + 1)
      generalize firstLoop bs (i + 1) = o at *
      cases o with
      | none =>
        intro j
        cases j with
        | zero => simp
        | succ j => simpa using this j
      | some k =>
        obtain ⟨h1, h2, h3⟩ := this
        refine ⟨by omega, ?_, ?_⟩
        · rw [show k - i = (k - (i + 1)) + 1 by omega]; simpa using h2
        · intro j hj
          cases j with
          | zero => simp
          | succ j => simpa using h3 j (by omega)

theorem lastLoop_spec (l : List Bool) : ∀ i, i ≤ l.length →
    match lastLoop l i with
    | none => ∀ j, j < i → l[j]? = some false
    | some k => k < i ∧ l[k]? = some true ∧ ∀ j, k < j → j < i → l[j]? = some false := by
  intro i
  induction i with
  | zero => intro _; simp [lastLoop]
  | succ i ih =>
    intro hi
    unfold lastLoop
    have hg : l[i]? = some l[i] := List.getElem?_eq_getElem (by omega)
    rw [hg]
    simp only [Option.getD_some]
    cases hb : l[i] with
    | true =>
      simp only [if_true]
      refine ⟨by omega, by rw [hg, hb], ?_⟩
      intro j h1 h2; omega
    | false =>
      simp only [Bool.false_eq_true, if_false]
      have := ih (by omega)
      have e : l[i]? = some false := by rw [hg, hb]
      generalize lastLoop l i = o at *
      cases o with
      | none =>
        intro j hj
        by_cases h : j = i
        · rw [h]; exact e
        · exact this j (by omega)
      | some k =>
        obtain ⟨h1, h2, h3⟩ := this
        refine ⟨by omega, h2, ?_⟩
        intro j hj1 hj2
        by_cases h : j = i
        · rw [h]; exact e
        · exact h3 j hj1 (by omega)

theorem firstLastValid_spec {W : Type} [DecidableEq W] [Inhabited W] (cfg : RegCfg W) (qsz : Nat)
    (vals quals : List (List W)) :
    (firstLastValid cfg qsz vals quals = (true, 0, 0) ∧ ∀ i, i < vals.length →
      posValid cfg qsz ((vals[i]?).getD []) ((quals[i]?).getD []) = false) ∨
    (∃ a b, firstLastValid cfg qsz vals quals = (false, a, b) ∧ a ≤ b ∧ b < vals.length ∧
      posValid cfg qsz ((vals[a]?).getD []) ((quals[a]?).getD []) = true ∧
      posValid cfg qsz ((vals[b]?).getD []) ((quals[b]?).getD []) = true ∧
      ∀ i, i < vals.length → (i < a ∨ b < i) →
        posValid cfg qsz ((vals[i]?).getD []) ((quals[i]?).getD []) = false) := by
  unfold firstLastValid
  simp only
  generalize hfl : (List.range vals.length).map
    (fun i => posValid cfg qsz ((vals[i]?).getD []) ((quals[i]?).getD [])) = flags
  have hlen : flags.length = vals.length := by rw [← hfl]; simp
  have hget : ∀ i, i < vals.length →
      flags[i]? = some (posValid cfg qsz ((vals[i]?).getD []) ((quals[i]?).getD [])) := by
    intro i hi; rw [← hfl]; simp [hi]
  have h1 := firstLoop_spec flags 0
  have h2 := lastLoop_spec flags flags.length (Nat.le_refl _)
  generalize firstLoop flags 0 = o1 at *
  generalize lastLoop flags flags.length = o2 at *
  cases o1 with
  | none =>
    left
    refine ⟨rfl, ?_⟩
    intro i hi
    have := h1 i
    rw [hget i hi] at this
    simpa using this
  | some a =>
    right
    simp only [Nat.sub_zero, Nat.zero_le, true_and] at h1
    have ha : a < vals.length := by
      rw [← hlen]
      have := h1.1
      rw [List.getElem?_eq_some_iff] at this
      exact this.1
    cases o2 with
    | none =>
      have := h2 a (by omega)
      rw [h1.1] at this; cases this
    | some b =>
      simp only at h2
      refine ⟨a, b, rfl, ?_, by omega, ?_, ?_, ?_⟩
      · apply Decidable.byContradiction
        intro hlt
        have := h2.2.2 a (by omega) (by omega)
        rw [h1.1] at this; cases this
      · have := h1.1; rw [hget a ha] at this; simpa using this
      · have := h2.2.1; rw [hget b (by omega)] at this; simpa using this
      · intro i hi hor
        rcases hor with h | h
        · have := h1.2 i h; rw [hget i hi] at this; simpa using this
        · have := h2.2.2 i h (by omega); rw [hget i hi] at this; simpa using this

end Hec
