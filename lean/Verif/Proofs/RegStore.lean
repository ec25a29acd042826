import Verif.Proofs.RegBlock
/-! Storing in one block of a regular series: the effect, value by value. -/
namespace Hec
open _root_.Spec (SameValue replaces regStored)

/-- Arguments with which ztsStoreReg7 calls ztsRegStoreBlock for a block of `nib` values. -/
structure StoreArgs {W : Type} (cfg : RegCfg W) (nib q qsz pos : Nat) (vals quals : List (List W))
    (readBlock : Bool) (flag : Int) : Prop where
  ne : vals ≠ []
  vlen : ∀ e ∈ vals, e.length = cfg.vsz
  qsize : qsz = 0 ∨ qsz = q
  qlen : ∀ e ∈ quals, e.length = qsz
  qnum : 0 < qsz → quals.length = vals.length
  room : pos + vals.length ≤ nib
  flagOk : 0 ≤ flag ∧ flag ≤ 4
  whole : readBlock = false → (flag = 0 ∨ flag = 2) ∧ pos = 0 ∧ vals.length = nib

/-- The situation in which the store is lost (see C38_all_missing_violation): a whole block of missing
values without quality is stored over an existing record. -/
def Forgotten {W : Type} [Inhabited W] (cfg : RegCfg W) (rec : Option (RegRec W)) (qsz : Nat)
    (vals quals : List (List W)) (readBlock : Bool) (flag : Int) : Prop :=
  readBlock = false ∧ rec ≠ none ∧ (∀ v ∈ vals, cfg.isMissing v = true) ∧
    (0 < qsz → ∀ e ∈ quals, e = noFlag qsz) ∧ cfg.keepEmpty = false ∧ flag ≠ 2

theorem posValid_false {W : Type} [DecidableEq W] [Inhabited W] {cfg : RegCfg W} {qsz : Nat} {v q : List W}
    (h : posValid cfg qsz v q = false) : cfg.isMissing v = true ∧
      (0 < qsz → q.length = qsz → q = noFlag qsz) := by
  unfold posValid at h
  simp only [Bool.or_eq_false_iff, Bool.not_eq_false', Bool.and_eq_false_iff] at h
  refine ⟨h.1, ?_⟩
  intro hq hl
  rcases h.2 with h2 | h2
  · simp at h2; omega
  · rw [noFlag, List.eq_replicate_iff]
    refine ⟨hl, ?_⟩
    intro w hw
    rw [List.any_eq_false] at h2
    have := h2 w hw
    simpa using this

/-- The record written holds the values given, up to missing ones at the ends. -/
theorem regRecord_has {W : Type} [DecidableEq W] [Inhabited W] {cfg : RegCfg W} (hc : CfgOK cfg)
    {nib q qsz pos : Nat} {vals quals : List (List W)} {flb : Bool} {first last : Nat}
    (hne : vals ≠ []) (hv : ∀ e ∈ vals, e.length = cfg.vsz) (hqs : qsz = 0 ∨ qsz = q)
    (hql : ∀ e ∈ quals, e.length = qsz) (hqn : 0 < qsz → quals.length = vals.length)
    (hroom : pos + vals.length ≤ nib) (hfull : 0 < qsz → pos = 0 ∧ vals.length = nib)
    (hfl : firstLastValid cfg qsz vals quals = (flb, first, last)) :
    let r := regRecord cfg qsz nib pos first last vals quals
    RegOK cfg nib q (some r) ∧ ∃ f g, View cfg nib q (some r) f g ∧
      (∀ p : Int, SameValue cfg.isMissing (f p) (atPos pos vals cfg.missing p)) ∧
      (0 < qsz → ∀ p : Int, g p = atPos 0 quals (noFlag q) p) := by
  have hlen : 1 ≤ vals.length := by
    match vals, hne with
    | _ :: _, _ => simp
  intro r
  rcases Nat.eq_zero_or_pos qsz with h0 | hqp
  · -- trimmed
    have hab : first ≤ last ∧ last < vals.length ∧ ∀ i, i < vals.length → (i < first ∨ last < i) →
        cfg.isMissing ((vals[i]?).getD []) = true := by
      rcases firstLastValid_spec cfg qsz vals quals with ⟨h1, h2⟩ | ⟨a, b, h1, h2, h3, _, _, h4⟩
      · rw [hfl] at h1; cases h1
        exact ⟨by omega, by omega, fun i hi _ => (posValid_false (h2 i hi)).1⟩
      · rw [hfl] at h1; cases h1
        exact ⟨h2, h3, fun i hi hor => (posValid_false (h4 i hi hor)).1⟩
    obtain ⟨h1, h2, h3⟩ := hab
    have hVl : ((vals.drop first).take (last - first + 1)).length = last - first + 1 := by
      simp; omega
    have has : RecHas cfg nib r (pos + first) ((vals.drop first).take (last - first + 1)) 0 [] := by
      have hr : r = ⟨((pos + first : Nat) : Int), ((pos + first : Nat) : Int) + ((last - first + 1 : Nat) : Int) - 1, last - first + 1, nib, aggregate cfg.pol [] cfg.vsz ((vals.drop first).take (last - first + 1)) 0 [] 0 []⟩ := by
        show regRecord cfg qsz nib pos first last vals quals = _
        unfold regRecord
        rw [if_neg (by omega)]
      refine ⟨by rw [hr], ?_, ?_, by simp, by simp, by rw [hr], ?_, ?_, by rw [hr], by omega, by simp⟩
      · intro h; rw [h] at hVl; simp at hVl
      · intro e he; exact hv e (List.mem_of_mem_drop (List.mem_of_mem_take he))
      · rw [hr, hVl]
      · rw [hr, hVl]
    refine ⟨⟨_, _, _, _, has, Or.inl rfl⟩, _, _, view_some hc has q (Or.inl rfl), ?_, by omega⟩
    intro p
    have hgV : ∀ k : Nat, k < last - first + 1 →
        ((vals.drop first).take (last - first + 1))[k]? = vals[first + k]? := by
      intro k hk
      rw [List.getElem?_take_of_lt hk, List.getElem?_drop]
    unfold atPos
    rw [hVl]
    by_cases hin : ((pos + first : Nat) : Int) ≤ p ∧ p < ((pos + first : Nat) : Int) + ((last - first + 1 : Nat) : Int)
    · left
      rw [if_pos hin, if_pos (by omega), hgV _ (by omega)]
      congr 2; omega
    · rw [if_neg hin]
      by_cases hin2 : (pos : Int) ≤ p ∧ p < pos + vals.length
      · rw [if_pos hin2]
        right
        refine ⟨hc.miss, ?_⟩
        have := h3 (p - pos).toNat (by omega) (by omega)
        rw [List.getElem?_eq_getElem (by omega)] at this ⊢
        exact this
      · rw [if_neg hin2]; exact Or.inl rfl
  · -- whole block
    have hq : qsz = q := by omega
    obtain ⟨hp0, hn⟩ := hfull hqp
    have has : RecHas cfg nib r 0 vals qsz quals := by
      have hr : r = ⟨0, (nib : Int) - 1, nib, nib, aggregate cfg.pol [] cfg.vsz vals qsz quals 0 []⟩ := by
        show regRecord cfg qsz nib pos first last vals quals = _
        unfold regRecord
        rw [if_pos hqp]
        simp only
        rw [List.take_of_length_le (by omega), List.take_of_length_le (by rw [hqn hqp]; omega)]
      exact ⟨by rw [hr], hne, hv, hql, hqn, by rw [hr]; rfl, by rw [hr, hn]; simp, by rw [hr, hn], by rw [hr],
        by omega, fun _ => ⟨rfl, hn⟩⟩
    refine ⟨⟨_, _, _, _, has, Or.inr hq⟩, _, _, view_some hc has q (Or.inr hq), ?_, ?_⟩
    · intro p; subst hp0; exact Or.inl rfl
    · intro _ p; rw [if_neg (by omega)]

/-- `m` is what the merge leaves in the arrays read. -/
theorem mergeBlock_spec {W : Type} [DecidableEq W] [Inhabited W] {cfg : RegCfg W} {nib q qsz pos : Nat}
    {vals quals : List (List W)} {rb : Bool} {flag : Int} {rec : Option (RegRec W)} {f g : Int → List W}
    (ha : StoreArgs cfg nib q qsz pos vals quals rb flag) (hv : View cfg nib q rec f g) :
    let m := mergeBlock cfg flag pos vals quals qsz (regReadBlock cfg rec qsz nib 0)
    m.1.length = nib ∧ (0 < qsz → m.2.length = nib) ∧
    (∀ e ∈ m.1, e.length = cfg.vsz) ∧ (∀ e ∈ m.2, e.length = qsz) ∧
    (∀ p : Nat, p < nib → m.1[p]? = some (regStored cfg.isMissing flag pos vals (fun p => f p) p)) ∧
    (0 < qsz → ∀ p : Nat, p < nib → m.2[p]? = some
      (if pos ≤ p ∧ p < pos + vals.length ∧ replaces cfg.isMissing flag (f p) ((vals[p - pos]?).getD []) = true
        then (quals[p - pos]?).getD [] else g p)) := by
  intro m
  have hR : (regReadBlock cfg rec qsz nib 0).1 = (List.range nib).map (fun i : Nat => f i) := by
    rw [hv.vals qsz nib 0 (by omega)]; simp
  have hQ : 0 < qsz → (regReadBlock cfg rec qsz nib 0).2 = (List.range nib).map (fun i : Nat => g i) := by
    intro h
    have : qsz = q := by have := ha.qsize; omega
    rw [this, hv.quals nib 0 (by omega) (by omega)]; simp
  have hroom := ha.room
  have key : ∃ (X Y : List (List W)), m = (putAt (regReadBlock cfg rec qsz nib 0).1 pos X,
      if qsz > 0 then putAt (regReadBlock cfg rec qsz nib 0).2 pos Y else []) ∧
      X.length = vals.length ∧ (0 < qsz → Y.length = vals.length) ∧
      (∀ i : Nat, i < vals.length → X[i]? = some (if replaces cfg.isMissing flag (f (pos + i : Nat)) ((vals[i]?).getD []) = true then (vals[i]?).getD [] else f (pos + i : Nat))) ∧
      (0 < qsz → ∀ i : Nat, i < vals.length → Y[i]? = some (if replaces cfg.isMissing flag (f (pos + i : Nat)) ((vals[i]?).getD []) = true then (quals[i]?).getD [] else g (pos + i : Nat))) := by
    by_cases hf : flag = 0 ∨ flag = 2 ∨ flag = 3
    · refine ⟨vals, quals, ?_, rfl, ha.qnum, ?_, ?_⟩
      · show mergeBlock _ _ _ _ _ _ _ = _
        unfold mergeBlock
        rw [if_pos hf]
      · intro i hi
        have : ∀ a b, replaces cfg.isMissing flag a b = true := by
          intro a b; unfold replaces; rw [if_neg (by omega), if_neg (by omega)]
        rw [this, if_pos rfl, List.getElem?_eq_getElem hi]; rfl
      · intro hq i hi
        have : ∀ a b, replaces cfg.isMissing flag a b = true := by
          intro a b; unfold replaces; rw [if_neg (by omega), if_neg (by omega)]
        rw [this, if_pos rfl, List.getElem?_eq_getElem (by rw [ha.qnum hq]; exact hi)]; rfl
    · generalize hms : (List.range vals.length).map (fun i =>
        mergeFlag cfg flag ((vals[i]?).getD []) ((quals[i]?).getD [])
          (((regReadBlock cfg rec qsz nib 0).1[pos + i]?).getD []) (((regReadBlock cfg rec qsz nib 0).2[pos + i]?).getD [])) = ms
      have hflag : flag = 1 ∨ flag = 4 := by have := ha.flagOk; omega
      have hmsi : ∀ i : Nat, i < vals.length → ms[i]? = some (mergeFlag cfg flag ((vals[i]?).getD []) ((quals[i]?).getD [])
          (f (pos + i : Nat)) (((regReadBlock cfg rec qsz nib 0).2[pos + i]?).getD [])) := by
        intro i hi
        rw [← hms, hR]
        have : pos + i < nib := by omega
        simp [hi, this]
      have hrep : ∀ a b : List W, (if flag = 1 then cfg.isMissing a else if flag = 4 then !cfg.isMissing b else false) =
          replaces cfg.isMissing flag a b := by
        intro a b; unfold replaces
        rcases hflag with h | h <;> simp [h]
      refine ⟨ms.map (·.1), ms.map (·.2), ?_, ?_, ?_, ?_, ?_⟩
      · show mergeBlock _ _ _ _ _ _ _ = _
        unfold mergeBlock
        rw [if_neg hf]
        simp only [hms]
      · rw [← hms]; simp
      · intro _; rw [← hms]; simp
      · intro i hi
        rw [List.getElem?_map, hmsi i hi]
        simp only [Option.map_some, mergeFlag, hrep]
      · intro hq i hi
        rw [List.getElem?_map, hmsi i hi]
        simp only [Option.map_some, mergeFlag, hrep]
        have : pos + i < nib := by omega
        rw [hQ hq]
        simp [this]
  obtain ⟨X, Y, hm, hXl, hYl, hX, hY⟩ := key
  have hRl : (regReadBlock cfg rec qsz nib 0).1.length = nib := by rw [hR]; simp
  have hQl : 0 < qsz → (regReadBlock cfg rec qsz nib 0).2.length = nib := by intro h; rw [hQ h]; simp
  have hm1 : ∀ p : Nat, p < nib → m.1[p]? = some (regStored cfg.isMissing flag pos vals (fun p => f p) p) := by
    intro p hp
    rw [hm]
    simp only
    rw [putAt_get _ _ _ (by omega), hXl]
    unfold regStored
    by_cases hin : pos ≤ p ∧ p < pos + vals.length
    · rw [if_pos hin, hX _ (by omega), if_pos hin.1, List.getElem?_eq_getElem (by omega)]
      rw [show pos + (p - pos) = p by omega]
      simp only [Option.getD_some]
    · rw [if_neg hin, hR]
      have : (if pos ≤ p then vals[p - pos]? else none) = none := by
        split
        · rw [List.getElem?_eq_none]; omega
        · rfl
      rw [this]
      simp [hp]
  have hm2 : 0 < qsz → ∀ p : Nat, p < nib → m.2[p]? = some
      (if pos ≤ p ∧ p < pos + vals.length ∧ replaces cfg.isMissing flag (f p) ((vals[p - pos]?).getD []) = true
        then (quals[p - pos]?).getD [] else g p) := by
    intro hq p hp
    rw [hm]
    simp only [gt_iff_lt, hq, if_true]
    rw [putAt_get _ _ _ (by rw [hQl hq, hYl hq]; omega), hYl hq]
    by_cases hin : pos ≤ p ∧ p < pos + vals.length
    · rw [if_pos hin, hY hq _ (by omega)]
      rw [show pos + (p - pos) = p by omega]
      simp [hin]
    · rw [if_neg hin, hQ hq, if_neg (fun h => hin ⟨h.1, h.2.1⟩)]
      simp [hp]
  have hl1 : m.1.length = nib := by
    rw [hm]; simp only; rw [putAt_length _ _ _ (by omega), hRl]
  have hl2 : 0 < qsz → m.2.length = nib := by
    intro hq; rw [hm]; simp only [gt_iff_lt, hq, if_true]
    rw [putAt_length _ _ _ (by rw [hQl hq, hYl hq]; omega), hQl hq]
  refine ⟨hl1, hl2, ?_, ?_, hm1, hm2⟩
  · intro e he
    obtain ⟨p, hp, rfl⟩ := List.mem_iff_getElem.1 he
    have := hm1 p (by omega)
    rw [List.getElem?_eq_getElem hp] at this
    rw [Option.some.inj this]
    unfold regStored
    split
    · exact hv.flen _
    · rename_i v hv'
      have hvm : v ∈ vals := by
        split at hv'
        · exact List.mem_of_getElem? hv'
        · cases hv'
      split
      · exact ha.vlen v hvm
      · exact hv.flen _
  · intro e he
    rcases Nat.eq_zero_or_pos qsz with h0 | hq
    · rw [hm] at he; simp [h0] at he
    · obtain ⟨p, hp, rfl⟩ := List.mem_iff_getElem.1 he
      have := hm2 hq p (by rw [← hl2 hq]; exact hp)
      rw [List.getElem?_eq_getElem hp] at this
      rw [Option.some.inj this]
      split
      · rename_i h
        rw [List.getElem?_eq_getElem (by rw [ha.qnum hq]; omega)]
        exact ha.qlen _ (List.getElem_mem _)
      · have : qsz = q := by have := ha.qsize; omega
        rw [this]; exact hv.glen (by omega) _

theorem same_refl {W : Type} (m : List W → Bool) (a : List W) : SameValue m a a := Or.inl rfl

/-- What storing in a block does to what is read. -/
theorem regStoreBlock_spec {W : Type} [DecidableEq W] [Inhabited W] {cfg : RegCfg W} (hc : CfgOK cfg)
    {nib q qsz pos : Nat} {vals quals : List (List W)} {rb : Bool} {flag : Int} {rec : Option (RegRec W)}
    {f g : Int → List W} (hok : RegOK cfg nib q rec) (hf0 : View cfg nib q rec f g)
    (ha : StoreArgs cfg nib q qsz pos vals quals rb flag) (hno : ¬ Forgotten cfg rec qsz vals quals rb flag) :
    let rec' := (regStoreBlock cfg rec qsz nib pos vals quals rb flag).apply rec
    RegOK cfg nib q rec' ∧ ∃ f' g', View cfg nib q rec' f' g' ∧
      (∀ p : Nat, p < nib → SameValue cfg.isMissing (f' p)
        (regStored cfg.isMissing flag pos vals (fun p => f p) p)) ∧
      (0 < qsz → ∀ p : Nat, p < nib → g' p =
        (if pos ≤ p ∧ p < pos + vals.length ∧ replaces cfg.isMissing flag (f p) ((vals[p - pos]?).getD []) = true
          then (quals[p - pos]?).getD [] else g p)) := by
  intro rec'
  have hrec' : rec' = (regStoreBlock cfg rec qsz nib pos vals quals rb flag).apply rec := rfl
  have hlen : 1 ≤ vals.length := by
    match vals, ha.ne with
    | _ :: _, _ => simp
  have hroom := ha.room
  -- what is known of the old record
  have hlog : ∀ r, rec = some r → decide (r.logicalNumber < 1) = false := by
    intro r hr
    rw [hr] at hok
    obtain ⟨S, V, qs, Q, hh, _⟩ := hok
    rw [hh.logical]; simp; omega
  have hread1 : (rb && !regNoLogical rec) = rb := by
    cases hr : rec with
    | none => simp [regNoLogical]
    | some r => simp only [regNoLogical, hlog r hr]; simp
  unfold regStoreBlock regMerges at hrec'
  simp only [hread1] at hrec'
  generalize hfl : firstLastValid cfg qsz vals quals = fl at hrec'
  generalize hsame : (sameSizes cfg qsz rec && sameExtent qsz pos fl.2.1 fl.2.2 vals.length rec) = same at hrec'
  generalize hread2 : (rb && !(rb && rec.isSome && (decide (flag = 0) || decide (flag = 2)) && same)) = read2 at hrec'
  by_cases hread3 : (read2 || decide (qsz > 0)) = true
  · -- the block is read and merged
    rw [if_pos hread3] at hrec'
    obtain ⟨hm1l, hm2l, hm1e, hm2e, hm1, hm2⟩ := mergeBlock_spec ha hf0
    generalize hm : mergeBlock cfg flag pos vals quals qsz (regReadBlock cfg rec qsz nib 0) = m at *
    generalize hsr : (if flag = 1 then (List.range vals.length).any (fun i => cfg.isMissing (((regReadBlock cfg rec qsz nib 0).1[pos + i]?).getD []))
      else if flag = 4 then vals.any (fun v => !cfg.isMissing v)
      else true) = sr at hrec'
    cases sr with
    | false =>
      rw [if_pos (show (!false) = true from rfl)] at hrec'
      simp only [RegAct.apply] at hrec'
      rw [hrec']
      -- nothing would be replaced
      have hnone : ∀ p : Nat, pos ≤ p → p < pos + vals.length → replaces cfg.isMissing flag (f p) ((vals[p - pos]?).getD []) = false := by
        intro p h1 h2
        unfold replaces
        by_cases hfl1 : flag = 1
        · rw [if_pos hfl1] at hsr ⊢
          rw [List.any_eq_false] at hsr
          have := hsr (p - pos) (by simp; omega)
          rw [hf0.vals qsz nib 0 (by omega)] at this
          have hp : pos + (p - pos) = p := by omega
          have hpn : p < nib := by omega
          simp [hp, hpn] at this
          simpa using this
        · rw [if_neg hfl1] at hsr ⊢
          by_cases hfl4 : flag = 4
          · rw [if_pos hfl4] at hsr ⊢
            rw [List.any_eq_false] at hsr
            rw [List.getElem?_eq_getElem (by omega)]
            have := hsr vals[p - pos] (List.getElem_mem _)
            simpa using this
          · rw [if_neg hfl4] at hsr; cases hsr
      refine ⟨hok, f, g, hf0, ?_, ?_⟩
      · intro p hp
        left
        unfold regStored
        by_cases hin : pos ≤ p ∧ p < pos + vals.length
        · have h1 := hnone p hin.1 hin.2
          rw [if_pos hin.1, List.getElem?_eq_getElem (by omega)]
          rw [List.getElem?_eq_getElem (by omega)] at h1
          simp only [Option.getD_some] at h1
          simp only [h1]; rfl
        · have : (if pos ≤ p then vals[p - pos]? else none) = none := by
            split
            · rw [List.getElem?_eq_none]; omega
            · rfl
          rw [this]
      · intro hq p hp
        rw [if_neg]
        intro ⟨h1, h2, h3⟩
        rw [hnone p h1 h2] at h3; cases h3
    | true =>
      rw [if_neg (by simp)] at hrec'
      have hm1ne : m.1 ≠ [] := by
        intro h; rw [h] at hm1l; simp at hm1l; omega
      have hval : ∀ p : Nat, p < nib → atPos 0 m.1 cfg.missing p = regStored cfg.isMissing flag pos vals (fun p => f p) p := by
        intro p hp
        unfold atPos
        rw [if_pos (by omega)]
        simp only [Int.natCast_zero, Int.sub_zero, Int.toNat_natCast, hm1 p hp, Option.getD_some]
      generalize hfl2 : firstLastValid cfg qsz m.1 m.2 = fl2 at hrec'
      by_cases hall : (fl2.1 && (decide (flag = 3) || !(cfg.keepEmpty || decide (flag = 2)))) = true
      · rw [if_pos hall] at hrec'
        simp only [Bool.and_eq_true] at hall
        -- everything is missing
        have hmiss : ∀ p : Nat, p < nib → posValid cfg qsz ((m.1[p]?).getD []) ((m.2[p]?).getD []) = false := by
          rcases firstLastValid_spec cfg qsz m.1 m.2 with ⟨_, h2⟩ | ⟨a, b, h1, _⟩
          · intro p hp; exact h2 p (by omega)
          · rw [hfl2] at h1; rw [h1] at hall; exact absurd hall.1 (by simp)
        have hres : RegOK cfg nib q (none : Option (RegRec W)) ∧ ∃ f' g', View cfg nib q (none : Option (RegRec W)) f' g' ∧
            (∀ p : Nat, p < nib → SameValue cfg.isMissing (f' p) (regStored cfg.isMissing flag pos vals (fun p => f p) p)) ∧
            (0 < qsz → ∀ p : Nat, p < nib → g' p =
              (if pos ≤ p ∧ p < pos + vals.length ∧ replaces cfg.isMissing flag (f p) ((vals[p - pos]?).getD []) = true
                then (quals[p - pos]?).getD [] else g p)) := by
          refine ⟨trivial, _, _, view_none hc nib q, ?_, ?_⟩
          · intro p hp
            right
            refine ⟨hc.miss, ?_⟩
            have := (posValid_false (hmiss p hp)).1
            rw [hm1 p hp] at this
            exact this
          · intro hq p hp
            have hqq : qsz = q := by have := ha.qsize; omega
            have := (posValid_false (hmiss p hp)).2 hq
            rw [hm2 hq p hp] at this
            rw [← hqq]
            symm
            apply this
            apply hm2e
            exact List.mem_of_getElem? (hm2 hq p hp)
        by_cases hfound : (rb && rec.isSome) = true
        · rw [if_pos hfound] at hrec'
          simp only [RegAct.apply] at hrec'
          rw [hrec']; exact hres
        · rw [if_neg hfound] at hrec'
          simp only [RegAct.apply] at hrec'
          have hrn : rec = none := by
            cases hr : rec with
            | none => rfl
            | some r =>
              exfalso
              apply hno
              rw [hr] at hfound
              have hrb : rb = false := by simpa using hfound
              have hw := ha.whole hrb
              refine ⟨hrb, by rw [hr]; simp, ?_, ?_, ?_, ?_⟩
              · intro v hv
                obtain ⟨i, hi, rfl⟩ := List.mem_iff_getElem.1 hv
                have := (posValid_false (hmiss i (by omega))).1
                rw [hm1 i (by omega)] at this
                unfold regStored at this
                rw [if_pos (by omega), hw.2.1, Nat.sub_zero, List.getElem?_eq_getElem hi] at this
                have hrp : ∀ a b : List W, replaces cfg.isMissing flag a b = true := by
                  intro a b; unfold replaces; rw [if_neg (by omega), if_neg (by omega)]
                simpa [hrp] using this
              · intro hq e he
                obtain ⟨i, hi, rfl⟩ := List.mem_iff_getElem.1 he
                have hi2 : i < vals.length := by rw [← ha.qnum hq]; exact hi
                have h3 := (posValid_false (hmiss i (by omega))).2 hq
                have hrp : ∀ a b : List W, replaces cfg.isMissing flag a b = true := by
                  intro a b; unfold replaces; rw [if_neg (by omega), if_neg (by omega)]
                rw [hm2 hq i (by omega), if_pos ⟨by omega, by omega, hrp _ _⟩, hw.2.1, Nat.sub_zero,
                  List.getElem?_eq_getElem hi] at h3
                exact h3 (ha.qlen _ he)
              · have := hall.2
                simp only [Bool.or_eq_true, decide_eq_true_eq, Bool.not_eq_true', Bool.or_eq_false_iff] at this
                rcases this with h | h
                · omega
                · exact h.1
              · have := hall.2
                simp only [Bool.or_eq_true, decide_eq_true_eq, Bool.not_eq_true', Bool.or_eq_false_iff, decide_eq_false_iff_not] at this
                rcases this with h | h
                · omega
                · exact h.2
          rw [hrec', hrn]; rw [hrn] at hf0; exact hres
      · rw [if_neg hall] at hrec'
        simp only [RegAct.apply] at hrec'
        rw [hrec']
        obtain ⟨h1, f', g', h2, h3, h4⟩ := regRecord_has hc (nib := nib) (q := q) (qsz := qsz) (pos := 0) (vals := m.1) (quals := m.2)
          (flb := fl2.1) (first := fl2.2.1) (last := fl2.2.2) hm1ne hm1e ha.qsize hm2e
          (by intro h; rw [hm2l h, hm1l]) (by omega) (fun _ => ⟨rfl, hm1l⟩) hfl2
        refine ⟨h1, f', g', h2, ?_, ?_⟩
        · intro p hp
          have := h3 p
          rw [hval p hp] at this
          exact this
        · intro hq p hp
          rw [h4 hq p, ← Option.some_inj, ← hm2 hq p hp]
          unfold atPos
          rw [if_pos (by rw [hm2l hq]; omega)]
          simp [hm2 hq p hp]
  · -- the values given are written as they are
    rw [if_neg hread3] at hrec'
    simp only [Bool.or_eq_true, decide_eq_true_eq, not_or, Bool.not_eq_true] at hread3
    obtain ⟨hr2, hq0⟩ := hread3
    have hq0 : qsz = 0 := by omega
    rw [hr2] at hread2
    have hflag02 : flag = 0 ∨ flag = 2 := by
      cases hrb : rb with
      | false => exact (ha.whole hrb).1
      | true =>
        rw [hrb] at hread2
        simp only [Bool.true_and, Bool.not_eq_false', Bool.and_eq_true, Bool.or_eq_true, decide_eq_true_eq] at hread2
        exact hread2.1.2
    have hrp : ∀ a b : List W, replaces cfg.isMissing flag a b = true := by
      intro a b; unfold replaces; rw [if_neg (by omega), if_neg (by omega)]
    -- where the values of the old record are not overwritten they are missing
    have hout : ∀ p : Nat, p < nib → ¬ (pos ≤ p ∧ p < pos + vals.length) → f p = cfg.missing := by
      intro p hp hn
      cases hrb : rb with
      | false => have := ha.whole hrb; omega
      | true =>
        rw [hrb] at hread2
        simp only [Bool.true_and, Bool.not_eq_false', Bool.and_eq_true, Bool.or_eq_true, decide_eq_true_eq] at hread2
        obtain ⟨⟨hsome, _⟩, hs⟩ := hread2
        cases hr : rec with
        | none => rw [hr] at hsome; simp at hsome
        | some r =>
          rw [hr] at hok hf0 hsame
          obtain ⟨S, V, qs, Q, hh, hqs⟩ := hok
          simp only [sameSizes, sameExtent, hs, hq0, if_true, Bool.and_eq_true, decide_eq_true_eq] at hsame
          obtain ⟨_, hst, hsp⟩ := hsame
          rw [hh.start] at hst
          rw [hh.stop] at hsp
          have hv1 := (view_some hc hh q hqs).vals 0 1 p (by omega)
          have hv2 := hf0.vals 0 1 p (by omega)
          rw [hv1] at hv2
          simp only [show (1 : Int).toNat = 1 from rfl, List.range_one, List.map_cons, List.map_nil,
            Int.natCast_zero, Int.add_zero, List.cons.injEq, and_true] at hv2
          rw [← hv2]
          unfold atPos
          have hb : fl.2.2 < vals.length := by
            rcases firstLastValid_spec cfg qsz vals quals with ⟨h1, h2⟩ | ⟨a, b, h1, h2, h3, _⟩
            · rw [← hfl, h1]; show 0 < vals.length; omega
            · rw [← hfl, h1]; exact h3
          rw [if_neg (by omega)]
    have hexp : ∀ p : Nat, p < nib → regStored cfg.isMissing flag pos vals (fun p => f p) p = atPos pos vals cfg.missing p := by
      intro p hp
      unfold regStored atPos
      by_cases hin : pos ≤ p ∧ p < pos + vals.length
      · rw [if_pos hin.1, if_pos (by omega), show ((p : Int) - pos).toNat = p - pos by omega,
          List.getElem?_eq_getElem (by omega)]
        simp [hrp]
      · have : (if pos ≤ p then vals[p - pos]? else none) = none := by
          split
          · rw [List.getElem?_eq_none]; omega
          · rfl
        rw [this, if_neg (by omega)]
        exact hout p hp hin
    generalize hallg : ((fl.1 && !(rb && (rb && rec.isSome) && decide (flag ≠ 1) && decide (flag ≠ 4) && sameSizes cfg qsz rec && !same)) && (decide (flag = 3) || !(cfg.keepEmpty || decide (flag = 2)))) = allm at hrec'
    cases allm with
    | true =>
      rw [if_pos rfl] at hrec'
      simp only [Bool.and_eq_true] at hallg
      have hmiss : ∀ v ∈ vals, cfg.isMissing v = true := by
        rcases firstLastValid_spec cfg qsz vals quals with ⟨h1, h2⟩ | ⟨a, b, h1, _⟩
        · intro v hv
          obtain ⟨i, hi, rfl⟩ := List.mem_iff_getElem.1 hv
          have := (posValid_false (h2 i hi)).1
          rw [List.getElem?_eq_getElem hi] at this
          exact this
        · rw [hfl] at h1; rw [h1] at hallg; exact absurd hallg.1.1 (by simp)
      have hk : cfg.keepEmpty = false ∧ flag ≠ 2 := by
        have := hallg.2
        simp only [Bool.or_eq_true, decide_eq_true_eq, Bool.not_eq_true', Bool.or_eq_false_iff, decide_eq_false_iff_not] at this
        rcases this with h | h
        · omega
        · exact h
      have hres : ∀ rec'', rec'' = none → RegOK cfg nib q rec'' ∧ ∃ f' g', View cfg nib q rec'' f' g' ∧
            (∀ p : Nat, p < nib → SameValue cfg.isMissing (f' p) (regStored cfg.isMissing flag pos vals (fun p => f p) p)) ∧
            (0 < qsz → ∀ p : Nat, p < nib → g' p =
              (if pos ≤ p ∧ p < pos + vals.length ∧ replaces cfg.isMissing flag (f p) ((vals[p - pos]?).getD []) = true
                then (quals[p - pos]?).getD [] else g p)) := by
        intro rec'' hr''
        subst hr''
        refine ⟨trivial, _, _, view_none hc nib q, ?_, by omega⟩
        intro p hp
        rw [hexp p hp]
        unfold atPos
        split
        · right
          refine ⟨hc.miss, ?_⟩
          rw [List.getElem?_eq_getElem (by omega)]
          exact hmiss _ (List.getElem_mem _)
        · exact Or.inl rfl
      by_cases hfound : (rb && rec.isSome) = true
      · rw [if_pos hfound] at hrec'
        exact hres _ hrec'
      · rw [if_neg hfound] at hrec'
        apply hres
        rw [hrec']
        show rec = none
        cases hr : rec with
        | none => rfl
        | some r =>
          exfalso
          rw [hr] at hfound
          have hrb : rb = false := by simpa using hfound
          exact hno ⟨hrb, by rw [hr]; simp, hmiss, by omega, hk.1, hk.2⟩
    | false =>
      rw [if_neg (by simp)] at hrec'
      simp only [RegAct.apply] at hrec'
      rw [hrec']
      obtain ⟨h1, f', g', h2, h3, h4⟩ := regRecord_has hc (nib := nib) (q := q) (qsz := qsz) (pos := pos) (vals := vals) (quals := quals)
          (flb := fl.1) (first := fl.2.1) (last := fl.2.2) ha.ne ha.vlen ha.qsize ha.qlen ha.qnum
          hroom (by omega) hfl
      refine ⟨h1, f', g', h2, ?_, by omega⟩
      intro p hp
      rw [hexp p hp]
      exact h3 p

theorem posValid_missing {W : Type} [DecidableEq W] [Inhabited W] {cfg : RegCfg W} {qsz : Nat} {v q : List W}
    (h : cfg.isMissing v = true) (hq : 0 < qsz → q = noFlag qsz) : posValid cfg qsz v q = false := by
  unfold posValid
  rw [h]
  simp only [Bool.not_true, Bool.false_or, Bool.and_eq_false_iff, decide_eq_false_iff_not]
  rcases Nat.eq_zero_or_pos qsz with h0 | h0
  · left; omega
  · right
    rw [hq h0, List.any_eq_false]
    intro w hw
    have := List.eq_of_mem_replicate hw
    simp [this]

theorem firstLast_missing {W : Type} [DecidableEq W] [Inhabited W] {cfg : RegCfg W} {qsz : Nat}
    {vals quals : List (List W)} (hv : ∀ v ∈ vals, cfg.isMissing v = true)
    (hql : 0 < qsz → quals.length = vals.length) (hq : 0 < qsz → ∀ e ∈ quals, e = noFlag qsz) :
    firstLastValid cfg qsz vals quals = (true, 0, 0) := by
  rcases firstLastValid_spec cfg qsz vals quals with ⟨h1, _⟩ | ⟨a, b, _, h2, h3, h4, _⟩
  · exact h1
  · exfalso
    rw [posValid_missing] at h4
    · cases h4
    · rw [List.getElem?_eq_getElem (by omega)]; exact hv _ (List.getElem_mem _)
    · intro h
      rw [List.getElem?_eq_getElem (by rw [hql h]; omega)]
      exact hq h _ (List.getElem_mem _)

/-- A forgotten store changes nothing. -/
theorem forgotten_keep {W : Type} [DecidableEq W] [Inhabited W] {cfg : RegCfg W}
    {nib q qsz pos : Nat} {vals quals : List (List W)} {rb : Bool} {flag : Int} {rec : Option (RegRec W)}
    {f g : Int → List W} (hf0 : View cfg nib q rec f g)
    (ha : StoreArgs cfg nib q qsz pos vals quals rb flag) (hno : Forgotten cfg rec qsz vals quals rb flag) :
    (regStoreBlock cfg rec qsz nib pos vals quals rb flag).apply rec = rec := by
  obtain ⟨hrb, hne, hv, hq, hk, hf⟩ := hno
  obtain ⟨hfl, hp, hn⟩ := ha.whole hrb
  subst hrb
  have hf0' : flag = 0 := by omega
  have hfl1 := firstLast_missing hv ha.qnum hq
  unfold regStoreBlock regMerges
  simp only [hfl1, Bool.false_and, Bool.false_or, Bool.not_false, Bool.and_true]
  rcases Nat.eq_zero_or_pos qsz with h0 | h0
  · rw [if_neg (by simp; omega), if_pos (by simp [hk, hf])]
    simp [RegAct.apply]
  · rw [if_pos (by simpa using h0)]
    obtain ⟨hm1l, hm2l, hm1e, hm2e, hm1, hm2⟩ := mergeBlock_spec ha hf0
    generalize hm : mergeBlock cfg flag pos vals quals qsz (regReadBlock cfg rec qsz nib 0) = m at *
    have hrp : ∀ a b : List W, replaces cfg.isMissing flag a b = true := by
      intro a b; unfold replaces; rw [if_neg (by omega), if_neg (by omega)]
    have e1 : m.1 = vals := by
      apply List.ext_getElem?
      intro i
      by_cases hi : i < nib
      · rw [hm1 i hi]
        unfold regStored
        rw [if_pos (by omega), hp, Nat.sub_zero, List.getElem?_eq_getElem (by omega)]
        simp [hrp]
      · rw [List.getElem?_eq_none (by omega), List.getElem?_eq_none (by omega)]
    have e2 : m.2 = quals := by
      have := hm2l h0
      have := ha.qnum h0
      apply List.ext_getElem?
      intro i
      by_cases hi : i < nib
      · rw [hm2 h0 i hi, if_pos ⟨by omega, by omega, hrp _ _⟩, hp, Nat.sub_zero,
          List.getElem?_eq_getElem (by omega)]
        rfl
      · rw [List.getElem?_eq_none (by omega), List.getElem?_eq_none (by omega)]
    rw [e1, e2, hfl1, hf0']
    simp [hk, RegAct.apply]

end Hec
