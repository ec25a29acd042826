import Verif.Props.Reg
/-! Records of regular series end with values that are not missing, and the times written with them. -/
namespace Hec
open _root_.Spec (SameValue)

theorem sameVal_missing {V : Type} {m : V → Bool} {a b : V} (h : SameValue m a b) : m a = m b := by
  rcases h with h | h
  · rw [h]
  · rw [h.1, h.2]

/-- The first and the last value of the record are not missing. -/
def Tight {W : Type} [Inhabited W] (cfg : RegCfg W) (rec : Option (RegRec W)) : Prop :=
  ∀ r, rec = some r → cfg.isMissing (readValue cfg rec r.startPos.toNat) = false ∧ cfg.isMissing (readValue cfg rec r.endPos.toNat) = false

theorem regRecord_tight {W : Type} [DecidableEq W] [Inhabited W] {cfg : RegCfg W} (hc : CfgOK cfg)
    {nib q pos : Nat} {vals quals : List (List W)} {first last : Nat}
    (hne : vals ≠ []) (hv : ∀ e ∈ vals, e.length = cfg.vsz) (hql : ∀ e ∈ quals, e.length = 0) (hroom : pos + vals.length ≤ nib)
    (hfl : firstLastValid cfg 0 vals quals = (false, first, last)) : Tight cfg (some (regRecord cfg 0 nib pos first last vals quals)) := by
  obtain ⟨_, f, g, hvw, h1, _⟩ := regRecord_has hc (q := q) hne hv (Or.inl rfl) hql (fun h => absurd h (by decide)) hroom (fun h => absurd h (by decide)) hfl
  rcases firstLastValid_spec cfg 0 vals quals with ⟨h, _⟩ | ⟨a, b, k1, k2, k3, k4, k5, _⟩
  · rw [hfl] at h; cases h
  · rw [hfl] at k1
    injection k1 with _ k1; injection k1 with ka kb; subst ka; subst kb
    have hval : ∀ j, j < vals.length → posValid cfg 0 ((vals[j]?).getD []) ((quals[j]?).getD []) = true →
        cfg.isMissing (readValue cfg (some (regRecord cfg 0 nib pos first last vals quals)) (pos + j)) = false := by
      intro j hj hp
      rw [view_readValue hvw, sameVal_missing (h1 _)]
      unfold atPos
      rw [if_pos (by omega), show ((((pos + j : Nat) : Int) - pos).toNat) = j by omega, List.getElem?_eq_getElem hj]
      rw [List.getElem?_eq_getElem hj] at hp
      simpa [posValid] using hp
    intro r hr
    injection hr with hr
    subst hr
    have e1 : (regRecord cfg 0 nib pos first last vals quals).startPos.toNat = pos + first := by
      simp only [regRecord]; simp; omega
    have e2 : (regRecord cfg 0 nib pos first last vals quals).endPos.toNat = pos + last := by
      simp only [regRecord]; simp; omega
    rw [e1, e2]
    exact ⟨hval _ (by omega) k4, hval _ k3 k5⟩

theorem firstLast_le {W : Type} [DecidableEq W] [Inhabited W] (cfg : RegCfg W) (qsz : Nat) (vals quals : List (List W)) :
    (firstLastValid cfg qsz vals quals).2.1 ≤ (firstLastValid cfg qsz vals quals).2.2 := by
  rcases firstLastValid_spec cfg qsz vals quals with ⟨h, _⟩ | ⟨a, b, h, h2, _⟩
  · rw [h]; exact Nat.le_refl _
  · rw [h]; exact h2

/-- Storing without quality keeps the records tight, unless the flag is 2 or empty records are kept. -/
theorem regStoreBlock_tight {W : Type} [DecidableEq W] [Inhabited W] {cfg : RegCfg W} (hc : CfgOK cfg)
    {nib q pos : Nat} {vals quals : List (List W)} {rb : Bool} {flag : Int} {rec : Option (RegRec W)}
    (hok : RegOK cfg nib q rec) (ha : StoreArgs cfg nib q 0 pos vals quals rb flag) (hk : cfg.keepEmpty = false) (hf : flag ≠ 2) (ht : Tight cfg rec) :
    Tight cfg ((regStoreBlock cfg rec 0 nib pos vals quals rb flag).apply rec) := by
  have hlen : 1 ≤ vals.length := by
    match vals, ha.ne with
    | _ :: _, _ => simp
  have hroom := ha.room
  obtain ⟨f, g, hf0⟩ := view_exists hc hok
  have hflag : ∀ b : Bool, (b && (decide (flag = 3) || !(cfg.keepEmpty || decide (flag = 2)))) = b := by
    intro b; rw [hk, decide_eq_false hf]; simp
  have hdel : ∀ b : Bool, Tight cfg ((if b then RegAct.delete else RegAct.keep).apply rec) := by
    intro b
    cases b
    · exact ht
    · intro r hr; simp [RegAct.apply] at hr
  unfold regStoreBlock
  by_cases hm : regMerges cfg rec 0 pos vals quals rb flag = true
  · simp only [if_pos hm]
    obtain ⟨hm1l, hm2l, hm1e, hm2e, _, _⟩ := mergeBlock_spec ha hf0
    generalize hmm : mergeBlock cfg flag pos vals quals 0 (regReadBlock cfg rec 0 nib 0) = m at *
    have hm1ne : m.1 ≠ [] := by intro h; rw [h] at hm1l; simp at hm1l; omega
    generalize (if flag = 1 then (List.range vals.length).any (fun i => cfg.isMissing (((regReadBlock cfg rec 0 nib 0).1[pos + i]?).getD []))
      else if flag = 4 then vals.any (fun v => !cfg.isMissing v) else true) = sr
    split
    · exact ht
    · rw [hflag]
      split
      · exact hdel _
      · rename_i hfl
        have hfl2 : firstLastValid cfg 0 m.1 m.2 = (false, (firstLastValid cfg 0 m.1 m.2).2.1, (firstLastValid cfg 0 m.1 m.2).2.2) := by
          refine Prod.ext ?_ rfl
          simpa using hfl
        exact regRecord_tight hc (q := q) hm1ne hm1e hm2e (by omega) hfl2
  · simp only [if_neg hm, hflag]
    split
    · exact hdel _
    · rename_i hfl
      have hfl1 : (firstLastValid cfg 0 vals quals).1 = false := by
        revert hfl hm
        unfold regMerges
        simp only
        generalize (rb && !regNoLogical rec) = read1
        generalize (rb && rec.isSome) = found
        generalize sameSizes cfg 0 rec = sizes
        generalize sameExtent 0 pos _ _ _ rec = ext
        generalize (firstLastValid cfg 0 vals quals).1 = b
        generalize decide (flag ≠ 1) = x1
        generalize decide (flag ≠ 4) = x4
        generalize (decide (flag = 0) || decide (flag = 2)) = x0
        have e0 : decide (0 > 0) = false := by decide
        rw [e0]
        cases read1 <;> cases found <;> cases sizes <;> cases ext <;> cases b <;> cases x1 <;> cases x4 <;> cases x0 <;> simp
      exact regRecord_tight hc (q := q) ha.ne ha.vlen ha.qlen hroom (Prod.ext hfl1 rfl)

/-- The times written are those of the first and last position of the record. -/
theorem regDates_eq {W : Type} [DecidableEq W] [Inhabited W] {cfg : RegCfg W} {old : Option (RegRec W)} {b : BlockWhen} {nib pos : Nat}
    {vals quals : List (List W)} {rb : Bool} {flag : Int} {r : RegRec W} (h : regStoreBlock cfg old 0 nib pos vals quals rb flag = .write r) (T : Int → Int × Int)
    (hm : ∀ k : Nat, incrementTime b.interval k b.julianBlock b.interval = T k)
    (hn : ∀ k : Nat, incrementTime b.interval (b.position + k) b.startJulian b.startSeconds = T (pos + k)) :
    regDates cfg old b 0 nib pos vals quals rb flag = (T r.startPos, T r.endPos) := by
  unfold regStoreBlock at h
  unfold regDates
  by_cases hmg : regMerges cfg old 0 pos vals quals rb flag = true
  · simp only [if_pos hmg] at h ⊢
    have hle := firstLast_le cfg 0 (mergeBlock cfg flag pos vals quals 0 (regReadBlock cfg old 0 nib 0)).1 (mergeBlock cfg flag pos vals quals 0 (regReadBlock cfg old 0 nib 0)).2
    generalize hmm : mergeBlock cfg flag pos vals quals 0 (regReadBlock cfg old 0 nib 0) = m at *
    generalize (if flag = 1 then (List.range vals.length).any (fun i => cfg.isMissing (((regReadBlock cfg old 0 nib 0).1[pos + i]?).getD []))
      else if flag = 4 then vals.any (fun v => !cfg.isMissing v) else true) = sr at h
    split at h
    · cases h
    · split at h
      · split at h <;> cases h
      · injection h with h
        subst h
        have e1 : (regRecord cfg 0 nib 0 (firstLastValid cfg 0 m.1 m.2).2.1 (firstLastValid cfg 0 m.1 m.2).2.2 m.1 m.2).startPos = ((firstLastValid cfg 0 m.1 m.2).2.1 : Int) := by
          simp only [regRecord]; simp
        have e2 : (regRecord cfg 0 nib 0 (firstLastValid cfg 0 m.1 m.2).2.1 (firstLastValid cfg 0 m.1 m.2).2.2 m.1 m.2).endPos = ((firstLastValid cfg 0 m.1 m.2).2.2 : Int) := by
          simp only [regRecord]; simp; omega
        rw [e1, e2, hm, hm]
  · simp only [if_neg hmg] at h ⊢
    have hle := firstLast_le cfg 0 vals quals
    split at h
    · split at h <;> cases h
    · injection h with h
      subst h
      have e1 : (regRecord cfg 0 nib pos (firstLastValid cfg 0 vals quals).2.1 (firstLastValid cfg 0 vals quals).2.2 vals quals).startPos = pos + ((firstLastValid cfg 0 vals quals).2.1 : Int) := by
        simp only [regRecord]; simp
      have e2 : (regRecord cfg 0 nib pos (firstLastValid cfg 0 vals quals).2.1 (firstLastValid cfg 0 vals quals).2.2 vals quals).endPos = pos + ((firstLastValid cfg 0 vals quals).2.2 : Int) := by
        simp only [regRecord]; simp; omega
      rw [e1, e2, hn, hn]

end Hec
