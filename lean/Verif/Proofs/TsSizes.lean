import Verif.Model.TsSizes
import Verif.Props.TsRange
import Verif.Proofs.EngineCopy2
/-! The loop of hec_dss_tsGetSizes. -/
namespace Hec
set_option linter.unusedSimpArgs false
set_option linter.unusedVariables false
open _root_.Spec (Date Block RegInterval RegStore regSeries SameValue Op GoodSizes create join SixParts IsPart IsInt blockLength NamesSeries Holds)

/-- The sum of `j` numbers, from the `n`th. -/
def sumFrom (f : Int → Int) (n : Int) : Nat → Int
  | 0 => 0
  | j + 1 => f n + sumFrom f (n + 1) j

/-- What the loop takes from the block `p`: `cnt` values, a quality size up to `Q`. -/
def Sized (c : Cfg) (s : Eng) (p : Bytes) (cnt Q : Int) (R : Option Rec) : Prop :=
  zread c s p = some R ∧ (R = none → cnt = 0) ∧ ∀ R', R = some R' → 11 < R'.ih.length ∧ toInt32 R'.logicalNumber = cnt ∧ headInt R'.ih 11 ≤ Q

theorem sizesLoop_sum {c : Cfg} {s : Eng} (m : Around) {ps : List Bytes} (hps : NameOk ps) {bs : Int} {jbOf : Int → Int} {n0 : Int}
    (hlow : ∀ n, n0 ≤ n → julianOf ⟨100, 1, 1⟩ ≤ jbOf n) (hnext : ∀ n, n0 ≤ n → ztsIncrementBlock (jbOf n) bs = jbOf (n + 1)) {nE : Int} (hnE : jbOf nE ≤ julianOf ⟨9999, 12, 31⟩)
    (hmono : ∀ n, n0 ≤ n → (jbOf n ≤ jbOf nE ↔ n ≤ nE)) {cnt : Int → Int} {Q : Int} {rec : Int → Option Rec}
    (H : ∀ k, n0 ≤ k → k ≤ nE → Sized c s (blk ps (jbOf k)) (cnt k) Q (rec k)) :
    ∀ (j : Nat) (n : Int) (fuel : Nat) (buf x : Bytes) (was num q : Int), n0 ≤ n → n + j = nE + 1 → j ≤ fuel → 0 ≤ q → q ≤ Q →
      Holds buf (join (ps.set 3 x)) → IsPart x → buf.length = 393 →
      ∃ q', sizesLoop c m bs (jbOf nE) s fuel buf (jbOf n) was num q = some (.ok (num + sumFrom cnt n j) q') ∧ q ≤ q' ∧ q' ≤ Q ∧
        (∀ k R, n ≤ k → k ≤ nE → rec k = some R → headInt R.ih 11 ≤ q') ∧ (q' = q ∨ ∃ k R, n ≤ k ∧ k ≤ nE ∧ rec k = some R ∧ q' = headInt R.ih 11) := by
  intro j
  induction j with
  | zero =>
    intro n fuel buf x was num q hn hE hf h0 hQ hb hx hl
    have hlt : ¬ jbOf n ≤ jbOf nE := fun h => by have := (hmono n hn).mp h; omega
    refine ⟨q, ?_, Int.le_refl _, hQ, fun k R h1 h2 => by omega, Or.inl rfl⟩
    cases fuel with
    | zero => unfold sizesLoop; rw [if_neg hlt]; simp [sumFrom]
    | succ fuel => unfold sizesLoop; rw [if_neg hlt]; simp [sumFrom]
  | succ j ih =>
    intro n fuel buf x was num q hn hE hf h0 hQ hb hx hl
    cases fuel with
    | zero => omega
    | succ fuel =>
      have hle : jbOf n ≤ jbOf nE := (hmono n hn).mpr (by omega)
      unfold sizesLoop
      rw [if_pos hle]
      have hj1 := hlow n hn
      have hj2 : jbOf n ≤ julianOf ⟨9999, 12, 31⟩ := by omega
      obtain ⟨f1, f2, f3, f4⟩ := blk_facts hps hj1 hj2
      have hset : (ps.set 3 x).set 3 (dayName (jbOf n)) = ps.set 3 (dayName (jbOf n)) := set_set ps x _
      obtain ⟨buf', b1, b2, b3, b4⟩ := blockName_spec m (set_part hps.six hx 3) hb hl hj1 hj2 (by rw [hset]; exact f2)
      rw [hset] at b3 b4
      have b4 : cstr buf' = blk ps (jbOf n) := b4
      obtain ⟨z1, z2, z3⟩ := H n hn (by omega)
      rw [b1, Option.bind_some, b4, z1, Option.bind_some]
      simp only
      rw [hnext n hn]
      cases hR : rec n with
      | none =>
        obtain ⟨q', k1, k2, k3, k4, k5⟩ := ih (n + 1) fuel buf' _ was num q (by omega) (by omega) (by omega) h0 hQ b3 (dayName_spec hj1 hj2).2.2.1 b2
        refine ⟨q', ?_, k2, k3, fun k R h1 h2 hk => ?_, ?_⟩
        · simp only
          rw [k1]
          simp only [sumFrom, z2 hR, Int.zero_add]
        · rcases Int.lt_or_le n k with h | h
          · exact k4 k R (by omega) h2 hk
          · have : k = n := by omega
            subst this; rw [hR] at hk; cases hk
        · rcases k5 with h | ⟨k, R, h1, h2, h3⟩
          · exact Or.inl h
          · exact Or.inr ⟨k, R, by omega, h2, h3⟩
      | some R =>
        obtain ⟨y1, y2, y4⟩ := z3 R hR
        simp only
        rw [if_pos y1, y2]
        obtain ⟨q', k1, k2, k3, k4, k5⟩ := ih (n + 1) fuel buf' _ (headInt R.ih 11) (num + cnt n) (if headInt R.ih 11 > q then headInt R.ih 11 else q) (by omega) (by omega) (by omega)
          (by split <;> omega) (by split <;> omega) b3 (dayName_spec hj1 hj2).2.2.1 b2
        have hq2 : q ≤ q' ∧ headInt R.ih 11 ≤ q' := by
          revert k2; split <;> intro k2 <;> omega
        refine ⟨q', ?_, hq2.1, k3, fun k R' h1 h2 hk => ?_, ?_⟩
        · rw [k1]
          simp only [sumFrom, Int.add_assoc]
        · rcases Int.lt_or_le n k with h | h
          · exact k4 k R' (by omega) h2 hk
          · have : k = n := by omega
            subst this; rw [hR] at hk; injection hk with hk; subst hk; exact hq2.2
        · rcases k5 with h | ⟨k, R, h1, h2, h3⟩
          · rw [h]
            by_cases hc : headInt R.ih 11 > q
            · rw [if_pos hc]; exact Or.inr ⟨n, R, Int.le_refl _, by omega, hR, rfl⟩
            · rw [if_neg hc]; exact Or.inl rfl
          · exact Or.inr ⟨k, R, by omega, h2, h3⟩

/-- How many of the `N` positions from `a` are `P`. -/
def countFrom (P : Int → Bool) (a : Int) (N : Nat) : Nat := (List.range N).countP fun k : Nat => P (a + k)

theorem countFrom_succ (P : Int → Bool) (a : Int) (N : Nat) : countFrom P a (N + 1) = countFrom P a N + (if P (a + N) then 1 else 0) := by
  unfold countFrom
  rw [List.range_succ, List.countP_append]
  simp [List.countP_cons]

theorem countFrom_add (P : Int → Bool) (a : Int) (M N : Nat) : countFrom P a (M + N) = countFrom P a M + countFrom P (a + M) N := by
  induction N with
  | zero => simp [countFrom]
  | succ N ih =>
    rw [show M + (N + 1) = (M + N) + 1 by omega, countFrom_succ, countFrom_succ, ih]
    have e : a + ((M + N : Nat) : Int) = a + M + N := by omega
    rw [e]; omega

theorem countFrom_le (P : Int → Bool) (a : Int) (N : Nat) : countFrom P a N ≤ N := by
  unfold countFrom
  have := List.countP_le_length (p := fun k : Nat => P (a + k)) (l := List.range N)
  simpa using this

theorem countFrom_none (P : Int → Bool) (a : Int) (N : Nat) (h : ∀ k : Nat, k < N → P (a + k) = false) : countFrom P a N = 0 := by
  unfold countFrom
  rw [List.countP_eq_zero]
  intro k hk
  rw [h k (List.mem_range.mp hk)]; simp

/-- A part of a range counts no more. -/
theorem countFrom_part (P : Int → Bool) {a b lo hi : Int} (h1 : lo ≤ a) (h2 : b ≤ hi) : countFrom P a (b - a + 1).toNat ≤ countFrom P lo (hi - lo + 1).toNat := by
  rcases Int.lt_or_le b a with h | h
  · rw [show (b - a + 1).toNat = 0 by omega]; simp [countFrom]
  have e : (hi - lo + 1).toNat = (a - lo).toNat + ((b - a + 1).toNat + (hi - b).toNat) := by omega
  rw [e, countFrom_add, countFrom_add, show lo + ((a - lo).toNat : Int) = a by omega]
  omega

variable {i code : Int} {timeAt : Int → Int × Int} {jbOf edge : Int → Int} {n0 : Int}

/-- The positions of the blocks that have a record. -/
def heldIn (edge : Int → Int) (rec : Int → Option Rec) (k : Int) : Int := if (rec k).isSome then nibOf edge k else 0

theorem held_bounds (Gr : Grid i code timeAt jbOf edge n0) (rec : Int → Option Rec) (P : Int → Bool) :
    ∀ (j : Nat) (n : Int), n0 ≤ n → (∀ k, n ≤ k → k < n + j → rec k = none → ∀ p : Nat, p < nibOf edge k → P (edge k + 1 + p) = false) →
      (countFrom P (edge n + 1) (edge (n + j) - edge n).toNat : Int) ≤ sumFrom (heldIn edge rec) n j ∧ sumFrom (heldIn edge rec) n j ≤ edge (n + j) - edge n ∧
      ((∀ k, n ≤ k → k < n + j → rec k ≠ none) → sumFrom (heldIn edge rec) n j = edge (n + j) - edge n) := by
  intro j
  induction j with
  | zero => intro n hn _; simp [sumFrom, countFrom]
  | succ j ih =>
    intro n hn hnone
    obtain ⟨k1, k2, k3⟩ := ih (n + 1) (by omega) fun k h1 h2 => hnone k (by omega) (by omega)
    have he := Gr.edgeLt n hn
    have hj : edge (n + 1) ≤ edge (n + ((j + 1 : Nat) : Int)) := by
      rcases Nat.eq_zero_or_pos j with h | h
      · subst h; simp
      · exact Int.le_of_lt (Gr.edge_mono (by omega) (by omega))
    have e1 : n + ((j + 1 : Nat) : Int) = n + 1 + j := by omega
    rw [e1] at hj ⊢
    have e2 : (edge (n + 1 + j) - edge n).toNat = nibOf edge n + (edge (n + 1 + j) - edge (n + 1)).toNat := by unfold nibOf; omega
    have e3 : edge n + 1 + (nibOf edge n : Int) = edge (n + 1) + 1 := by unfold nibOf; omega
    have e4 : (nibOf edge n : Int) = edge (n + 1) - edge n := by unfold nibOf; omega
    rw [e2, countFrom_add, e3]
    simp only [sumFrom]
    cases hr : rec n with
    | none =>
      have hh : heldIn edge rec n = 0 := by unfold heldIn; rw [hr]; rfl
      rw [hh, countFrom_none P _ _ (hnone n (by omega) (by omega) hr)]
      refine ⟨by omega, by omega, fun h => absurd hr (h n (by omega) (by omega))⟩
    | some R =>
      have hh : heldIn edge rec n = nibOf edge n := by unfold heldIn; rw [hr]; rfl
      have hc := countFrom_le P (edge n + 1) (nibOf edge n)
      rw [hh]
      refine ⟨by omega, by omega, fun h => ?_⟩
      have := k3 fun k h1 h2 => h k (by omega) (by omega)
      omega

/-- More rounds change nothing once the loop has ended. -/
theorem sizesLoop_more {c : Cfg} {m : Around} {bs eb : Int} {s : Eng} : ∀ (fuel : Nat) (buf : Bytes) (jb was n q : Int) {N Q : Int},
    sizesLoop c m bs eb s fuel buf jb was n q = some (.ok N Q) → ∀ k, sizesLoop c m bs eb s (fuel + k) buf jb was n q = some (.ok N Q) := by
  intro fuel
  induction fuel with
  | zero =>
    intro buf jb was n q N Q h k
    unfold sizesLoop at h
    split at h
    · cases h
    · rename_i hlt
      cases k with
      | zero => unfold sizesLoop; rw [if_neg hlt]; exact h
      | succ k => rw [show 0 + (k + 1) = k + 1 by omega]; unfold sizesLoop; rw [if_neg hlt]; exact h
  | succ fuel ih =>
    intro buf jb was n q N Q h k
    rw [show fuel + 1 + k = (fuel + k) + 1 by omega]
    unfold sizesLoop at h ⊢
    split at h
    · rename_i hle
      rw [if_pos hle]
      obtain ⟨buf', h1, h2⟩ := Option.bind_eq_some_iff.mp h
      obtain ⟨R, h3, h4⟩ := Option.bind_eq_some_iff.mp h2
      rw [h1, Option.bind_some, h3, Option.bind_some]
      cases R with
      | none => exact ih _ _ _ _ _ h4 k
      | some R => exact ih _ _ _ _ _ h4 k
    · rename_i hle
      rw [if_neg hle]; exact h

theorem getSizes_more {c : Cfg} {m : TsMem} {p : Bytes} {bs sb eb : Int} {s : Eng} {fuel : Nat} {N Q : Int} (h : getSizes c m p bs sb eb s fuel = some (.ok N Q)) (k : Nat) :
    getSizes c m p bs sb eb s (fuel + k) = some (.ok N Q) := by
  unfold getSizes at h ⊢
  split at h
  · rename_i hle
    rw [if_pos hle]
    obtain ⟨buf, h1, h2⟩ := Option.bind_eq_some_iff.mp h
    rw [h1, Option.bind_some]
    exact sizesLoop_more _ _ _ _ _ _ h2 k
  · rename_i hle
    rw [if_neg hle]; exact h

theorem sizes_more {c : Cfg} {m : TsMem} {p d1 t1 d2 t2 : Bytes} {s : Eng} {fuel : Nat} {N Q : Int} (h : hecTsGetSizes c m p d1 t1 d2 t2 s fuel = some (.ok N Q)) (k : Nat) :
    hecTsGetSizes c m p d1 t1 d2 t2 s (fuel + k) = some (.ok N Q) := by
  unfold hecTsGetSizes at h ⊢
  simp only at h ⊢
  obtain ⟨s1, h1, h⟩ := Option.bind_eq_some_iff.mp h
  obtain ⟨e1, h2, h⟩ := Option.bind_eq_some_iff.mp h
  obtain ⟨p, h3, h⟩ := Option.bind_eq_some_iff.mp h
  rw [h1, Option.bind_some, h2, Option.bind_some, h3, Option.bind_some]
  split at h
  · rename_i hb; rw [if_pos hb]; exact getSizes_more h k
  rename_i hb; rw [if_neg hb]
  split at h
  · cases h
  rename_i hd; rw [if_neg hd]
  split at h
  · cases h
  rename_i hd2; rw [if_neg hd2]
  cases p with
  | bad => cases h
  | pattern => cases h
  | regular i b =>
    obtain ⟨x, h4, h⟩ := Option.bind_eq_some_iff.mp h
    simp only
    rw [h4, Option.bind_some]; exact getSizes_more h k
  | irregular bs b =>
    obtain ⟨x, h4, h⟩ := Option.bind_eq_some_iff.mp h
    simp only
    rw [h4, Option.bind_some]; exact getSizes_more h k

end Hec
