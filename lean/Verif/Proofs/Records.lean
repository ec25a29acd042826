import Verif.Proofs.EngineCopy3
import Verif.Props.RenamePaths
import Verif.Props.Engine
import Verif.Spec.Records
/-! Characters in ints, user headers, and a record that is written and left alone. -/
namespace Hec
set_option linter.unusedSimpArgs false
set_option linter.unusedVariables false
open _root_.Spec (Op Store Step Steps run runs Allowed AllAllowed Plain Reachable GoodSizes create join SixParts stored oddHeaders
  compatible Points IsInt MayStore Later headerString HeaderKept headerOdd)
open Hec.Spec (sameUpToCase)

theorem word_bytes (a b c d : UInt8) :
    let w := UInt32.ofNat (a.toNat + 256 * b.toNat + 256 ^ 2 * c.toNat + 256 ^ 3 * d.toNat)
    [byteOf w.toNat 0, byteOf w.toNat 1, byteOf w.toNat 2, byteOf w.toNat 3] = [a, b, c, d] := by
  have ha := a.toNat_lt; have hb := b.toNat_lt; have hc := c.toNat_lt; have hd := d.toNat_lt
  intro w
  have hw : w.toNat = a.toNat + 256 * b.toNat + 65536 * c.toNat + 16777216 * d.toNat := by
    show (UInt32.ofNat _).toNat = _
    rw [UInt32.toNat_ofNat']
    rw [Nat.mod_eq_of_lt] <;> omega
  simp only [byteOf, hw]
  have e : ∀ (x : UInt8) (n : Nat), n = x.toNat → UInt8.ofNat n = x := by
    intro x n h; subst h; simp
  congr 1
  · exact e _ _ (by omega)
  congr 1
  · exact e _ _ (by omega)
  congr 1
  · exact e _ _ (by omega)
  congr 1
  · exact e _ _ (by omega)

theorem intsToBytes_bytesToInts : ∀ (n : Nat) (b : Bytes), b.length = 4 * n → intsToBytes (bytesToInts b) = b
  | 0, b, h => by
    have : b = [] := List.length_eq_zero_iff.mp (by omega)
    subst this; rfl
  | n + 1, b, h => by
    match b, h with
    | w :: x :: y :: z :: rest, h =>
      have hr : rest.length = 4 * n := by simp at h; omega
      have ih := intsToBytes_bytesToInts n rest hr
      have hw := word_bytes w x y z
      simp only [bytesToInts, intsToBytes, List.flatMap_cons] at *
      rw [hw, ih]; rfl

theorem bytesToInts_length : ∀ (n : Nat) (b : Bytes), b.length = 4 * n → (bytesToInts b).length = n
  | 0, b, h => by
    have : b = [] := List.length_eq_zero_iff.mp (by omega)
    subst this; rfl
  | n + 1, b, h => by
    match b, h with
    | w :: x :: y :: z :: rest, h =>
      have hr : rest.length = 4 * n := by simp at h; omega
      have ih := bytesToInts_length n rest hr
      simp [bytesToInts, ih]

theorem pad_length (b : Bytes) : (b ++ List.replicate (3 - (b.length + 3) % 4) 0).length = 4 * ((b.length + 3) / 4) := by
  simp; omega

theorem padInts_length (b : Bytes) : (padInts b).length = (b.length + 3) / 4 := bytesToInts_length _ _ (pad_length b)

theorem intsToBytes_padInts (b : Bytes) : intsToBytes (padInts b) = b ++ List.replicate (3 - (b.length + 3) % 4) 0 :=
  intsToBytes_bytesToInts _ _ (pad_length b)

theorem take_padInts (b : Bytes) : (intsToBytes (padInts b)).take b.length = b := by
  rw [intsToBytes_padInts]; simp

theorem intsToBytes_length (xs : List UInt32) : (intsToBytes xs).length = 4 * xs.length := by
  induction xs with
  | nil => rfl
  | cons a xs ih => simp [intsToBytes, List.flatMap_cons] at ih ⊢; omega

theorem headerString_eq (uh : List UInt32) : headerString uh = userHeaderToString uh := by
  unfold headerString userHeaderToString
  congr 1
  induction uh with
  | nil => rfl
  | cons a xs ih =>
    simp only [List.flatMap_cons, List.map_append, intsToBytes] at ih ⊢
    rw [ih]
    congr 1
    have ha := a.toNat_lt
    simp only [List.map_cons, List.map_nil, byteOf]
    have h3 : a.toNat / 256 ^ 3 = a.toNat / 256 ^ 3 % 256 := by omega
    rw [← h3]
    simp

theorem string_length (uh : List UInt32) : (userHeaderToString uh).length ≤ 4 * uh.length := by
  rw [← intsToBytes_length uh]
  exact (List.takeWhile_sublist _).length_le

theorem no_zero (uh : List UInt32) : ∀ b ∈ userHeaderToString uh, b ≠ 0 := by
  intro b hb
  have : ∀ l : Bytes, b ∈ l.takeWhile (fun b => b != 0) → b ≠ 0 := by
    intro l
    induction l with
    | nil => simp
    | cons x l ih =>
      rw [List.takeWhile_cons]
      split
      · next h =>
        intro hm
        rcases List.mem_cons.mp hm with h1 | h1
        · subst h1; simpa using h
        · exact ih h1
      · simp
  exact this _ hb

theorem string_pad (str : Bytes) (h : ∀ b ∈ str, b ≠ 0) : userHeaderToString (padInts str) = str := by
  unfold userHeaderToString
  rw [intsToBytes_padInts]
  have : ∀ (l : Bytes) (k : Nat), (∀ b ∈ l, b ≠ 0) → (l ++ List.replicate k 0).takeWhile (fun b => b != 0) = l := by
    intro l k
    induction l with
    | nil => intro _; cases k <;> simp [List.replicate_succ]
    | cons x l ih =>
      intro hx
      have hx0 := hx x (by simp)
      rw [List.cons_append, List.takeWhile_cons, if_pos (by simpa using hx0), ih fun b hb => hx b (by simp [hb])]
  exact this _ _ h

theorem lengthened_kept (uh : List UInt32) : HeaderKept uh (lengthened uh) := by
  unfold HeaderKept
  rw [headerString_eq, headerString_eq]
  have hs := string_length uh
  unfold lengthened
  split
  · next h =>
    rw [if_pos h.1]
    simp only []
    rw [if_pos (by omega)]
    refine ⟨by rw [padInts_length]; simp; omega, string_pad _ fun b hb => ?_⟩
    rcases List.mem_append.mp hb with h1 | h1
    · exact no_zero uh b h1
    · simp at h1; subst h1; decide
  · next h =>
    split
    · next h1 =>
      simp only []
      rw [if_neg (by omega)]
    · rfl

theorem lengthened_odd (uh : List UInt32) : (lengthened uh).length % 2 = headerOdd uh := by
  have h := lengthened_kept uh
  unfold HeaderKept at h
  unfold headerOdd
  have hs := string_length uh
  rw [← headerString_eq] at hs
  split at h
  · next h1 => rw [h.1, if_neg (by omega)]; omega
  · next h1 =>
    rw [h]
    split <;> omega

theorem toInt32_i32 {n : Int} (h : IsInt n) : toInt32 (i32 n).toNat = n := by
  obtain ⟨h1, h2⟩ := h
  have : ((i32 n).toNat : Int) = n % 2 ^ 32 := by
    unfold i32
    show ((UInt32.ofInt n).toNat : Int) = _
    simp only [UInt32.ofInt, UInt32.toNat_ofNat']
    omega
  unfold toInt32 lo32
  split <;> omega

theorem points_chars {p : Option Bytes} {n : Int} {x : Bytes} (h : Points p n x) : chars p n = x := by
  unfold chars
  rcases h with ⟨h1, h2⟩ | ⟨h1, _, rest, h2, h3⟩
  · rw [if_neg (by omega), h2]
  · rw [if_pos h1, h2]
    simp [← h3]

theorem points_given {α : Type} {p : Option (List α)} {n : Int} {x : List α} (h : Points p n x) : given p n = x := by
  unfold given
  rcases h with ⟨h1, h2⟩ | ⟨h1, _, rest, h2, h3⟩
  · rw [if_neg (by omega), h2]
  · rw [if_pos h1, h2]
    simp [← h3]

theorem charsOf_points {p : Option Bytes} {n : Int} {x : Bytes} (h : Points p n x) : charsOf (padInts x) (i32 n) = x := by
  unfold charsOf
  rw [padInts_length]
  rcases h with ⟨h1, h2⟩ | ⟨h1, h4, rest, h2, h3⟩
  · subst h2; simp
  · rw [if_pos (by omega), toInt32_i32 ⟨by omega, h4⟩, ← h3]
    exact take_padInts x

theorem intsDoubles_ints (xs : List UInt64) : intsDoubles (xs.flatMap doubleInts) = xs := by
  induction xs with
  | nil => rfl
  | cons a xs ih =>
    simp only [List.flatMap_cons, doubleInts, List.cons_append, List.nil_append, intsDoubles] at ih ⊢
    rw [ih]
    congr 1
    have ha := a.toNat_lt
    simp only [packInts, lowInt, highInt, UInt32.toNat_ofNat']
    have : a.toNat % 2 ^ 32 % 2 ^ 32 + 2 ^ 32 * (a.toNat / 2 ^ 32 % 2 ^ 32) = a.toNat := by omega
    rw [this]; simp

theorem doubles_length (xs : List UInt64) : (xs.flatMap doubleInts).length = 2 * xs.length := by
  induction xs with
  | nil => rfl
  | cons a xs ih => simp [List.flatMap_cons, doubleInts] at ih ⊢; omega

/-! ### A record that is written and left alone -/

section
variable {hdrSize maxHash binSize : Nat} {mul : Nat → Nat}

theorem HInv.drop {c : Cfg} {G : Ghost} {s : Eng} {past : List Op} {r : Req} (H : HInv c G s (past ++ [.write r])) : HInv c G s past :=
  ⟨H.inv, H.count, H.heads, fun h hh e he hd => by
    obtain ⟨p, hp, hs⟩ := H.trash h hh e he hd
    exact ⟨p, by simpa [List.flatMap_append, Op.deletes] using hp, hs⟩⟩

theorem steps_other {st st' : Store} {ops : List Op} {ress : List Res} (h : Steps st ops ress st') {q : Bytes}
    (hne : ∀ op ∈ ops, ∀ p ∈ op.paths, ¬ sameUpToCase p q) : st'.live q = st.live q := by
  induction h with
  | nil => rfl
  | cons h1 h2 ih =>
    rw [ih fun op hop => hne op (by simp [hop]), step_other h1 (hne _ (by simp))]

theorem can_allowed {c : Cfg} {past : List Op} {s : Eng} {r : Req} (hp : 0 < r.path.length)
    (h : MayStore c past s r.path (oddHeaders r.ih r.h2 r.uh)) : Allowed c past s (.write r) := ⟨hp, h.1, h.2.1, h.2.2⟩

theorem HInv.mono {c : Cfg} {G : Ghost} {s : Eng} {past past' : List Op} (H : HInv c G s past)
    (h : ∀ d ∈ past.flatMap Op.deletes, d ∈ past'.flatMap Op.deletes) : HInv c G s past' :=
  ⟨H.inv, H.count, H.heads, fun k hk e he hd => by
    obtain ⟨p, hp, hs⟩ := H.trash k hk e he hd
    exact ⟨p, h p hp, hs⟩⟩

theorem abs_live_some {c : Cfg} (hc : c.OK) {G : Ghost} {s : Eng} (I : Inv c G s) {p q : Bytes} (hlen : p.length ≤ 392) (h : Same p q) {R : Rec}
    (hR : (abs c G s.disk).live p = some R) : (abs c G s.disk).live q = some R := by
  obtain ⟨A, B, e, T, hm, hl, hA, hB⟩ := live_entry hc I hlen hR
  have hmem : e ∈ centries (G.chain (c.tHash p)) := by rw [T.ents]; simp
  have hh := hc.tHash_lt p hlen
  rw [← hR, entry_live hc I hh hmem hl (h.symm.trans T.same), entry_live hc I hh hmem hl T.same]

theorem abs_live_same {c : Cfg} (hc : c.OK) {G : Ghost} {s : Eng} (I : Inv c G s) {p q : Bytes} (hlen : p.length ≤ 392) (h : Same p q) :
    (abs c G s.disk).live q = (abs c G s.disk).live p := by
  cases hR : (abs c G s.disk).live p with
  | some R => exact abs_live_some hc I hlen h hR
  | none =>
    cases hQ : (abs c G s.disk).live q with
    | none => rfl
    | some R => rw [abs_live_some hc I (same_len h hlen) h.symm hQ] at hR; cases hR

/-- What is in the file stays as long as no call is about it. -/
theorem HInv.kept {c : Cfg} (hc : c.OK) {G : Ghost} {s s' : Eng} {past : List Op} (H : HInv c G s past) {p : Bytes} (hlen : p.length ≤ 392)
    {ops : List Op} (hl : Later c past s p ops s') {q : Bytes} (hq : sameUpToCase p q) : zread c s' q = zread c s p := by
  obtain ⟨hall, ⟨ress, hrun⟩, hne⟩ := hl
  obtain ⟨G2, s2, ress2, k1, k2, H2⟩ := HInv.runs hc ops H hall
  have : some (s2, ress2) = some (s', ress) := k1.symm.trans hrun
  injection this with this
  injection this with this _
  subst this
  have hql : q.length ≤ 392 := same_len (same_iff.mp hq) hlen
  have e1 : (abs c G s.disk).live q = (abs c G s.disk).live p := abs_live_same hc H.inv hlen (same_iff.mp hq)
  rw [zread_abs hc H2.inv hql, zread_abs hc H.inv hlen, steps_other k2 (fun op hop x hx hs => hne op hop x hx (sameUp_trans hs (sameUp_symm hq))), e1]

/-- A write that is allowed and of the right type goes through. -/
theorem HInv.put_in {c : Cfg} (hc : c.OK) {G : Ghost} {s : Eng} {past : List Op} (H : HInv c G s past) (r : Req) (ha : Allowed c past s (.write r))
    (ht : ∀ R, zread c s r.path = some (some R) → R.dataType = r.dataType) :
    ∃ G' s', zwrite c s r = some (s', .ok) ∧ HInv c G' s' past ∧
      (∀ q, q.length ≤ 392 → ¬ sameUpToCase r.path q → zread c s' q = zread c s q) ∧ ∃ v, zread c s' r.path = some (some (stored r v)) := by
  obtain ⟨G', s1, res, hr, S, H'⟩ := H.step hc ha
  have hst := S.step
  have hlen := ha.2.1
  have key : res = .ok ∧ ∃ v, _root_.Spec.Set (abs c G s.disk).live (abs c G' s1.disk).live r.path (some (stored r v)) := by
    have hz := zread_abs hc H.inv hlen
    generalize abs c G s.disk = st at hst hz ⊢
    generalize abs c G' s1.disk = st1 at hst ⊢
    cases hst with
    | writeNew h1 h2 _ => exact ⟨rfl, _, h2⟩
    | overwrite h1 _ h2 _ => exact ⟨rfl, _, h2⟩
    | refused h1 h2 =>
      exfalso
      refine h2 (Or.inl (ht _ (by rw [hz, h1])))
  obtain ⟨rfl, v, hv⟩ := key
  refine ⟨G', s1, hr, H'.drop, fun q hq hne => ?_, v, ?_⟩
  · rw [zread_abs hc H.inv hq, zread_abs hc H'.inv hq, (hv q).2 hne]
  · rw [zread_abs hc H'.inv hlen, (hv r.path).1 (same_iff.mpr (Same.refl _))]

/-- A write that is allowed and of the right type goes through, and what it stored is there as long as no other call is
about it. -/
theorem stored_kept (g : GoodSizes hdrSize maxHash binSize) {past : List Op} {s : Eng}
    (hs : Reachable (create hdrSize maxHash binSize mul).1 (create hdrSize maxHash binSize mul).2 past s) (r : Req)
    (ha : Allowed (create hdrSize maxHash binSize mul).1 past s (.write r))
    (ht : ∀ R, zread (create hdrSize maxHash binSize mul).1 s r.path = some (some R) → R.dataType = r.dataType) :
    ∃ s', zwrite (create hdrSize maxHash binSize mul).1 s r = some (s', .ok) ∧
      (∀ q, q.length ≤ 392 → ¬ sameUpToCase r.path q →
        zread (create hdrSize maxHash binSize mul).1 s' q = zread (create hdrSize maxHash binSize mul).1 s q) ∧
      ∀ ops s'', Later (create hdrSize maxHash binSize mul).1 past s' r.path ops s'' → ∀ q, sameUpToCase r.path q →
        ∃ v, zread (create hdrSize maxHash binSize mul).1 s'' q = some (some (stored r v)) := by
  obtain ⟨G, H⟩ := reach g hs
  have hc := create_OK (mul := mul) g
  obtain ⟨G', s', h1, H', h2, v, hv⟩ := H.put_in hc r ha ht
  exact ⟨s', h1, h2, fun ops s'' hl q hq => ⟨v, by rw [H'.kept hc ha.2.1 hl hq, hv]⟩⟩

/-- A write of another type is refused, and every read is as before. -/
theorem stored_refused (g : GoodSizes hdrSize maxHash binSize) {past : List Op} {s : Eng}
    (hs : Reachable (create hdrSize maxHash binSize mul).1 (create hdrSize maxHash binSize mul).2 past s) (r : Req)
    (ha : Allowed (create hdrSize maxHash binSize mul).1 past s (.write r)) {R : Rec}
    (ht : zread (create hdrSize maxHash binSize mul).1 s r.path = some (some R)) (hn : ¬ compatible R.dataType r.dataType) :
    ∃ s', zwrite (create hdrSize maxHash binSize mul).1 s r = some (s', .differentType) ∧
      ∀ q, q.length ≤ 392 → zread (create hdrSize maxHash binSize mul).1 s' q = zread (create hdrSize maxHash binSize mul).1 s q := by
  obtain ⟨G, H⟩ := reach g hs
  have hc := create_OK (mul := mul) g
  obtain ⟨G', s1, res, hr, S, H'⟩ := H.step hc ha
  have hst := S.step
  have hlen := ha.2.1
  have hz := zread_abs hc H.inv hlen
  rw [ht] at hz
  injection hz with hz
  have key : res = .differentType ∧ (abs (create hdrSize maxHash binSize mul).1 G' s1.disk).live = (abs (create hdrSize maxHash binSize mul).1 G s.disk).live := by
    generalize abs (create hdrSize maxHash binSize mul).1 G s.disk = st at hst hz ⊢
    generalize abs (create hdrSize maxHash binSize mul).1 G' s1.disk = st1 at hst ⊢
    cases hst with
    | writeNew h1 h2 _ => rw [h1] at hz; cases hz
    | overwrite h1 h2 _ _ =>
      rw [h1] at hz; injection hz with hz; subst hz
      exact absurd h2 hn
    | refused h1 h2 => exact ⟨rfl, rfl⟩
  obtain ⟨rfl, hl⟩ := key
  exact ⟨s1, hr, fun q hq => by rw [zread_abs hc H.inv hq, zread_abs hc H'.inv hq, hl]⟩

end

end Hec
