import Verif.Model.Collection
import Verif.Spec.Collection
import Verif.Proofs.Wild
import Verif.Props.Wild
import Verif.Props.Pathnames
import Verif.Proofs.Dates
/-!
Members of collections (C79): setting the sequence number.
-/
namespace Hec
set_option linter.unusedSimpArgs false
set_option linter.unusedVariables false
open _root_.Spec (join IsPart Holds six IsMember Behind)
open Hec.Spec (sameUpToCase)

theorem seq_digits (n : Nat) (h : n ≤ 999999) : zeroPad 6 (decimal n) = six n := by
  have e : ∀ a : Nat, UInt8.ofNat (a + 48) = UInt8.ofNat (48 + a) := fun a => by rw [Nat.add_comm]
  have z : (48 : UInt8) = UInt8.ofNat (48 + 0) := rfl
  unfold decimal six zeroPad
  simp only [List.map_cons, List.map_nil]
  by_cases h1 : n < 10
  · have : digitsRev 10 n = [n] := by rw [digitsRev, if_pos h1]
    rw [this]
    simp only [List.map_cons, List.map_nil, List.reverse_cons, List.reverse_nil, List.nil_append, List.length_cons, List.length_nil, digitChar, List.replicate, List.cons_append]
    rw [e, z, show n / 100000 % 10 = 0 by omega, show n / 10000 % 10 = 0 by omega, show n / 1000 % 10 = 0 by omega, show n / 100 % 10 = 0 by omega,
      show n / 10 % 10 = 0 by omega, show n / 1 % 10 = n by omega]
  by_cases h2 : n < 100
  · have : digitsRev 10 n = [n % 10, n / 10] := by rw [digitsRev, if_neg h1, digitsRev, if_pos (by omega)]
    rw [this]
    simp only [List.map_cons, List.map_nil, List.reverse_cons, List.reverse_nil, List.nil_append, List.length_cons, List.length_nil, digitChar, List.replicate, List.cons_append]
    rw [e, e, z, show n / 100000 % 10 = 0 by omega, show n / 10000 % 10 = 0 by omega, show n / 1000 % 10 = 0 by omega, show n / 100 % 10 = 0 by omega,
      show n / 10 % 10 = n / 10 by omega, show n / 1 % 10 = n % 10 by omega]
  by_cases h3 : n < 1000
  · have : digitsRev 10 n = [n % 10, n / 10 % 10, n / 10 / 10] := by
      rw [digitsRev, if_neg h1, digitsRev, if_neg (by omega), digitsRev, if_pos (by omega)]
    rw [this]
    simp only [List.map_cons, List.map_nil, List.reverse_cons, List.reverse_nil, List.nil_append, List.length_cons, List.length_nil, digitChar, List.replicate, List.cons_append]
    rw [e, e, e, z, show n / 100000 % 10 = 0 by omega, show n / 10000 % 10 = 0 by omega, show n / 1000 % 10 = 0 by omega,
      show n / 10 / 10 = n / 100 % 10 by omega, show n / 1 % 10 = n % 10 by omega]
  by_cases h4 : n < 10000
  · have : digitsRev 10 n = [n % 10, n / 10 % 10, n / 10 / 10 % 10, n / 10 / 10 / 10] := by
      rw [digitsRev, if_neg h1, digitsRev, if_neg (by omega), digitsRev, if_neg (by omega), digitsRev, if_pos (by omega)]
    rw [this]
    simp only [List.map_cons, List.map_nil, List.reverse_cons, List.reverse_nil, List.nil_append, List.length_cons, List.length_nil, digitChar, List.replicate, List.cons_append]
    rw [e, e, e, e, z, show n / 100000 % 10 = 0 by omega, show n / 10000 % 10 = 0 by omega, show n / 10 / 10 / 10 = n / 1000 % 10 by omega,
      show n / 10 / 10 % 10 = n / 100 % 10 by omega, show n / 1 % 10 = n % 10 by omega]
  by_cases h5 : n < 100000
  · have : digitsRev 10 n = [n % 10, n / 10 % 10, n / 10 / 10 % 10, n / 10 / 10 / 10 % 10, n / 10 / 10 / 10 / 10] := by
      rw [digitsRev, if_neg h1, digitsRev, if_neg (by omega), digitsRev, if_neg (by omega), digitsRev, if_neg (by omega), digitsRev, if_pos (by omega)]
    rw [this]
    simp only [List.map_cons, List.map_nil, List.reverse_cons, List.reverse_nil, List.nil_append, List.length_cons, List.length_nil, digitChar, List.replicate, List.cons_append]
    rw [e, e, e, e, e, z, show n / 100000 % 10 = 0 by omega, show n / 10 / 10 / 10 / 10 = n / 10000 % 10 by omega, show n / 10 / 10 / 10 % 10 = n / 1000 % 10 by omega,
      show n / 10 / 10 % 10 = n / 100 % 10 by omega, show n / 1 % 10 = n % 10 by omega]
  · have : digitsRev 10 n = [n % 10, n / 10 % 10, n / 10 / 10 % 10, n / 10 / 10 / 10 % 10, n / 10 / 10 / 10 / 10 % 10, n / 10 / 10 / 10 / 10 / 10] := by
      rw [digitsRev, if_neg h1, digitsRev, if_neg (by omega), digitsRev, if_neg (by omega), digitsRev, if_neg (by omega), digitsRev, if_neg (by omega), digitsRev, if_pos (by omega)]
    rw [this]
    simp only [List.map_cons, List.map_nil, List.reverse_cons, List.reverse_nil, List.nil_append, List.length_cons, List.length_nil, digitChar, List.replicate, List.cons_append]
    rw [e, e, e, e, e, e, show n / 10 / 10 / 10 / 10 / 10 = n / 100000 % 10 by omega, show n / 10 / 10 / 10 / 10 % 10 = n / 10000 % 10 by omega,
      show n / 10 / 10 / 10 % 10 = n / 1000 % 10 by omega,
      show n / 10 / 10 % 10 = n / 100 % 10 by omega, show n / 1 % 10 = n % 10 by omega]
    rfl

theorem six_length (n : Nat) : (six n).length = 6 := rfl

theorem six_chars (n : Nat) : ∀ c ∈ six n, 48 ≤ c ∧ c ≤ 57 := by
  intro c hc
  obtain ⟨k, _, rfl⟩ := List.mem_map.mp hc
  have : n / k % 10 < 10 := Nat.mod_lt _ (by omega)
  constructor
  · rw [UInt8.le_iff_toNat_le, UInt8.toNat_ofNat']; simp only [UInt8.reduceToNat]; omega
  · rw [UInt8.le_iff_toNat_le, UInt8.toNat_ofNat']; simp only [UInt8.reduceToNat]; omega

theorem six_inj {n m : Nat} (hn : n ≤ 999999) (hm : m ≤ 999999) (h : six n = six m) : n = m := by
  have e : ∀ a b : Nat, a < 10 → b < 10 → UInt8.ofNat (48 + a) = UInt8.ofNat (48 + b) → a = b := by
    intro a b ha hb h
    have := congrArg UInt8.toNat h
    rw [UInt8.toNat_ofNat', UInt8.toNat_ofNat'] at this
    omega
  unfold six at h
  simp only [List.map_cons, List.map_nil, List.cons.injEq, and_true] at h
  obtain ⟨h1, h2, h3, h4, h5, h6⟩ := h
  have a1 := e _ _ (by omega) (by omega) h1
  have a2 := e _ _ (by omega) (by omega) h2
  have a3 := e _ _ (by omega) (by omega) h3
  have a4 := e _ _ (by omega) (by omega) h4
  have a5 := e _ _ (by omega) (by omega) h5
  have a6 := e _ _ (by omega) (by omega) h6
  omega

/-- The F part of member `n` of the collection with the given rest. -/
theorem six_member (n : Nat) (rest : Bytes) : IsMember (67 :: 58 :: (six n ++ 124 :: rest)) (six n) rest := by
  refine ⟨Or.inl rfl, fun h => ?_⟩
  have := (six_chars n _ h).2
  exact absurd this (by decide)

theorem member_unique {f s r s' r' : Bytes} (h : IsMember f s r) (h' : IsMember f s' r') : s = s' ∧ r = r' := by
  have key : s ++ 124 :: r = s' ++ 124 :: r' := by
    rcases h.1 with a | a <;> rcases h'.1 with b | b <;> rw [a] at b <;> simpa using b
  have hn := h.2
  have hn' := h'.2
  clear h h'
  induction s generalizing s' with
  | nil =>
    match s' with
    | [] => simpa using key
    | c :: s' =>
      simp only [List.nil_append, List.cons_append, List.cons.injEq] at key
      exact absurd (by rw [← key.1]; simp) hn'
  | cons a s ih =>
    match s' with
    | [] =>
      simp only [List.nil_append, List.cons_append, List.cons.injEq] at key
      exact absurd (by rw [key.1]; simp) hn
    | c :: s' =>
      simp only [List.cons_append, List.cons.injEq] at key
      obtain ⟨e1, e2⟩ := ih key.2 (fun h => hn (by simp [h])) (fun h => hn' (by simp [h]))
      exact ⟨by rw [key.1, e1], e2⟩

theorem bar_member {f s r : Bytes} (h : IsMember f s r) : collectionBar f = s.length + 2 := by
  have hidx : ∀ s : Bytes, (124 : UInt8) ∉ s → (s ++ 124 :: r).idxOf 124 = s.length := by
    intro s hs
    induction s with
    | nil => simp [List.idxOf_cons]
    | cons c s ih =>
      have hc : (c == 124) = false := by
        rw [beq_eq_false_iff_ne]; intro e; exact hs (by simp [e])
      rw [List.cons_append, List.idxOf_cons, hc, cond_false, ih (fun h => hs (by simp [h]))]; rfl
  unfold collectionBar
  rcases h.1 with a | a
  · rw [a, if_pos (by simp), if_pos (by simp), if_pos (by simp)]
    rw [List.idxOf_cons, show (((67 : UInt8) == 124) = false) from rfl, cond_false, List.idxOf_cons, show (((58 : UInt8) == 124) = false) from rfl, cond_false, hidx s h.2]
  · rw [a, if_pos (by simp), if_pos (by simp), if_pos (by simp)]
    rw [List.idxOf_cons, show (((99 : UInt8) == 124) = false) from rfl, cond_false, List.idxOf_cons, show (((58 : UInt8) == 124) = false) from rfl, cond_false, hidx s h.2]

theorem first_bar : ∀ l : Bytes, (124 : UInt8) ∈ l → ∃ s r, l = s ++ 124 :: r ∧ (124 : UInt8) ∉ s
  | [], h => by simp at h
  | c :: l, h => by
    by_cases hc : c = 124
    · exact ⟨[], l, by rw [hc]; rfl, by simp⟩
    · obtain ⟨s, r, e, hn⟩ := first_bar l (by rcases List.mem_cons.mp h with e | e; exact absurd e.symm hc; exact e)
      refine ⟨c :: s, r, by rw [e]; rfl, fun h => ?_⟩
      rcases List.mem_cons.mp h with e | e
      · exact hc e.symm
      · exact hn e

theorem bar_none {f : Bytes} (h : ¬ ∃ s r, IsMember f s r) : collectionBar f = 0 := by
  unfold collectionBar
  split
  · rename_i h0
    split
    · rename_i h1
      split
      · rename_i h2
        exfalso
        match f, h0, h1 with
        | a :: b :: f', h0, h1 =>
          simp only [List.getElem?_cons_zero, Option.some.injEq, List.getElem?_cons_succ] at h0 h1
          subst h1
          have h2' : (124 : UInt8) ∈ f' := by
            have : (124 : UInt8) ∈ a :: 58 :: f' := by simpa using h2
            rcases List.mem_cons.mp this with e | e
            · rcases h0 with h0 | h0 <;> rw [h0] at e <;> exact absurd e (by decide)
            · rcases List.mem_cons.mp e with e | e
              · exact absurd e (by decide)
              · exact e
          obtain ⟨s, r, e, hn⟩ := first_bar f' h2'
          exact h ⟨s, r, by rcases h0 with h0 | h0 <;> subst h0 <;> simp [e], hn⟩
      · rfl
    · rfl
  · rfl

/-- C79.  Setting the sequence number `n` (0 to 999999) in a pathname of six parts gives the pathname with
the F part `C:` + six digits + `|` + what stood behind the sequence number (or the whole F part), whatever the local
array and the memory before the new pathname hold. -/
theorem C79_set_partial (mem : Int → UInt8) (u : UInt8) (junk : Int) (ps : List Bytes) (hl : ps.length = 6) (hp : ∀ p ∈ ps, IsPart p) (f rest : Bytes)
    (hf : ps[5]? = some f) (hflen : f.length ≤ 128) (hrest : Behind f rest) (hrlen : rest.length ≤ 119) (n : Nat) (hn : n ≤ 999999) :
    zsetCollectionSequence (fun j => some (mem j)) u junk (join ps) n = some (some (join (ps.set 5 (67 :: 58 :: (six n ++ 124 :: rest))))) := by
  have h5 : ps[5]'(by omega) = f := by
    rw [List.getElem?_eq_getElem (by omega)] at hf
    exact Option.some.inj hf
  have hpf : IsPart f := by rw [← h5]; exact hp _ (List.getElem_mem _)
  have hlen : ¬ (join ps).length < 7 := by
    unfold join
    match ps, hl with
    | [a, b, c, d, e, g], _ => simp; omega
  obtain ⟨b', h1, h2⟩ := getPart_spec ps hl hp 5 (by omega) (List.replicate 129 u) (by simp) junk
  rw [h5, Nat.min_eq_left hflen] at h1
  rw [h5, List.take_of_length_le hflen] at h2
  have hc : cstr b' = f := cstr_holds h2 (fun c hc => (hpf c hc).2)
  have ht : b'.take f.length = f := by
    obtain ⟨r, hr⟩ := h2
    rw [hr]; simp
  have hpr : IsPart rest := by
    rcases hrest with ⟨s, hs, _⟩ | ⟨_, e⟩
    · intro c hc
      exact hpf c (by rcases hs with hs | hs <;> rw [hs] <;> simp [hc])
    · rw [e]; exact hpf
  have hrl : rest.length ≤ f.length := by
    rcases hrest with ⟨s, hs, _⟩ | ⟨_, e⟩
    · rcases hs with hs | hs <;> rw [hs] <;> simp <;> omega
    · rw [e]; exact Nat.le_refl _
  have hsel : (if collectionBar f ≠ 0 then f.drop (collectionBar f + 1) else f) = rest := by
    rcases hrest with ⟨s, hs⟩ | ⟨hno, e⟩
    · rw [bar_member hs, if_pos (by omega)]
      rcases hs.1 with e | e <;> rw [e] <;> simp [List.drop_append]
    · rw [bar_none hno, if_neg (by simp), e]
  have htext : sequenceText (n : Int) = 67 :: 58 :: (six n ++ [124]) := by
    unfold sequenceText
    rw [if_neg (by omega), show ((n : Int)).natAbs = n by omega, seq_digits n hn]
    rfl
  have hcat : stringCat 129 (sequenceText (n : Int)) rest (-1) = 67 :: 58 :: (six n ++ 124 :: rest) := by
    rw [htext]
    unfold stringCat
    rw [if_neg (by omega)]
    simp only [List.length_cons, List.length_append, six_length, List.length_nil]
    rw [if_pos (Or.inl (by omega)), List.take_of_length_le (by omega)]
    simp
  have hnew : IsPart (67 :: 58 :: (six n ++ 124 :: rest)) := by
    intro c hc
    simp only [List.mem_cons, List.mem_append] at hc
    rcases hc with e | e | e | e | e
    · rw [e]; decide
    · rw [e]; decide
    · have := six_chars n c e
      constructor
      · intro e; rw [e] at this; exact absurd this.1 (by decide)
      · intro e; rw [e] at this; exact absurd this.1 (by decide)
    · rw [e]; decide
    · exact hpr c e
  obtain ⟨d, e1, e2, e3⟩ := stringCopy_spec (List.replicate ((join ps).length + 10) 0) (join ps) (join ps).length (by omega) (Nat.le_refl _) (by simp)
  rw [List.take_length] at e3
  have hlen2 : (join (ps.set 5 (67 :: 58 :: (six n ++ 124 :: rest)))).length < d.length := by
    rw [e2, List.length_replicate]
    match ps, hl, h5 with
    | [a, b, c, d, e, g], _, h5 =>
      simp only [List.getElem_cons_succ, List.getElem_cons_zero] at h5
      subst h5
      simp [join, six_length]; omega
  obtain ⟨b2, g1, g2, g3⟩ := C22_set ps hl hp 5 (by omega) d e3 (67 :: 58 :: (six n ++ 124 :: rest)) junk mem hlen2
  have hp' : ∀ p ∈ ps.set 5 (67 :: 58 :: (six n ++ 124 :: rest)), IsPart p := by
    intro p hm
    rcases List.mem_or_eq_of_mem_set hm with h | h
    · exact hp p h
    · rw [h]; exact hnew
  unfold zsetCollectionSequence
  rw [if_neg hlen]
  rw [show ((6 : Int)) = ((5 : Nat) : Int) + 1 from rfl, h1, Option.bind_some, if_neg (by omega)]
  simp only [Int.toNat_natCast, ht, hc, hsel, hcat, e1, Option.bind_some]
  rw [g1, Option.map_some, cstr_holds g3 (join_nonzero _ hp')]

/-- C79.  Setting the sequence number of a member of a collection gives the other member: the number set
last counts. -/
theorem C79_again_partial (mem : Int → UInt8) (u : UInt8) (junk : Int) (ps : List Bytes) (hl : ps.length = 6) (hp : ∀ p ∈ ps, IsPart p) (f rest : Bytes)
    (hf : ps[5]? = some f) (hflen : f.length ≤ 128) (hrest : Behind f rest) (hrlen : rest.length ≤ 119) (n m : Nat) (hn : n ≤ 999999) (hm : m ≤ 999999) :
    ∃ p, zsetCollectionSequence (fun j => some (mem j)) u junk (join ps) n = some (some p) ∧
      zsetCollectionSequence (fun j => some (mem j)) u junk p m = zsetCollectionSequence (fun j => some (mem j)) u junk (join ps) m := by
  have hset := C79_set_partial mem u junk ps hl hp f rest hf hflen hrest hrlen
  refine ⟨_, hset n hn, ?_⟩
  have hpf : IsPart f := hp _ (List.mem_of_getElem? hf)
  have hpr : IsPart rest := by
    rcases hrest with ⟨s, hs, _⟩ | ⟨_, e⟩
    · intro c hc
      exact hpf c (by rcases hs with hs | hs <;> rw [hs] <;> simp [hc])
    · rw [e]; exact hpf
  rw [hset m hm, C79_set_partial mem u junk (ps.set 5 (67 :: 58 :: (six n ++ 124 :: rest))) (by simp [hl]) ?_ (67 :: 58 :: (six n ++ 124 :: rest)) rest
    (by rw [List.getElem?_set_self (by omega)]) (by simp [six_length]; omega) (Or.inl ⟨_, six_member n rest⟩) hrlen m hm, List.set_set]
  intro p hm
  rcases List.mem_or_eq_of_mem_set hm with h | h
  · exact hp p h
  · rw [h]
    intro c hc
    simp only [List.mem_cons, List.mem_append] at hc
    rcases hc with e | e | e | e | e
    · rw [e]; decide
    · rw [e]; decide
    · have := six_chars n c e
      constructor
      · intro e; rw [e] at this; exact absurd this.1 (by decide)
      · intro e; rw [e] at this; exact absurd this.1 (by decide)
    · rw [e]; decide
    · exact hpr c e

/-- C79.  Different sequence numbers give different pathnames. -/
theorem C79_apart_partial (mem : Int → UInt8) (u : UInt8) (junk : Int) (ps : List Bytes) (hl : ps.length = 6) (hp : ∀ p ∈ ps, IsPart p) (f rest : Bytes)
    (hf : ps[5]? = some f) (hflen : f.length ≤ 128) (hrest : Behind f rest) (hrlen : rest.length ≤ 119) (n m : Nat) (hn : n ≤ 999999) (hm : m ≤ 999999)
    (h : zsetCollectionSequence (fun j => some (mem j)) u junk (join ps) n = zsetCollectionSequence (fun j => some (mem j)) u junk (join ps) m) : n = m := by
  rw [C79_set_partial mem u junk ps hl hp f rest hf hflen hrest hrlen n hn, C79_set_partial mem u junk ps hl hp f rest hf hflen hrest hrlen m hm] at h
  injection h with h
  injection h with h
  match ps, hl with
  | [a, b, c, d, e, g], _ =>
    simp only [List.set_cons_succ, List.set_cons_zero, join, List.flatMap_cons, List.flatMap_nil, List.append_nil, List.cons_append, List.append_assoc,
      List.cons.injEq, true_and] at h
    exact six_inj hn hm (by simpa using h)

end Hec
