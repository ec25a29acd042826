import Verif.Proofs.EngineRename
import Verif.Proofs.Wild
/-! Renaming: the whole call. -/
namespace Hec
set_option linter.unusedSimpArgs false
set_option linter.unusedVariables false
open _root_.Spec (Op Store Step Steps run runs Set DropOne join renamed keepDates SixParts IsPart Holds)

variable {c : Cfg}

/-! ### Pathnames -/

theorem cutSlashes_part {p : Bytes} (hp : ∀ x ∈ p, x ≠ 47) (n : Nat) (rest : Bytes) :
    cutSlashes n (p ++ 47 :: rest) = if n = 1 then (p ++ [47], 0) else (p ++ 47 :: (cutSlashes (n - 1) rest).1, (cutSlashes (n - 1) rest).2) := by
  induction p with
  | nil =>
    simp only [List.nil_append, cutSlashes, if_true]
  | cons a p ih =>
    have ha : a ≠ 47 := hp a (by simp)
    have ih := ih (fun x hx => hp x (by simp [hx]))
    simp only [List.cons_append, cutSlashes, if_neg ha]
    rw [ih]
    split <;> rfl

theorem cutSlashes_parts (ps : List Bytes) (h0 : ps ≠ []) (hp : ∀ p ∈ ps, ∀ x ∈ p, x ≠ 47) :
    cutSlashes ps.length (ps.flatMap (· ++ [47])) = (ps.flatMap (· ++ [47]), 0) := by
  induction ps with
  | nil => exact absurd rfl h0
  | cons p ps ih =>
    rw [List.flatMap_cons, List.append_assoc, List.singleton_append, cutSlashes_part (hp p (by simp))]
    split
    · next h =>
      have : ps = [] := by simpa using h
      subst this; simp
    · next h =>
      have h1 : ps ≠ [] := by intro h2; subst h2; simp at h
      have := ih h1 (fun q hq => hp q (by simp [hq]))
      simp only [List.length_cons, Nat.add_sub_cancel, this]

theorem join_getLast (ps : List Bytes) : (join ps)[(join ps).length - 1]? = some 47 := by
  rw [← List.getLast?_eq_getElem?]
  unfold join
  rcases List.eq_nil_or_concat ps with h | ⟨l, a, h⟩
  · subst h; rfl
  · subst h
    simp [List.getLast?_cons, List.getLast?_append]

theorem mallocAndCopyPath_join {ps : List Bytes} (h : SixParts ps) : mallocAndCopyPath (join ps) = join ps := by
  have hpos : (join ps).length ≠ 0 := by unfold join; simp
  unfold mallocAndCopyPath
  rw [if_neg hpos]
  have ht : trimmedLen (join ps) = (join ps).length := by
    unfold trimmedLen
    rw [join_getLast, if_neg (by decide)]
  rw [ht, List.take_length]
  have : cutSlashes 7 (join ps) = (join ps, 0) := by
    have h1 : join ps = ([] : Bytes) ++ 47 :: ps.flatMap (· ++ [47]) := rfl
    rw [h1, cutSlashes_part (by simp), if_neg (by decide)]
    have h2 := cutSlashes_parts ps (by intro h0; rw [h0] at h; exact absurd h.1 (by decide)) (fun p hp x hx => (h.2 p hp x hx).1)
    rw [h.1] at h2
    rw [h2]
  rw [this]
  simp

theorem join_cut (ps : List Bytes) (k : Nat) : join ps = join (ps.take k) ++ (ps.drop k).flatMap (· ++ [47]) := by
  unfold join
  conv => lhs; rw [← List.take_append_drop k ps, List.flatMap_append]
  simp

theorem join_drop (ps : List Bytes) (k : Nat) (hk : k ≤ ps.length) : (join ps).drop (partStart ps k) = (ps.drop k).flatMap (· ++ [47]) := by
  conv => lhs; rw [join_cut ps k, ← join_take_length ps k hk]
  simp

theorem join_take (ps : List Bytes) (k : Nat) (hk : k ≤ ps.length) : (join ps).take (partStart ps k) = join (ps.take k) := by
  conv => lhs; rw [join_cut ps k, ← join_take_length ps k hk]
  simp

theorem partStart_diff (ps : List Bytes) (k m : Nat) : partStart ps (k + m) = partStart ps k + (((ps.drop k).take m).flatMap (· ++ [47])).length := by
  unfold partStart
  rw [List.take_add, List.flatMap_append, List.length_append]
  omega

theorem stringCat_eq {size : Nat} {dst src x rest : Bytes} (hs : src = x ++ rest) (h : dst.length + x.length < size) :
    stringCat size dst src x.length = dst ++ x := by
  unfold stringCat
  split
  · next h0 =>
    have : x = [] := List.eq_nil_of_length_eq_zero (by omega)
    rw [this]; simp
  · simp only
    rw [if_neg (by omega), hs]
    simp

theorem part_zero {ps : List Bytes} (h : ∀ p ∈ ps, IsPart p) : ∀ x ∈ join ps, x ≠ 0 := by
  intro x hx
  unfold join at hx
  rcases List.mem_cons.mp hx with h1 | h1
  · rw [h1]; decide
  · obtain ⟨p, hp, hx'⟩ := List.mem_flatMap.mp h1
    rcases List.mem_append.mp hx' with h2 | h2
    · exact (h p hp x h2).2
    · simp at h2; rw [h2]; decide

theorem keepDates_length (o n : List Bytes) (ho : o.length = 6) (hn : n.length = 6) :
    (keepDates o n).length = partStart n 3 + (((o.drop 3).take 2).flatMap (· ++ [47])).length + ((n.drop 5).flatMap (· ++ [47])).length := by
  have := join_take_length n 3 (by omega)
  unfold keepDates
  have h : join (n.take 3 ++ (o.drop 3).take 2 ++ n.drop 5) = join (n.take 3) ++ ((o.drop 3).take 2).flatMap (· ++ [47]) ++ (n.drop 5).flatMap (· ++ [47]) := by
    unfold join; simp
  rw [h, List.length_append, List.length_append, this]

theorem renamePath_join {o n : List Bytes} (ho : SixParts o) (hn : SixParts n) (junk : Int) (hlen : (keepDates o n).length ≤ (join n).length + 11) :
    renamePath (join o) (join n) junk = some (keepDates o n) := by
  have hso : ∀ p ∈ o, ∀ x ∈ p, x ≠ 47 := fun p hp x hx => (ho.2 p hp x hx).1
  have hsn : ∀ p ∈ n, ∀ x ∈ p, x ≠ 47 := fun p hp x hx => (hn.2 p hp x hx).1
  have hkl := keepDates_length o n ho.1 hn.1
  unfold renamePath
  simp only [positions_join n hn.1 hsn junk _ (show 3 ≤ 6 by omega), positions_join n hn.1 hsn junk _ (show 5 ≤ 6 by omega),
    positions_join n hn.1 hsn junk _ (show 6 ≤ 6 by omega), positions_join o ho.1 hso junk _ (show 3 ≤ 6 by omega),
    positions_join o ho.1 hso junk _ (show 5 ≤ 6 by omega), Option.getD_some, Int.toNat_natCast]
  have hn3 := join_take_length n 3 (by have := hn.1; omega)
  have hle : ∀ (ps : List Bytes) (k : Nat), k ≤ ps.length → partStart ps k ≤ (join ps).length := by
    intro ps k hk
    rw [← join_take_length ps k hk, join_cut ps k, List.length_append]; omega
  have a1 := hle n 3 (by have := hn.1; omega)
  have a2 := hle n 5 (by have := hn.1; omega)
  have a3 := hle o 3 (by have := ho.1; omega)
  have a4 : 1 ≤ partStart n 3 := by unfold partStart; omega
  obtain ⟨d, e1, e2, e3⟩ := stringCopy_spec (List.replicate ((join n).length + 12) 0) (join n) (partStart n 3) (by omega) a1 (by simp; omega)
  rw [e1, Option.bind_some, if_pos (by omega)]
  have hd : cstr d = join (n.take 3) := by
    rw [join_take n 3 (by have := hn.1; omega)] at e3
    exact cstr_holds e3 (part_zero fun p hp => hn.2 p (List.mem_of_mem_take hp))
  have b1 : partStart o 5 = _ := partStart_diff o 3 2
  have b2 : partStart n 6 = _ := partStart_diff n 5 1
  have b3 : (n.drop 5).take 1 = n.drop 5 := List.take_of_length_le (by rw [List.length_drop, hn.1]; omega)
  rw [b3] at b2
  have c1 : ((partStart o 5 : Nat) : Int) - (partStart o 3 : Nat) = ((((o.drop 3).take 2).flatMap (· ++ [47])).length : Nat) := by omega
  have c2 : ((partStart n 6 : Nat) : Int) - (partStart n 5 : Nat) = (((n.drop 5).flatMap (· ++ [47])).length : Nat) := by omega
  simp only [hd]
  rw [c1, c2, join_drop o 3 (by have := ho.1; omega), join_drop n 5 (by have := hn.1; omega)]
  rw [stringCat_eq (x := ((o.drop 3).take 2).flatMap (· ++ [47])) (rest := (((o.drop 3).drop 2)).flatMap (· ++ [47]))
    (by rw [← List.flatMap_append, List.take_append_drop]) (by rw [hn3]; omega)]
  rw [stringCat_eq (x := (n.drop 5).flatMap (· ++ [47])) (rest := []) (by simp) (by rw [List.length_append, hn3]; omega)]
  unfold keepDates join
  simp

/-- The type of data in the bin decides like that in the record. -/
theorem bin_type {x : Nat} {t : UInt32} (h : Spec.compatible (UInt32.ofNat (lo32 x)) t) : (100 ≤ lo32 x ∧ lo32 x < 200) ↔ (100 ≤ t ∧ t < 200) := by
  have hx : lo32 x < 2 ^ 32 := by unfold lo32; omega
  have key : (100 ≤ lo32 x ∧ lo32 x < 200) ↔ (100 ≤ UInt32.ofNat (lo32 x) ∧ UInt32.ofNat (lo32 x) < 200) := by
    rw [UInt32.le_iff_toNat_le, UInt32.lt_iff_toNat_lt, UInt32.toNat_ofNat_of_lt' (by simpa using hx)]
    exact Iff.rfl
  rw [key]
  rcases h with h | ⟨h1, h2⟩ | ⟨h1, h2⟩
  · rw [h]
  all_goals
    simp only [List.mem_cons, List.not_mem_nil, or_false] at h1 h2
    rcases h1 with h1 | h1 <;> rcases h2 with h2 | h2 <;> rw [h1, h2] <;> decide

/-! ### The record moves -/

theorem renamed_pos (t : UInt32) (o n : List Bytes) : 0 < (renamed t o n).length := by
  unfold renamed keepDates join; split <;> simp

theorem rename_found (hc : c.OK) {G : Ghost} {s : Eng} (I : Inv c G s) {o n : List Bytes} (ho : SixParts o) (hn : SixParts n) (v : RenEnv)
    (hlo : (join o).length ≤ 392) {R : Rec} (hR : (abs c G s.disk).live (join o) = some R)
    (hlf : (renamed R.dataType o n).length ≤ 392) (hw : nLongsB (renamed R.dataType o n).length ≤ nLongsB (join n).length)
    (hnone : Same (renamed R.dataType o n) (join o) ∨ (abs c G s.disk).live (renamed R.dataType o n) = none)
    (hsz : ∀ f ∈ centries (G.chain (c.tHash (renamed R.dataType o n))), f.st = REC_STATUS_DELETED → nLongsB f.path.length ≤ nLongsB (renamed R.dataType o n).length) :
    ∃ G' s' mid, renameFrom c s (join o) (join n) v = some (s', .ok) ∧ Inv c G' s' ∧ Safe c [join o, renamed R.dataType o n] G s s' ∧
      Set (abs c G s.disk).live mid (join o) none ∧ Set mid (abs c G' s'.disk).live (renamed R.dataType o n) (some R) ∧
      DropOne (abs c G s.disk).trash (abs c G' s'.disk).trash ∧ liveCount c G' = liveCount c G ∧ s'.hdr.numberRecords = s.hdr.numberRecords ∧
      (∀ h, ∀ f ∈ centries (G'.chain h), f.st = REC_STATUS_DELETED → ∃ e0 ∈ centries (G.chain h), e0.st = REC_STATUS_DELETED ∧ e0.path = f.path) ∧
      (Heads c G s.disk → Heads c G' s'.disk) ∧ (NoZeros c G → NoZeros c G') := by
  have hh := hc.tHash_lt _ hlo
  obtain ⟨A, B, e, T, hm, hl, hA, hB⟩ := live_entry hc I hlo hR
  obtain ⟨k, hk, hkf, hka, hat, hkill⟩ := kill_ok hc I hlo T hm hA
  have K := I.w.chains _ hh
  have hmem : e ∈ centries (G.chain (c.tHash (join o))) := by rw [T.ents]; simp
  have hge := live_not_gone hl
  have hcol := K.rcd e hmem hge
  have hoth : ∀ x ∈ A ++ B, ¬ gone x → x.infoAdd ≠ e.infoAdd := fun x hx hg => others_ne (e := e) K T.ents x hx hg hge
  obtain ⟨_, _, hat2, _, hat4, hat5, _, _⟩ := hat
  have hpl : e.path.length < 2 ^ 32 := by have := (K.ok e hmem).len; omega
  have hni : infoSize + hi32 (s.disk (k.pathBinAddress + 2)) = numberInfo e.path := by
    rw [hat2, hi32_pack hpl]
    rfl
  -- the new pathname
  have hdt : lowInt (s.disk (e.infoAdd + kinfoTypeVersion)) = R.dataType := by rw [← T.rcd.eq]; rfl
  have hpath : (if 100 ≤ lo32 (s.disk (k.pathBinAddress + 4)) ∧ lo32 (s.disk (k.pathBinAddress + 4)) < 200 then renamePath (join o) (join n) v.junk
      else some (mallocAndCopyPath (join n))) = some (renamed R.dataType o n) := by
    have ht := bin_type T.rcd.ok.tc
    rw [hdt] at ht
    rw [hat4]
    by_cases h : 100 ≤ R.dataType ∧ R.dataType < 200
    · rw [if_pos (ht.mpr h)]
      simp only [renamed, if_pos h] at hw ⊢
      refine renamePath_join ho hn v.junk ?_
      simp only [nLongsB] at hw
      omega
    · rw [if_neg (fun h1 => h (ht.mp h1))]
      simp only [renamed, if_neg h]
      rw [mallocAndCopyPath_join hn]
  let info := fun i => if i < numberInfo e.path then s.disk (e.infoAdd + i) else v.stale i
  let grown := decide (infoSize + nLongsB (join n).length > numberInfo e.path)
  have hali : Heads c G s.disk → info kinfoAliasesBinAddress = 0 := by
    intro H
    have : kinfoAliasesBinAddress < numberInfo e.path := by simp only [numberInfo, infoSize, kinfoAliasesBinAddress]; omega
    simp only [info, if_pos this]
    exact (H _ hh e hmem hge).alias
  obtain ⟨G1, D1, hhdr, hE1, hown, hroom, harr⟩ := hkill info grown
  generalize hs1 : markRenamed s k (numberInfo e.path) info grown = s1 at D1 hhdr hE1 harr
  have E1 : EditAt c (join o) G s G1 s1 A B [e] [{ e with st := REC_STATUS_RENAMED }] :=
    .of_done hc hh I D1 (by simpa using T.ents) (by simpa using hE1) hoth
  have hgone : gone { e with st := REC_STATUS_RENAMED } := rfl
  have hnot : ∀ q w, ¬ Same (join o) q → (∀ x ∈ [e], ¬ EMatch q w x) ∧ (∀ x ∈ [{ e with st := REC_STATUS_RENAMED }], ¬ EMatch q w x) := by
    intro q w hs
    constructor
    · intro x hx; simp at hx; subst hx; exact not_match_of_not_same T.same hs
    · intro x hx; simp at hx; subst hx; exact not_match_of_not_same T.same hs
  have hset1 : Set (abs c G s.disk).live (abs c G1 s1.disk).live (join o) none := by
    intro q
    rw [same_iff]
    refine ⟨fun hs => ?_, fun hs => E1.live hc (hnot q _ hs).1 (hnot q _ hs).2⟩
    have hql := same_len hs hlo
    simp only [abs, if_pos hql]
    rw [Option.map_eq_none_iff, List.find?_eq_none]
    intro x hx
    rw [← hc.tHash_same _ _ hs, hE1] at hx
    simp only [decide_eq_true_eq]
    intro hmm
    have hnv : ¬ dead x := EMatch.not_dead hmm
    simp only [List.mem_append, List.mem_cons] at hx
    rcases hx with h | h | h
    · exact hnv (Or.inr (hA x h (hs.trans hmm.1)))
    · rw [h] at hnv; exact hnv (Or.inr hgone)
    · exact hnv (hB x h (hs.trans hmm.1))
  have htr1 : (abs c G1 s1.disk).trash = (abs c G s.disk).trash := by
    funext q
    refine E1.trash hc ?_ ?_
    · intro x hx hm'; simp at hx; subst hx; exact live_not_deleted hl (EMatch_deleted.mp hm').2
    · intro x hx hm'; simp at hx; subst hx; exact EMatch.not_gone (Or.inr hm') hgone
  have hcnt1 : liveCount c G1 + 1 = liveCount c G := by
    have := E1.count hh
    rw [List.countP_cons_of_pos (by simpa using hl), List.countP_cons_of_neg (by
      simp only [decide_eq_true_eq]; intro h; exact live_not_gone h hgone)] at this
    simpa using this
  have hdel1 : ∀ h, ∀ f ∈ centries (G1.chain h), f.st = REC_STATUS_DELETED → ∃ e0 ∈ centries (G.chain h), e0.st = REC_STATUS_DELETED ∧ e0.path = f.path := by
    intro h f hf hd
    refine (E1.deleted (P := fun _ => False) (fun x hx hd => ?_) h f hf hd).elim id (fun h => h.elim)
    simp at hx; subst hx
    exact absurd (show REC_STATUS_RENAMED = REC_STATUS_DELETED from hd) (by decide)
  -- the words of the record have no owner
  have hnoent : ∀ x ∈ centries (G1.chain (c.tHash (join o))), ¬ gone x → x.infoAdd ≠ e.infoAdd := by
    intro x hx hg
    rw [hE1] at hx
    rcases List.mem_append.mp hx with h | h
    · exact hoth x (by simp [h]) hg
    · rcases List.mem_cons.mp h with h | h
      · rw [h] at hg; exact absurd hgone hg
      · exact hoth x (by simp [h]) hg
  have hheads1 : Heads c G s.disk → Heads c (looseGhost G1 (c.tHash (join o)) e.infoAdd) s1.disk := by
    intro H
    have := Heads.edit hc D1 (o := [e]) (n := [{ e with st := REC_STATUS_RENAMED }]) (by simpa using T.ents) (by simpa using hE1) hoth
      (by intro x hx hg; simp at hx; subst hx; exact absurd rfl hg) H
    exact this
  have I2 : Inv c (looseGhost G1 (c.tHash (join o)) e.infoAdd) s1 := loose_ok hc D1.inv hnoent
  have hfree : ∀ x, InRec (G.room e.infoAdd) e x → (looseGhost G1 (c.tHash (join o)) e.infoAdd).own x = .none ∧ x < s1.hdr.fileSize := by
    intro x hx
    have h1 := hcol.mine x hx
    refine ⟨loose_none (by rw [hown]; exact h1), ?_⟩
    rw [hhdr]
    refine Nat.lt_of_not_le fun h => ?_
    rw [I.h.beyond x h] at h1; cases h1
  have hlive1 : (abs c (looseGhost G1 (c.tHash (join o)) e.infoAdd) s1.disk).live (renamed R.dataType o n) = none := by
    show (abs c G1 s1.disk).live _ = none
    rcases hnone with h | h
    · exact (hset1 _).1 (same_iff.mpr h.symm)
    · by_cases hs : Hec.Spec.sameUpToCase (join o) (renamed R.dataType o n)
      · exact (hset1 _).1 hs
      · rw [(hset1 _).2 hs]; exact h
  obtain ⟨G', s', e', hrun, D2, hp', hst', hnr, hR', hH', A', B', o', k1, k2, k3, k4, k5⟩ := adopt_ok hc I2 (renamed_pos _ _ _) hlf
    (dead_entries hc I2 hlf hlive1)
    (fun f hf hs => by
      obtain ⟨e0, he0, hd0, hp0⟩ := hdel1 _ f hf hs.1
      have := hsz e0 he0 hd0
      rw [hp0] at this
      have := hs.2
      omega)
    T.rcd info (fun i hi => by
      have : i < numberInfo e.path := by simp only [numberInfo, infoSize]; omega
      simp only [info, if_pos this])
    (fun i hi => ⟨(hfree _ (InRec.arr hi)).1, (hfree _ (InRec.arr hi)).2, harr i hi⟩)
    (infoSize + nLongsB (join n).length) (s.disk (k.pathBinAddress + 5)) grown (by simp only [numberInfo]; omega)
    (fun hg => by
      have hg : ¬ (infoSize + nLongsB (join n).length > numberInfo e.path) := by simpa [grown] using hg
      refine ⟨fun i hi => hfree _ (InRec.info (by omega)), ?_⟩
      have := hcol.apart
      omega)
  obtain ⟨m1, m2, m3, m4, m5, m6⟩ := new_entry hc I2 hlf D2 hp' hst' hR' k1 k2 k3 k4 k5
  have hh2 := hc.tHash_lt _ hlf
  refine ⟨G', s', (abs c G1 s1.disk).live, ?_, D2.inv, ?_, hset1, m1, ?_, ?_, ?_, ?_, fun H => m5 (hH' (hali H)) (hheads1 H),
    fun H => m6.1 (E1.noZeros (by intro x hx; simp at hx; subst hx; exact (by decide : REC_STATUS_RENAMED ≠ 0)) H)⟩
  · unfold renameFrom
    simp only [hk, Option.bind_some, hkf, Bool.true_eq_false, if_false, hpath, hni, hka]
    rw [show markRenamed s k (numberInfo e.path) (fun i => if i < numberInfo e.path then s.disk (e.infoAdd + i) else v.stale i)
      (decide (infoSize + nLongsB (join n).length > numberInfo e.path)) = s1 from hs1]
    rw [show adoptRecord c s1 (renamed R.dataType o n) (fun i => if i < numberInfo e.path then s.disk (e.infoAdd + i) else v.stale i) e.infoAdd
      (infoSize + nLongsB (join n).length) (s.disk (k.pathBinAddress + 5)) (decide (infoSize + nLongsB (join n).length > numberInfo e.path)) = some s' from hrun]
    rfl
  · have s1' : Safe c [join o] G s s1 := .of_done hc I hlo D1 (mine_same K T hge)
    have s2' : Safe c [renamed R.dataType o n] (looseGhost G1 (c.tHash (join o)) e.infoAdd) s1 s' :=
      .of_done hc I2 hlf D2 (fun x hx hg h => absurd h (I2.w.info_ne hc hh2 hx hg))
    exact s1'.trans s2' (by rw [hhdr]; exact Nat.le_refl _) (fun q hq => (hset1 q).2 (fun h => hq _ (by simp) (same_iff.mp h)))
  · rw [← htr1]; exact m2
  · have : liveCount c (looseGhost G1 (c.tHash (join o)) e.infoAdd) = liveCount c G1 := rfl
    omega
  · rw [hnr, hhdr]
  · intro h f hf hd
    obtain ⟨e0, he0, hd0, hp0⟩ := m4 h f hf hd
    obtain ⟨e1, he1, hd1, hp1⟩ := hdel1 h e0 he0 hd0
    exact ⟨e1, he1, hd1, hp1.trans hp0⟩

/-! ### The call -/

theorem delete_bins {s s' : Eng} {p : Bytes} {u : Bool} {res : Res} (h : zdeleteInternal c s p u = some (s', res)) : s'.hdr.totalBins = s.hdr.totalBins := by
  unfold zdeleteInternal at h
  simp only [Option.map_eq_some_iff] at h
  obtain ⟨⟨k, o⟩, _, h⟩ := h
  cases o with
  | none =>
    simp only [Prod.mk.injEq] at h
    rw [← h.1]; rfl
  | some info =>
    simp only [Prod.mk.injEq] at h
    rw [← h.1]
    cases u <;> rfl

theorem rename_rest (hc : c.OK) {G : Ghost} {s : Eng} (I : Inv c G s) {o n : List Bytes} (ho : SixParts o) (hn : SixParts n) (v : RenEnv)
    (hlo : (join o).length ≤ 392)
    (hg : ∀ R, (abs c G s.disk).live (join o) = some R →
      (renamed R.dataType o n).length ≤ 392 ∧ nLongsB (renamed R.dataType o n).length ≤ nLongsB (join n).length ∧
      (Same (renamed R.dataType o n) (join o) ∨ (abs c G s.disk).live (renamed R.dataType o n) = none) ∧
      (∀ f ∈ centries (G.chain (c.tHash (renamed R.dataType o n))), f.st = REC_STATUS_DELETED → nLongsB f.path.length ≤ nLongsB (renamed R.dataType o n).length)) :
    ∃ G' s' res, renameFrom c s (join o) (join n) v = some (s', res) ∧ Inv c G' s' ∧ Safe c [join o, join n, keepDates o n] G s s' ∧
      (res = .ok ∧ (∃ R mid, (abs c G s.disk).live (join o) = some R ∧ Set (abs c G s.disk).live mid (join o) none ∧
          Set mid (abs c G' s'.disk).live (renamed R.dataType o n) (some R) ∧ DropOne (abs c G s.disk).trash (abs c G' s'.disk).trash) ∨
        res = .notFound ∧ (abs c G s.disk).live (join o) = none ∧ abs c G' s'.disk = abs c G s.disk) ∧
      liveCount c G' = liveCount c G ∧ s'.hdr.numberRecords = s.hdr.numberRecords ∧
      (∀ h, ∀ f ∈ centries (G'.chain h), f.st = REC_STATUS_DELETED → ∃ e0 ∈ centries (G.chain h), e0.st = REC_STATUS_DELETED ∧ e0.path = f.path) ∧
      (Heads c G s.disk → Heads c G' s'.disk) ∧ (NoZeros c G → NoZeros c G') := by
  cases hR : (abs c G s.disk).live (join o) with
  | some R =>
    obtain ⟨h1, h2, h3, h4⟩ := hg R hR
    obtain ⟨G', s', mid, k1, k2, k3, k4, k5, k6, k7, k8, k9, k10⟩ := rename_found hc I ho hn v hlo hR h1 h2 h3 h4
    refine ⟨G', s', .ok, k1, k2, k3.mono ?_, Or.inl ⟨rfl, R, mid, rfl, k4, k5, k6⟩, k7, k8, k9, k10⟩
    intro p hp
    simp only [List.mem_cons, List.not_mem_nil, or_false] at hp ⊢
    rcases hp with h | h
    · exact Or.inl h
    · right
      unfold renamed at h
      split at h
      · exact Or.inr h
      · exact Or.inl h
  | none =>
    have hh := hc.tHash_lt _ hlo
    have hdead := dead_entries hc I hlo hR
    have hlen' : (G.chain (c.tHash (join o))).length ≤ s.hdr.totalBins + 1 := by have := I.h.len _ hh; omega
    have hchk := zcheck_none hc (hx := c.tHash (join o)) (ax := 0) I.w.idle hh (I.last _ hh) hlen'
      (fun x hx hm => EMatch.not_dead hm (hdead x hx hm.1))
    refine ⟨G, s, .notFound, ?_, I, ?_, Or.inr ⟨rfl, rfl, rfl⟩, rfl, rfl, fun h f hf hd => ⟨f, hf, hd, rfl⟩, id, id⟩
    · unfold renameFrom
      simp only [hchk, Option.bind_some, if_true]
    · refine ⟨[], by simp, by simp [applyLog], fun n h l q R hb hq _ hz => ?_⟩
      rw [List.take_nil]
      have := I.h.len
      obtain ⟨A, B, e, T, hm, hl, hA, hB⟩ := live_entry hc I hq hz
      have hqh := hc.tHash_lt q hq
      have := zread_found hc (s := ⟨s.disk, h, l⟩) (q := q) I.w hqh (by have := I.h.len _ hqh; simp only; omega) T.ents hm
        (fun x hx hmm => EMatch.not_gone (Or.inl hmm) (hA x hx hmm.1)) T.rcd.ok.hash
      rw [show applyLog s.disk [] = s.disk from rfl, this]
      exact congrArg (fun x => some (some x)) T.rcd.eq

theorem zcheck_found (hc : c.OK) {G : Ghost} {s : Eng} (I : Inv c G s) {p : Bytes} (hlen : p.length ≤ 392) :
    ∃ k, zcheck c s p REC_STATUS_VALID = some k ∧ k.found = ((abs c G s.disk).live p).isSome := by
  have hh := hc.tHash_lt _ hlen
  cases hR : (abs c G s.disk).live p with
  | some R =>
    obtain ⟨A, B, e, T, hm, hl, hA, hB⟩ := live_entry hc I hlen hR
    obtain ⟨k, hk, hkf, _⟩ := kill_ok hc I hlen T hm hA
    exact ⟨k, hk, hkf⟩
  | none =>
    have hdead := dead_entries hc I hlen hR
    have hlen' : (G.chain (c.tHash p)).length ≤ s.hdr.totalBins + 1 := by have := I.h.len _ hh; omega
    exact ⟨_, zcheck_none hc (hx := c.tHash p) (ax := 0) I.w.idle hh (I.last _ hh) hlen'
      (fun x hx hm => EMatch.not_dead hm (hdead x hx hm.1)), rfl⟩

theorem not_case_only {p q : Bytes} (h : ¬ Same p q) : ¬ (p.length = q.length ∧ zstringCompare p q p.length = true) := by
  rintro ⟨h1, h2⟩
  exact h ((compare_iff p q h1.symm).mp h2)

theorem live_cong (hc : c.OK) {G : Ghost} {d : Disk} {p q : Bytes} (hs : Same p q) : (abs c G d).live q = (abs c G d).live p := by
  have hl := hs.length
  simp only [abs, hl]
  split
  · rw [hc.tHash_same _ _ hs]
    have : (fun e : BinEnt => decide (EMatch q REC_STATUS_VALID e)) = fun e => decide (EMatch p REC_STATUS_VALID e) := by
      funext x
      rw [decide_eq_decide]
      exact ⟨fun h => ⟨hs.trans h.1, h.2⟩, fun h => ⟨hs.symm.trans h.1, h.2⟩⟩
    rw [this]
  · rfl

theorem step_rename (hc : c.OK) {G : Ghost} {s : Eng} (I : Inv c G s) {o n : List Bytes} (v : RenEnv) (hg : Guard c G s (.rename o n v)) :
    ∃ G' s' res, run c s (.rename o n v) = some (s', res) ∧ Stepped c (.rename o n v) G s res G' s' := by
  obtain ⟨ho, hn, hlo, hln, hne, hg⟩ := hg
  have hrun : run c s (.rename o n v) = zrenameTo c s (join o) (join n) v := by
    show zrename _ _ _ _ _ = _
    unfold zrename
    rw [if_neg (not_case_only hne)]
  rw [hrun]
  obtain ⟨k, hk, hkf⟩ := zcheck_found hc I hln
  cases hT : (abs c G s.disk).live (join n) with
  | none =>
    rw [hT] at hkf
    have hkf : k.found = false := hkf
    obtain ⟨G', s', res, k1, k2, k3, k4, k5, k6, k7, k8, k9⟩ := rename_rest hc I ho hn v hlo (fun R hR => by
      obtain ⟨h1, h2, h3, h4, _⟩ := hg R hR
      refine ⟨h1, h2, ?_, h4⟩
      rcases h3 with h | h | h
      · exact Or.inl h
      · right
        rw [live_cong hc h.symm]; exact hT
      · exact Or.inr h)
    refine ⟨G', s', res, ?_, ⟨?_, k2, k3, ?_, k8, fun h _ f hf hd => Or.inl (k7 h f hf hd), fun _ => k9, fun h => absurd rfl (h o n v)⟩⟩
    · unfold zrenameTo
      rw [hk, Option.bind_some]
      simp only [hkf, Bool.false_eq_true, if_false]
      exact k1
    · rcases k4 with ⟨rfl, R, mid, a, b, d, e⟩ | ⟨rfl, a, b⟩
      · exact .rename (.deleteMissing hT) a b d e
      · rw [b]; exact .renameMissing (.deleteMissing hT) a
    · intro h; rw [k6, h, k5]
  | some T =>
    rw [hT] at hkf
    have hkf : k.found = true := hkf
    obtain ⟨G1, s1, res1, hr1, S1⟩ := step_delete hc I hln
    have hb := delete_bins hr1
    have hset : res1 = .ok ∧ Set (abs c G s.disk).live (abs c G1 s1.disk).live (join n) none := by
      have h := S1.step
      generalize abs c G1 s1.disk = st1 at h ⊢
      generalize abs c G s.disk = st at h hT ⊢
      cases h with
      | delete _ h2 _ => exact ⟨rfl, h2⟩
      | deleteMissing h => rw [hT] at h; cases h
    obtain ⟨rfl, hset⟩ := hset
    have hother : ∀ q, ¬ Same (join n) q → (abs c G1 s1.disk).live q = (abs c G s.disk).live q :=
      fun q hq => (hset q).2 (fun h => hq (same_iff.mp h))
    obtain ⟨G', s', res, k1, k2, k3, k4, k5, k6, k7, k8, k9⟩ := rename_rest hc S1.inv ho hn v hlo (fun R hR => by
      rw [hother _ (fun h => hne h.symm)] at hR
      obtain ⟨h1, h2, h3, h4, h5⟩ := hg R hR
      refine ⟨h1, h2, ?_, ?_⟩
      · rcases h3 with h | h | h
        · exact Or.inl h
        · exact Or.inr ((hset _).1 (same_iff.mpr h.symm))
        · by_cases hs : Same (join n) (renamed R.dataType o n)
          · exact Or.inr ((hset _).1 (same_iff.mpr hs))
          · exact Or.inr (by rw [hother _ hs]; exact h)
      · intro f hf hd
        rcases S1.trash _ (hc.tHash_lt _ h1) f hf hd with ⟨e0, he0, hd0, hp0⟩ | ⟨p, hp, hs⟩
        · rw [← hp0]; exact h4 e0 he0 hd0
        · have hp : p = join n := by simpa [_root_.Spec.Op.deletes] using hp
          subst hp
          rw [← hs.length]
          rcases h5 with h | h
          · rw [hT] at h; cases h
          · exact h)
    refine ⟨G', s', res, ?_, ⟨?_, k2, ?_, ?_, fun H => k8 (S1.heads H), ?_, fun _ H => k9 (S1.prim (by intro p h; cases h) H), fun h => absurd rfl (h o n v)⟩⟩
    · unfold zrenameTo
      rw [hk, Option.bind_some]
      simp only [hkf, if_true]
      rw [show zdeleteInternal c s (join n) false = some (s1, .ok) from hr1, Option.bind_some]
      simp only [if_true]
      exact k1
    · rcases k4 with ⟨rfl, R, mid, a, b, d, e⟩ | ⟨rfl, a, b⟩
      · exact .rename S1.step a b d e
      · rw [b]; exact .renameMissing S1.step a
    · refine (S1.safe.trans k3 (by omega) (fun q hq => hother q (hq _ (by simp [_root_.Spec.Op.paths])))).mono ?_
      intro p hp
      simp only [_root_.Spec.Op.paths, List.cons_append, List.nil_append, List.mem_cons, List.not_mem_nil, or_false] at hp ⊢
      rcases hp with h | h | h | h
      · exact Or.inr (Or.inl h)
      · exact Or.inl h
      · exact Or.inr (Or.inl h)
      · exact Or.inr (Or.inr h)
    · intro h; rw [k6, S1.count h, k5]
    · intro h hh f hf hd
      obtain ⟨e0, he0, hd0, hp0⟩ := k7 h f hf hd
      rcases S1.trash h hh e0 he0 hd0 with ⟨e1, he1, hd1, hp1⟩ | ⟨p, hp, hs⟩
      · exact Or.inl ⟨e1, he1, hd1, hp1.trans hp0⟩
      · exact Or.inr ⟨p, hp, by rw [← hp0]; exact hs⟩

/-- Every call, in every state that satisfies the invariant. -/
theorem step_ok (hc : c.OK) {G : Ghost} {s : Eng} (I : Inv c G s) (op : Op) (hg : Guard c G s op) :
    ∃ G' s' res, run c s op = some (s', res) ∧ Stepped c op G s res G' s' := by
  cases op with
  | write r =>
    cases h : (abs c G s.disk).live r.path with
    | none => exact step_write_new hc I hg h
    | some R => exact step_overwrite hc I hg h
  | delete p => exact step_delete hc I hg
  | undelete p => exact step_undelete hc I hg.1 hg.2
  | rename o n v => exact step_rename hc I v hg

end Hec
