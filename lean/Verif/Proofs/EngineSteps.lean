import Verif.Proofs.EngineInv
/-! Single disk writes preserve the invariant; what the searches find under the invariant. -/
namespace Hec
set_option linter.unusedSimpArgs false
set_option linter.unusedVariables false

theorem split_centries {C : Chain} {A B : List BinEnt} {e : BinEnt} (h : centries C = A ++ e :: B) :
    ∃ C1 b pre post C2, C = C1 ++ (b, pre ++ e :: post) :: C2 ∧ A = centries C1 ++ pre ∧ B = post ++ centries C2 := by
  induction C generalizing A with
  | nil => simp at h
  | cons be C ih =>
    obtain ⟨b, es⟩ := be
    simp only [centries_cons] at h
    rcases List.append_eq_append_iff.mp h with ⟨A', h1, h2⟩ | ⟨B', h1, h2⟩
    · obtain ⟨C1, b1, pre, post, C2, hC, hA, hB⟩ := ih h2
      exact ⟨(b, es) :: C1, b1, pre, post, C2, by simp [hC], by simp [h1, hA], hB⟩
    · cases B' with
      | nil =>
        simp at h1 h2
        obtain ⟨C1, b1, pre, post, C2, hC, hA, hB⟩ := ih (A := []) (by simpa using h2.symm)
        refine ⟨(b, es) :: C1, b1, pre, post, C2, by simp [hC], ?_, hB⟩
        simp only [centries_cons, List.append_assoc, ← hA, List.append_nil]; exact h1.symm
      | cons x B' =>
        simp only [List.cons_append, List.cons.injEq] at h2
        obtain ⟨rfl, h2⟩ := h2
        exact ⟨[], b, A, B', C, by simp [h1], by simp, h2⟩

theorem ChainAt_setbin {c : Cfg} (hc : c.OK) {d d' : Disk} {last b : Nat} {es es' : List BinEnt} {C2 : Chain} (C1 : Chain) : ∀ {a : Nat},
    (∀ be ∈ C1 ++ C2, ∀ i, i < c.isize → d' (be.1 + i) = d (be.1 + i)) →
    d' (b + (c.isize - 1)) = d (b + (c.isize - 1)) → BinAt c d' b es' →
    ChainAt c d a (C1 ++ (b, es) :: C2) last → ChainAt c d' a (C1 ++ (b, es') :: C2) last := by
  have hi := hc.isize
  induction C1 with
  | nil =>
    intro a hd hl hb hat
    obtain ⟨h1, h2, h3, h4⟩ := hat
    refine ⟨h1, h2, hb, ?_⟩
    rw [hl]
    exact ChainAt_congr hc C2 (fun be h => hd be (by simpa using h)) h4
  | cons be C1 ih =>
    obtain ⟨b1, es1⟩ := be
    intro a hd hl hb hat
    obtain ⟨h1, h2, h3, h4⟩ := hat
    have hb1 := hd (b1, es1) (by simp)
    refine ⟨h1, h2, BinAt_congr (by omega) (fun i hi' => hb1 i (by omega)) h3, ?_⟩
    rw [hb1 _ (by omega)]
    exact ih (fun be h => hd be (by simp only [List.cons_append, List.mem_cons]; exact Or.inr h)) hl hb h4

theorem ChainAt_snoc {c : Cfg} {d : Disk} {last nb : Nat} {es : List BinEnt} (C : Chain) : ∀ {a : Nat},
    ChainAt c d a C nb → nb ≠ 0 → BinAt c d nb es → d (nb + (c.isize - 1)) = last →
    ChainAt c d a (C ++ [(nb, es)]) last := by
  induction C with
  | nil => intro a h h0 hb hl; exact ⟨h, h0, hb, hl⟩
  | cons be C ih =>
    obtain ⟨b, es1⟩ := be
    intro a h h0 hb hl
    obtain ⟨h1, h2, h3, h4⟩ := h
    exact ⟨h1, h2, h3, ih h4 h0 hb hl⟩

theorem lastAddr_cons {be : Nat × List BinEnt} {C : Chain} (h : C ≠ []) : lastAddr (be :: C) = lastAddr C := by
  cases C with
  | nil => exact absurd rfl h
  | cons x C => simp [lastAddr, List.getLast?_cons_cons]

theorem lastAddr_mem {C : Chain} (h : C ≠ []) : ∃ es, (lastAddr C, es) ∈ C := by
  have := List.getLast_mem h
  refine ⟨(C.getLast h).2, ?_⟩
  have h2 : lastAddr C = (C.getLast h).1 := by simp [lastAddr, List.getLast?_eq_some_getLast h]
  rw [h2]; exact this

/-- The link word of the last bin is changed. -/
theorem ChainAt_relink {c : Cfg} (hc : c.OK) {d d' : Disk} {last v : Nat} (C : Chain) : ∀ {a : Nat}, C ≠ [] →
    (C.map (·.1)).Nodup →
    (∀ be ∈ C, ∀ i, i < c.isize → be.1 + i ≠ lastAddr C + (c.isize - 1) → d' (be.1 + i) = d (be.1 + i)) →
    (∀ be ∈ C, ∀ be' ∈ C, ∀ i j, i < c.isize → j < c.isize → be.1 + i = be'.1 + j → be.1 = be'.1) →
    d' (lastAddr C + (c.isize - 1)) = v →
    ChainAt c d a C last → ChainAt c d' a C v := by
  have hi := hc.isize
  induction C with
  | nil => intro a h; exact absurd rfl h
  | cons be C ih =>
    obtain ⟨b, es⟩ := be
    intro a _ hn hd hdis hv hat
    obtain ⟨h1, h2, h3, h4⟩ := hat
    cases C with
    | nil =>
      have hl : lastAddr [(b, es)] = b := rfl
      rw [hl] at hd hv
      refine ⟨h1, h2, BinAt_congr (by omega) (fun i hi' => hd (b, es) (by simp) i (by omega) (by simp only; omega)) h3, ?_⟩
      exact hv
    | cons be2 C2 =>
      have hl : lastAddr ((b, es) :: be2 :: C2) = lastAddr (be2 :: C2) := lastAddr_cons (by simp)
      rw [hl] at hd hv
      obtain ⟨ls, hls⟩ := lastAddr_mem (C := be2 :: C2) (by simp)
      have hne : ∀ i, i < c.isize → b + i ≠ lastAddr (be2 :: C2) + (c.isize - 1) := by
        intro i hi' he
        have := hdis (b, es) (by simp) (_, ls) (by simp only [List.mem_cons] at hls ⊢; exact Or.inr hls) i (c.isize - 1) hi' (by omega) he
        simp only [List.map_cons, List.nodup_cons] at hn
        apply hn.1
        simp only at this
        rw [this]
        exact List.mem_map.mpr ⟨_, hls, rfl⟩
      refine ⟨h1, h2, BinAt_congr (by omega) (fun i hi' => hd (b, es) (by simp) i (by omega) (hne i (by omega))) h3, ?_⟩
      rw [hd (b, es) (by simp) (c.isize - 1) (by omega) (hne _ (by omega))]
      apply ih (by simp) (List.nodup_cons.mp hn).2
        (fun be h => hd be (by simp only [List.mem_cons] at h ⊢; exact Or.inr h))
        (fun be h be' h' => hdis be (by simp only [List.mem_cons] at h ⊢; exact Or.inr h) be' (by simp only [List.mem_cons] at h' ⊢; exact Or.inr h')) hv h4

/-- One entry of a chain is put in or replaced. -/
theorem ChainOK.edit {c : Cfg} (hc : c.OK) {own own' : Nat → Own} {room : Nat → Ext} {d d' : Disk}
    {h last last' ax ax' : Nat} {C C' : Chain} {A B : List BinEnt} {e' : BinEnt}
    (k : ChainOK c own room d h last ax C)
    (hs : (A ++ B).Sublist (centries C)) (hC' : centries C' = A ++ e' :: B)
    (hat : ChainAt c d' (d' (c.hashStart + h)) C' last')
    (hbins : ∀ be ∈ C', ∀ i, i < c.isize → own' (be.1 + i) = .bin h be.1)
    (hnodup : (C'.map (·.1)).Nodup)
    (ho : ∀ x, own' x = own x ∨ (own x = .free ∧ ∃ b, own' x = .bin h b))
    (hd : ∀ x, d' x = d x ∨ own x = .tab h ∨ ∃ b, own' x = .bin h b)
    (hok : EntryOK c h e')
    (hrcd : ¬ gone e' → Owned own h (room e'.infoAdd) e')
    (hnew : ∀ f ∈ A ++ B, ¬ gone f → ¬ gone e' → f.infoAdd ≠ e'.infoAdd)
    (hordA : ∀ f ∈ A, ¬ gone f → Same f.path e'.path → dead e')
    (hordB : ∀ f ∈ B, ¬ gone e' → Same e'.path f.path → dead f)
    (hrec : ¬ gone e' → e'.infoAdd ≠ ax' → RecOK c d' (room e'.infoAdd) e')
    (hax : ax = ax' ∨ ∀ f ∈ A ++ B, ¬ gone f → f.infoAdd ≠ ax) :
    ChainOK c own' room d' h last' ax' C' := by
  have ho1 : ∀ x, own x ≠ .free → own' x = own x := by
    intro x h; rcases ho x with h' | ⟨h', _⟩
    · exact h'
    · exact absurd h' h
  have hmem : ∀ f ∈ centries C', f = e' ∨ f ∈ A ++ B := by
    intro f hf
    rw [hC'] at hf
    simp only [List.mem_append, List.mem_cons] at hf ⊢
    rcases hf with h | h | h
    · exact Or.inr (Or.inl h)
    · exact Or.inl h
    · exact Or.inr (Or.inr h)
  have hrc : ∀ f ∈ centries C', ¬ gone f → Owned own h (room f.infoAdd) f := by
    intro f hf hg
    rcases hmem f hf with rfl | hf
    · exact hrcd hg
    · exact k.rcd f (hs.subset hf) hg
  refine ⟨hat, hbins, ?_, ?_, hnodup, ?_, ?_, ?_⟩
  · intro f hf
    rcases hmem f hf with rfl | hf
    · exact hok
    · exact k.ok f (hs.subset hf)
  · intro f hf hg
    refine ⟨fun x hx => ?_, (hrc f hf hg).apart⟩
    have := (hrc f hf hg).mine x hx
    rw [ho1 _ (by rw [this]; intro h; cases h), this]
  · have h1 := k.nodupR.sublist hs
    rw [hC']
    rw [List.pairwise_append] at h1 ⊢
    refine ⟨h1.1, ?_, ?_⟩
    · rw [List.pairwise_cons]
      exact ⟨fun f hf g1 g2 h => hnew f (by simp [hf]) g2 g1 h.symm, h1.2.1⟩
    · intro x hx y hy
      rcases List.mem_cons.mp hy with rfl | hy
      · exact hnew x (by simp [hx])
      · exact h1.2.2 x hx y hy
  · have h1 := k.order.sublist hs
    rw [hC']
    rw [List.pairwise_append] at h1 ⊢
    refine ⟨h1.1, ?_, ?_⟩
    · rw [List.pairwise_cons]
      exact ⟨fun f hf g1 => hordB f hf g1, h1.2.1⟩
    · intro x hx y hy
      rcases List.mem_cons.mp hy with rfl | hy
      · exact hordA x hx
      · exact h1.2.2 x hx y hy
  · intro f hf hg hne
    rcases hmem f hf with rfl | hf'
    · exact hrec hg hne
    · have hne' : f.infoAdd ≠ ax := by
        rcases hax with h | h
        · rw [h]; exact hne
        · exact h f hf' hg
      refine RecOK_congr rfl rfl rfl rfl (fun i hi => ?_) (k.recs f (hs.subset hf') hg hne')
      have h1 := (hrc f hf hg).info hi
      rcases hd (f.infoAdd + i) with h | h | ⟨b, h⟩
      · exact h
      · rw [h] at h1; cases h1
      · rw [ho1 _ (by rw [h1]; intro h; cases h), h1] at h; cases h

theorem ChainOK.nodupB_at {c : Cfg} (hc : c.OK) {own : Nat → Own} {room : Nat → Ext} {d : Disk}
    {h last ax : Nat} {C : Chain} (k : ChainOK c own room d h last ax C) :
    ∀ be ∈ C, ∀ be' ∈ C, ∀ i j, i < c.isize → j < c.isize → be.1 + i = be'.1 + j → be.1 = be'.1 := by
  intro be hbe be' hbe' i j hi hj he
  have h1 := k.bins be hbe i hi
  have h2 := k.bins be' hbe' j hj
  rw [he, h2] at h1
  injection h1 with _ h3
  exact h3.symm

/-- Words of the other bins are not those of bin `b`. -/
theorem other_bins {c : Cfg} (hc : c.OK) {own : Nat → Own} {room : Nat → Ext} {d : Disk}
    {h last ax b : Nat} {es : List BinEnt} {C1 C2 : Chain} (k : ChainOK c own room d h last ax (C1 ++ (b, es) :: C2)) :
    ∀ be ∈ C1 ++ C2, ∀ i, i < c.isize → ∀ j, j < c.isize → be.1 + i ≠ b + j := by
  intro be hbe i hi j hj he
  have hn := k.nodupB
  have hbe' : be ∈ C1 ++ (b, es) :: C2 := by simp at hbe ⊢; rcases hbe with h | h <;> simp [h]
  have := k.nodupB_at hc be hbe' (b, es) (by simp) i j hi hj he
  simp only at this
  simp only [List.map_append, List.map_cons] at hn
  rw [List.perm_middle.nodup_iff, List.nodup_cons] at hn
  apply hn.1
  rw [← List.map_append, ← this]
  exact List.mem_map_of_mem (f := (·.1)) hbe

/-- Same own, the chain keeps its bins. -/
theorem Blk.rechain {c : Cfg} {G : Ghost} {d d' : Disk} {hx last' : Nat} {C' : Chain} (B : Blk c G d)
    (hC : C'.map (·.1) = (G.chain hx).map (·.1)) (hf : hx < c.maxHash → ∀ be ∈ C', be.2 ≠ [])
    (hd : ∀ x, d' x = d x ∨ G.own x = .tab hx ∨ ∃ b, G.own x = .bin hx b) :
    Blk c { G with chain := (fun h => if h = hx then C' else G.chain h), last := (fun h => if h = hx then last' else G.last h) } d' := by
  refine B.frame rfl rfl (fun _ _ => rfl) (fun x h => ⟨by simp [h], by simp [h]⟩) ?_ ?_ ?_
  · intro h
    by_cases hh : h = hx
    · subst hh; simpa using hC
    · simp [hh]
  · intro h hh be hbe
    by_cases hhx : h = hx
    · subst hhx
      simp only [if_true] at hbe
      exact hf hh be hbe
    · simp only [if_neg hhx] at hbe
      exact B.full h hh be hbe
  · intro x hx'
    rcases hd x with h | h | ⟨b, h⟩
    · exact h
    · rw [hx'] at h; cases h
    · rw [hx'] at h; cases h

/-- BinEnt `e` of a bin is overwritten by `e'` of the same size. -/
theorem InvW.replace {c : Cfg} (hc : c.OK) {G : Ghost} {d d' : Disk} {hx ax ax' b : Nat} (I : InvW c G d hx ax)
    (hh : hx < c.maxHash) {C1 C2 : Chain} {pre post : List BinEnt} {e e' : BinEnt}
    (hC : G.chain hx = C1 ++ (b, pre ++ e :: post) :: C2) (hsz : e'.size = e.size)
    (hat : EntryAt c d' (b + esize pre) e')
    (hd : ∀ x, d' x = d x ∨ (b + esize pre ≤ x ∧ x < b + esize pre + e.size))
    (hok : EntryOK c hx e')
    (hrcd : ¬ gone e' → Owned G.own hx (G.room e'.infoAdd) e')
    (hnew : ∀ f ∈ (centries C1 ++ pre) ++ (post ++ centries C2), ¬ gone f → ¬ gone e' → f.infoAdd ≠ e'.infoAdd)
    (hordA : ∀ f ∈ centries C1 ++ pre, ¬ gone f → Same f.path e'.path → dead e')
    (hordB : ∀ f ∈ post ++ centries C2, ¬ gone e' → Same e'.path f.path → dead f)
    (hrec : ¬ gone e' → e'.infoAdd ≠ ax' → RecOK c d' (G.room e'.infoAdd) e')
    (hax : ax = ax' ∨ ∀ f ∈ (centries C1 ++ pre) ++ (post ++ centries C2), ¬ gone f → f.infoAdd ≠ ax) :
    InvW c { G with chain := (fun h => if h = hx then C1 ++ (b, pre ++ e' :: post) :: C2 else G.chain h), last := (fun h => if h = hx then G.last hx else G.last h) } d' hx ax' := by
  have hi := hc.isize
  have k := I.chains hx hh
  rw [if_pos rfl, hC] at k
  have hbin : BinAt c d b (pre ++ e :: post) := by
    have hat := k.at_
    clear hd hnew hordA hordB hrec hax
    generalize d (c.hashStart + hx) = a at hat
    clear hC k
    induction C1 generalizing a with
    | nil => exact hat.2.2.1
    | cons be C1 ih => exact ih _ hat.2.2.2
  have hfit := hbin.fits
  have hez : esize (pre ++ e :: post) = esize (pre ++ e' :: post) := by
    simp only [esize_append, esize, hsz]
  have hes : esize pre + e.size + esize post ≤ c.isize - 2 := by
    simp only [esize_append, esize] at hfit; omega
  have hdb : ∀ x, d' x = d x ∨ ∃ j, j < c.isize - 1 ∧ x = b + j := by
    intro x
    rcases hd x with h | ⟨h1, h2⟩
    · exact Or.inl h
    · exact Or.inr ⟨x - b, by omega, by omega⟩
  have hbown : ∀ j, j < c.isize → G.own (b + j) = .bin hx b := k.bins (b, pre ++ e :: post) (by simp)
  have hdx : ∀ x, d' x = d x ∨ G.own x = .tab hx ∨ ∃ b, G.own x = .bin hx b := by
    intro x
    rcases hdb x with h | ⟨j, hj, rfl⟩
    · exact Or.inl h
    · exact Or.inr (Or.inr ⟨b, hbown j (by omega)⟩)
  have hB := I.blk.rechain (hx := hx) (last' := G.last hx) (C' := C1 ++ (b, pre ++ e' :: post) :: C2) (by rw [hC]; simp)
    (fun hh be hbe => by
      simp only [List.mem_append, List.mem_cons] at hbe
      rcases hbe with h | rfl | h
      · exact I.blk.full hx hh be (by rw [hC]; simp [h])
      · simp
      · exact I.blk.full hx hh be (by rw [hC]; simp [h])) hdx
  refine I.setChain hc (fun x => Or.inl rfl) hdx ?_ hB
  · refine k.edit hc (A := centries C1 ++ pre) (B := post ++ centries C2) (e' := e') ?_ ?_ ?_ ?_ ?_ (fun x => Or.inl rfl) ?_ hok hrcd hnew hordA hordB hrec hax
    · simp only [centries_append, centries_cons, List.append_assoc, List.cons_append]
      refine List.Sublist.append (List.Sublist.refl _) (List.Sublist.append (List.Sublist.refl _) ?_)
      exact List.sublist_cons_self _ _
    · simp
    · have ht := I.tab hx hh
      have : d' (c.hashStart + hx) = d (c.hashStart + hx) := by
        rcases hdb (c.hashStart + hx) with h | ⟨j, hj, h⟩
        · exact h
        · rw [h, hbown j (by omega)] at ht; cases ht
      rw [this]
      refine ChainAt_setbin hc C1 (fun be hbe i hi' => ?_) ?_ ?_ k.at_
      · rcases hdb (be.1 + i) with h | ⟨j, hj, h⟩
        · exact h
        · exact absurd h (other_bins hc k be hbe i hi' j (by omega))
      · rcases hd (b + (c.isize - 1)) with h | ⟨h1, h2⟩
        · exact h
        · omega
      · refine ⟨?_, by rw [← hez]; exact hfit, ?_⟩
        · have h1 := EntriesAt_append.mp hbin.entries
          refine EntriesAt_append.mpr ⟨EntriesAt_congr (fun i hi' => ?_) h1.1, hat, EntriesAt_congr (fun i hi' => ?_) (by rw [hsz]; exact h1.2.2)⟩
          · rcases hd (b + i) with h | h
            · exact h
            · omega
          · rcases hd (b + esize pre + e'.size + i) with h | h
            · exact h
            · rw [hsz] at h; omega
        · intro i h1 h2
          rw [← hez] at h1
          have h3 := hbin.zero i h1 h2
          rw [← h3]
          rcases hd (b + i) with h | h
          · exact h
          · simp only [esize_append, esize] at h1; omega
    · intro be hbe i hi'
      simp only [List.mem_append, List.mem_cons] at hbe
      rcases hbe with h | rfl | h
      · exact k.bins be (by simp [h]) i hi'
      · exact hbown i hi'
      · exact k.bins be (by simp [h]) i hi'
    · have := k.nodupB
      simpa using this
    · intro x
      rcases hdb x with h | ⟨j, hj, rfl⟩
      · exact Or.inl h
      · exact Or.inr (Or.inr ⟨b, hbown j (by omega)⟩)

theorem ChainAt_bin {c : Cfg} {d : Disk} {b last : Nat} {es : List BinEnt} {C2 : Chain} (C1 : Chain) : ∀ {a : Nat},
    ChainAt c d a (C1 ++ (b, es) :: C2) last → BinAt c d b es ∧ b ≠ 0 := by
  induction C1 with
  | nil => intro a h; exact ⟨h.2.2.1, h.2.1⟩
  | cons be C1 ih => intro a h; exact ih h.2.2.2

/-- An entry is put behind the last one of a bin. -/
theorem InvW.append {c : Cfg} (hc : c.OK) {G : Ghost} {d d' : Disk} {hx ax ax' b : Nat} (I : InvW c G d hx ax)
    (hh : hx < c.maxHash) {C1 C2 : Chain} {es : List BinEnt} {e' : BinEnt}
    (hC : G.chain hx = C1 ++ (b, es) :: C2) (hsz : esize es + e'.size ≤ c.isize - 2)
    (hat : EntryAt c d' (b + esize es) e')
    (hd : ∀ x, d' x = d x ∨ (b + esize es ≤ x ∧ x < b + esize es + e'.size))
    (hok : EntryOK c hx e')
    (hrcd : ¬ gone e' → Owned G.own hx (G.room e'.infoAdd) e')
    (hnew : ∀ f ∈ (centries C1 ++ es) ++ centries C2, ¬ gone f → ¬ gone e' → f.infoAdd ≠ e'.infoAdd)
    (hordA : ∀ f ∈ centries C1 ++ es, ¬ gone f → Same f.path e'.path → dead e')
    (hordB : ∀ f ∈ centries C2, ¬ gone e' → Same e'.path f.path → dead f)
    (hrec : ¬ gone e' → e'.infoAdd ≠ ax' → RecOK c d' (G.room e'.infoAdd) e')
    (hax : ax = ax' ∨ ∀ f ∈ (centries C1 ++ es) ++ centries C2, ¬ gone f → f.infoAdd ≠ ax) :
    InvW c { G with chain := (fun h => if h = hx then C1 ++ (b, es ++ [e']) :: C2 else G.chain h), last := (fun h => if h = hx then G.last hx else G.last h) } d' hx ax' := by
  have hi := hc.isize
  have k := I.chains hx hh
  rw [if_pos rfl, hC] at k
  obtain ⟨hbin, hb0⟩ := ChainAt_bin C1 k.at_
  have hdb : ∀ x, d' x = d x ∨ ∃ j, j < c.isize - 1 ∧ x = b + j := by
    intro x
    rcases hd x with h | ⟨h1, h2⟩
    · exact Or.inl h
    · exact Or.inr ⟨x - b, by omega, by omega⟩
  have hbown : ∀ j, j < c.isize → G.own (b + j) = .bin hx b := k.bins (b, es) (by simp)
  have hdx : ∀ x, d' x = d x ∨ G.own x = .tab hx ∨ ∃ b, G.own x = .bin hx b := by
    intro x
    rcases hdb x with h | ⟨j, hj, rfl⟩
    · exact Or.inl h
    · exact Or.inr (Or.inr ⟨b, hbown j (by omega)⟩)
  have hB := I.blk.rechain (hx := hx) (last' := G.last hx) (C' := C1 ++ (b, es ++ [e']) :: C2) (by rw [hC]; simp)
    (fun hh be hbe => by
      simp only [List.mem_append, List.mem_cons] at hbe
      rcases hbe with h | rfl | h
      · exact I.blk.full hx hh be (by rw [hC]; simp [h])
      · simp
      · exact I.blk.full hx hh be (by rw [hC]; simp [h])) hdx
  refine I.setChain hc (fun x => Or.inl rfl) hdx ?_ hB
  refine k.edit hc (A := centries C1 ++ es) (B := centries C2) (e' := e') ?_ ?_ ?_ ?_ ?_ (fun x => Or.inl rfl) hdx hok hrcd hnew hordA hordB hrec hax
  · simp
  · simp
  · have ht := I.tab hx hh
    have : d' (c.hashStart + hx) = d (c.hashStart + hx) := by
      rcases hdb (c.hashStart + hx) with h | ⟨j, hj, h⟩
      · exact h
      · rw [h, hbown j (by omega)] at ht; cases ht
    rw [this]
    refine ChainAt_setbin hc C1 (fun be hbe i hi' => ?_) ?_ ?_ k.at_
    · rcases hdb (be.1 + i) with h | ⟨j, hj, h⟩
      · exact h
      · exact absurd h (other_bins hc k be hbe i hi' j (by omega))
    · rcases hd (b + (c.isize - 1)) with h | ⟨h1, h2⟩
      · exact h
      · omega
    · refine ⟨?_, by simp only [esize_append, esize]; omega, ?_⟩
      · refine EntriesAt_append.mpr ⟨EntriesAt_congr (fun i hi' => ?_) hbin.entries, hat, trivial⟩
        rcases hd (b + i) with h | h
        · exact h
        · omega
      · intro i h1 h2
        simp only [esize_append, esize] at h1
        have h3 := hbin.zero i (by omega) h2
        rw [← h3]
        rcases hd (b + i) with h | h
        · exact h
        · omega
  · intro be hbe i hi'
    simp only [List.mem_append, List.mem_cons] at hbe
    rcases hbe with h | rfl | h
    · exact k.bins be (by simp [h]) i hi'
    · exact hbown i hi'
    · exact k.bins be (by simp [h]) i hi'
  · have := k.nodupB
    simpa using this

/-- The pointer behind the last bin of a chain is set. -/
theorem InvW.relink {c : Cfg} (hc : c.OK) {G : Ghost} {d d' : Disk} {hx ax v : Nat} (I : InvW c G d hx ax)
    (hh : hx < c.maxHash) (w : Nat)
    (hw : w = if G.chain hx = [] then c.hashStart + hx else lastAddr (G.chain hx) + (c.isize - 1))
    (hd : ∀ x, x ≠ w → d' x = d x) (hv : d' w = v) :
    InvW c { G with last := fun h => if h = hx then v else G.last h } d' hx ax := by
  have hi := hc.isize
  have k := I.chains hx hh
  rw [if_pos rfl] at k
  have key : InvW c { G with chain := (fun h => if h = hx then G.chain hx else G.chain h), last := (fun h => if h = hx then v else G.last h) } d' hx ax := by
    have hwo : G.own w = .tab hx ∨ ∃ b, G.own w = .bin hx b := by
      rw [hw]; split
      · exact Or.inl (I.tab hx hh)
      · next h =>
        obtain ⟨es, hes⟩ := lastAddr_mem h
        exact Or.inr ⟨_, k.bins _ hes _ (by omega)⟩
    have hdx : ∀ x, d' x = d x ∨ G.own x = .tab hx ∨ ∃ b, G.own x = .bin hx b := by
      intro x
      by_cases hx' : x = w
      · rw [hx']; exact Or.inr hwo
      · exact Or.inl (hd x hx')
    refine I.setChain hc (fun x => Or.inl rfl) hdx ?_ (I.blk.rechain rfl (fun hh => I.blk.full hx hh) hdx)
    · refine ⟨?_, k.bins, k.ok, k.rcd, k.nodupB, k.nodupR, k.order, ?_⟩
      · by_cases h : G.chain hx = []
        · rw [if_pos h] at hw
          rw [h, ← hw]
          exact hv
        · rw [if_neg h] at hw
          have ht : c.hashStart + hx ≠ w := by
            intro he
            have h1 := I.tab hx hh
            obtain ⟨es, hes⟩ := lastAddr_mem h
            have := k.bins _ hes (c.isize - 1) (by omega)
            rw [he, hw, this] at h1; cases h1
          rw [hd _ ht]
          refine ChainAt_relink hc (G.chain hx) h k.nodupB (fun be hbe i hi' hne => hd _ (by rw [hw]; exact hne)) (k.nodupB_at hc) (by rw [← hw]; exact hv) k.at_
      · intro e he hg hne
        refine RecOK_congr rfl rfl rfl rfl (fun i hi' => hd _ ?_) (k.recs e he hg hne)
        intro hew
        have h1 := (k.rcd e he hg).info hi'
        rw [hew] at h1
        rcases hwo with h | ⟨_, h⟩ <;> rw [h1] at h <;> cases h
  refine ⟨key.sys, key.tab, key.free, fun h hh => ?_, key.blk.frame rfl rfl (fun _ _ => rfl) (fun x h => ⟨by simp [show G.own x = .none from h], by simp [show G.own x = .none from h]⟩) (fun h => ?_) I.blk.full (fun _ _ => rfl)⟩
  rotate_left
  · by_cases hhx : h = hx
    · subst hhx; simp
    · simp [hhx]
  have := key.chains h hh
  by_cases hhx : h = hx
  · subst hhx; simpa using this
  · simpa [if_neg hhx] using this

/-- A new bin with one entry is put behind the last one. -/
theorem InvW.newBin {c : Cfg} (hc : c.OK) {G : Ghost} {d d' : Disk} {hx ax ax' nb : Nat} (I : InvW c G d hx ax)
    (hh : hx < c.maxHash) {e' : BinEnt} (hl : G.last hx = nb) (hfree : ∀ i, i < c.isize → G.own (nb + i) = .free)
    (hsz : e'.size ≤ c.isize - 2) {n : Nat} (hsp : Spares c G nb n) (hn : 0 < n)
    (hat : EntryAt c d' nb e') (hz : ∀ i, e'.size ≤ i → i < c.isize → d' (nb + i) = 0)
    (hd : ∀ x, d' x = d x ∨ (nb ≤ x ∧ x < nb + c.isize))
    (hok : EntryOK c hx e')
    (hrcd : ¬ gone e' → Owned G.own hx (G.room e'.infoAdd) e')
    (hnew : ∀ f ∈ centries (G.chain hx), ¬ gone f → ¬ gone e' → f.infoAdd ≠ e'.infoAdd)
    (hordA : ∀ f ∈ centries (G.chain hx), ¬ gone f → Same f.path e'.path → dead e')
    (hrec : ¬ gone e' → e'.infoAdd ≠ ax' → RecOK c d' (G.room e'.infoAdd) e')
    (hax : ax = ax' ∨ ∀ f ∈ centries (G.chain hx), ¬ gone f → f.infoAdd ≠ ax) :
    InvW c { G with own := (fun x => if nb ≤ x ∧ x < nb + c.isize then .bin hx nb else G.own x), chain := (fun h => if h = hx then G.chain hx ++ [(nb, [e'])] else G.chain h), last := (fun h => if h = hx then 0 else G.last h) } d' hx ax' := by
  have hi := hc.isize
  have k := I.chains hx hh
  rw [if_pos rfl] at k
  have hnb0 : nb ≠ 0 := by
    intro h
    have h1 := hfree 0 (by omega)
    have h2 := I.sys 0 (by have := hc.hdr; omega)
    rw [h] at h1
    rw [h2] at h1; cases h1
  have hfr : ∀ x, nb ≤ x → x < nb + c.isize → G.own x = .free := by
    intro x h1 h2
    have := hfree (x - nb) (by omega)
    rwa [show nb + (x - nb) = x by omega] at this
  have hdx : ∀ x, d' x = d x ∨ G.own x = .tab hx ∨ ∃ b, (fun x => if nb ≤ x ∧ x < nb + c.isize then Own.bin hx nb else G.own x) x = .bin hx b := by
    intro x
    rcases hd x with h | h
    · exact Or.inl h
    · exact Or.inr (Or.inr ⟨nb, by simp only [if_pos h]⟩)
  have hox : ∀ x, (fun x => if nb ≤ x ∧ x < nb + c.isize then Own.bin hx nb else G.own x) x = G.own x ∨ (G.own x = .free ∧ ∃ b, (fun x => if nb ≤ x ∧ x < nb + c.isize then Own.bin hx nb else G.own x) x = .bin hx b) := by
    intro x
    by_cases h : nb ≤ x ∧ x < nb + c.isize
    · exact Or.inr ⟨hfr x h.1 h.2, nb, by simp only [if_pos h]⟩
    · exact Or.inl (by simp only [if_neg h])
  have hbw : ∀ be ∈ G.chain hx, ∀ i, i < c.isize → ¬ (nb ≤ be.1 + i ∧ be.1 + i < nb + c.isize) := by
    intro be hbe i hi' h
    have h1 := k.bins be hbe i hi'
    rw [hfr _ h.1 h.2] at h1; cases h1
  obtain ⟨bs, lb, kk, hbl, hnb, hkk⟩ := hsp.lastB
  have hlb : lb ∈ G.blocks := by rw [hbl]; simp
  have hslot : ∀ b ∈ G.blocks, ∀ i, i < c.binsPerBlock → nb ≤ b + i * c.isize → b + i * c.isize < nb + c.isize → b + i * c.isize = nb := by
    intro b hb i hi' h1 h2
    rw [hbl, List.mem_append] at hb
    rcases hb with hb | hb
    · exfalso
      have hs := I.blk.sorted
      rw [hbl, List.pairwise_append] at hs
      have := hs.2.2 b hb lb (by simp)
      have h3 : i * c.isize ≤ c.binsPerBlock * c.isize := Nat.mul_le_mul_right _ (by omega)
      omega
    · simp at hb
      subst hb
      rw [hnb] at h1 h2 ⊢
      have h3 : kk * c.isize ≤ i * c.isize := by omega
      have h4 : i * c.isize < (kk + 1) * c.isize := by rw [Nat.add_mul]; omega
      have h5 := Nat.le_of_mul_le_mul_right h3 (by omega)
      have h6 := Nat.lt_of_mul_lt_mul_right h4
      have : i = kk := by omega
      rw [this]
  have hB : Blk c { G with own := (fun x => if nb ≤ x ∧ x < nb + c.isize then .bin hx nb else G.own x), chain := (fun h => if h = hx then G.chain hx ++ [(nb, [e'])] else G.chain h), last := (fun h => if h = hx then 0 else G.last h) } d' := by
    have hnin : ∀ x o, G.own x = o → o ≠ .free → ¬ (nb ≤ x ∧ x < nb + c.isize) := by
      intro x o h1 h2 h3
      rw [hfr x h3.1 h3.2] at h1; exact h2 h1.symm
    refine ⟨I.blk.head, ?_, ?_, ?_, ?_, ?_, I.blk.sorted, ?_⟩
    · intro pre b post h
      have hl := I.blk.own b (by have h : G.blocks = _ := h; rw [h]; simp)
      have := hnin _ _ hl (by simp)
      rcases hd (b + c.binsPerBlock * c.isize) with h' | h'
      · rw [h']; exact I.blk.links pre b post h
      · exact absurd h' this
    · intro b h
      have hl := I.blk.own b h
      simp only [if_neg (hnin _ _ hl (by simp))]
      exact hl
    · intro b h i hi'
      by_cases hin : nb ≤ b + i * c.isize ∧ b + i * c.isize < nb + c.isize
      · simp only [if_pos hin]
        exact Or.inr ⟨hx, by rw [hslot b h i hi' hin.1 hin.2]⟩
      · simp only [if_neg hin]
        exact I.blk.slots b h i hi'
    · intro x h b hx'
      simp only at hx'
      by_cases hin : nb ≤ x ∧ x < nb + c.isize
      · rw [if_pos hin] at hx'
        injection hx' with h1 h2
        subst h1; subst h2
        exact ⟨hh, ⟨(nb, [e']), by simp, rfl⟩, lb, hlb, kk, by omega, hnb⟩
      · rw [if_neg hin] at hx'
        obtain ⟨h1, ⟨be, h2, h3⟩, h4⟩ := I.blk.bins x h b hx'
        refine ⟨h1, ⟨be, ?_, h3⟩, h4⟩
        by_cases hhx : h = hx
        · subst hhx; simp [h2]
        · simp [hhx, h2]
    · intro h hh' be hbe
      by_cases hhx : h = hx
      · subst hhx
        simp only [if_true, List.mem_append, List.mem_singleton] at hbe
        rcases hbe with h1 | rfl
        · exact I.blk.full h hh' be h1
        · simp
      · simp only [if_neg hhx] at hbe
        exact I.blk.full h hh' be hbe
    · intro x y h b h1 h2
      simp only at h1 h2
      by_cases hx' : nb ≤ x ∧ x < nb + c.isize
      · rw [if_pos hx'] at h1; cases h1
      · rw [if_neg hx'] at h1
        have := (hsp.used x h1).1
        by_cases hy : nb ≤ y ∧ y < nb + c.isize
        · omega
        · rw [if_neg hy] at h2
          exact I.blk.ord x y h b h1 h2
  refine I.setChain hc hox hdx ?_ hB
  refine k.edit hc (A := centries (G.chain hx)) (B := []) (e' := e') (by simp) (by simp) ?_ ?_ ?_ hox hdx hok hrcd (by simpa using hnew) hordA (by simp) hrec (by simpa using hax)
  · refine ChainAt_snoc _ ?_ hnb0 ?_ (hz _ (by omega) (by omega))
    · have ht : d' (c.hashStart + hx) = d (c.hashStart + hx) := by
        rcases hd (c.hashStart + hx) with h | h
        · exact h
        · have h1 := I.tab hx hh
          rw [hfr _ h.1 h.2] at h1; cases h1
      rw [ht, ← hl]
      refine ChainAt_congr hc _ (fun be hbe i hi' => ?_) k.at_
      rcases hd (be.1 + i) with h | h
      · exact h
      · exact absurd h (hbw be hbe i hi')
    · exact ⟨⟨hat, trivial⟩, by simp only [esize]; omega, fun i h1 h2 => hz i (by simp only [esize] at h1; omega) (by omega)⟩
  · intro be hbe i hi'
    simp only [List.mem_append, List.mem_cons, List.not_mem_nil, or_false] at hbe
    rcases hbe with h | rfl
    · simp only [if_neg (hbw be h i hi')]; exact k.bins be h i hi'
    · simp only; rw [if_pos (by omega)]
  · simp only [List.map_append, List.map_cons, List.map_nil]
    rw [List.nodup_append]
    refine ⟨k.nodupB, by simp, ?_⟩
    intro a ha b hb hab
    simp at hb
    obtain ⟨be, hbe, rfl⟩ := List.mem_map.mp ha
    exact hbw be hbe 0 (by omega) (by omega)

/-! ### Lookups -/

theorem zcheck_some {c : Cfg} (hc : c.OK) {G : Ghost} {s : Eng} {hx ax : Nat} (I : InvW c G s.disk hx ax)
    {q : Bytes} {wanted : Nat} (hh : c.tHash q < c.maxHash)
    {C1 C2 : Chain} {b : Nat} {pre post : List BinEnt} {e : BinEnt}
    (hC : G.chain (c.tHash q) = C1 ++ (b, pre ++ e :: post) :: C2)
    (hlen : (G.chain (c.tHash q)).length ≤ s.hdr.totalBins + 1)
    (hno : ∀ x ∈ centries C1 ++ pre, ¬ EMatch q wanted x) (hm : EMatch q wanted e) :
    ∃ ws, zcheck c s q wanted = some ⟨true, s.disk (c.hashStart + c.tHash q), b, ws, b + esize pre, e.infoAdd⟩ := by
  have k := I.chains _ hh
  rw [hC] at k
  rw [hC] at hlen
  have hat := k.at_
  have h0 : s.disk (c.hashStart + c.tHash q) ≠ 0 := by
    cases C1 with
    | nil => rw [hat.1]; exact hat.2.1
    | cons be C1 => obtain ⟨b1, es1⟩ := be; rw [hat.1]; exact hat.2.1
  unfold zcheck
  simp only [if_neg h0]
  exact walk_some hc C1 hat k.ok (by simp at hlen; omega) (fun x hx' => hno x (by simp [hx']))
    (fun x hx' => hno x (by simp [hx'])) hm

theorem zcheck_none {c : Cfg} (hc : c.OK) {G : Ghost} {s : Eng} {hx ax : Nat} (I : InvW c G s.disk hx ax)
    {q : Bytes} {wanted : Nat} (hh : c.tHash q < c.maxHash) (hl : G.last (c.tHash q) = 0)
    (hlen : (G.chain (c.tHash q)).length ≤ s.hdr.totalBins + 1)
    (hno : ∀ x ∈ centries (G.chain (c.tHash q)), ¬ EMatch q wanted x) :
    zcheck c s q wanted = some ⟨false, s.disk (c.hashStart + c.tHash q), lastAddr (G.chain (c.tHash q)),
      wsC q 0 (G.chain (c.tHash q)), 0, 0⟩ := by
  have k := I.chains _ hh
  have hat := k.at_
  rw [hl] at hat
  unfold zcheck
  by_cases h : G.chain (c.tHash q) = []
  · rw [h] at hat ⊢
    have : s.disk (c.hashStart + c.tHash q) = 0 := hat
    simp only [this, if_true]
    rfl
  · have h0 : s.disk (c.hashStart + c.tHash q) ≠ 0 := by
      cases hCC : G.chain (c.tHash q) with
      | nil => exact absurd hCC h
      | cons be C1 => obtain ⟨b1, es1⟩ := be; rw [hCC] at hat; rw [hat.1]; exact hat.2.1
    simp only [if_neg h0]
    exact walk_none hc _ h hat k.ok hlen hno

end Hec
