import Verif.Spec.Alloc
/-! Invariant of the allocator: every word is counted at most once. -/
namespace Hec
open _root_.Spec (inPiece apart AOp Ledger aStep aRun noReleaseAfterMiss IsTable)

/-- 1 if the word is in the piece. -/
def cnt (r : Nat × Nat) (w : Nat) : Nat := if r.1 ≤ w ∧ w < r.1 + r.2 then 1 else 0
/-- Number of pieces the word is in. -/
def cov (l : List (Nat × Nat)) (w : Nat) : Nat := (l.map fun r => cnt r w).sum
/-- Number of table entries (size, address) the word is in. -/
def covS (l : List (Nat × Nat)) (w : Nat) : Nat := (l.map fun r => cnt (r.2, r.1) w).sum
/-- Number of times a word is in the tables or in their entries. -/
def chainCov (n : Nat) (mem : Nat → Seg) (segs : List Nat) (w : Nat) : Nat :=
  (segs.map fun s => cnt (s, n) w + covS (mem s).slots w).sum

/-- Consecutive tables are linked and the last has no link. -/
def Linked (mem : Nat → Seg) : List Nat → Prop
  | [] => False
  | [s] => (mem s).link = 0
  | s :: t :: r => (mem s).link = t ∧ Linked mem (t :: r)

structure AInv (held : List (Nat × Nat)) (segs : List Nat) (f : AFile) : Prop where
  linked : Linked f.mem segs
  head : segs.head? = some f.table
  nodup : segs.Nodup
  nz : 0 ∉ segs
  pos : 0 < f.fileSize
  below : ∀ s ∈ segs, s < f.fileSize
  avail : f.segAvail = 0 ∨ f.segAvail ∈ segs
  cover : ∀ w, cov held w + chainCov f.segSize f.mem segs w ≤ if w < f.fileSize then 1 else 0

theorem cov_cons (r l w) : cov (r :: l) w = cnt r w + cov l w := by simp [cov]

theorem covS_set (l : List (Nat × Nat)) : ∀ (i : Nat) (e x : Nat × Nat) (w : Nat), l[i]? = some x →
    covS (l.set i e) w + cnt (x.2, x.1) w = covS l w + cnt (e.2, e.1) w := by
  induction l with
  | nil => intro i e x w h; simp at h
  | cons a l ih =>
    intro i e x w h
    cases i with
    | zero => simp at h; subst h; simp [covS]; omega
    | succ i =>
      have := ih i e x w (by simpa using h)
      simp only [covS, List.set_cons_succ, List.map_cons, List.sum_cons] at this ⊢; omega

theorem covS_set_le (l : List (Nat × Nat)) (i : Nat) (e : Nat × Nat) (w : Nat) :
    covS (l.set i e) w ≤ covS l w + cnt (e.2, e.1) w := by
  cases h : l[i]? with
  | none =>
    rw [List.set_eq_of_length_le (by simpa using h)]; omega
  | some x => have := covS_set l i e x w h; omega

theorem cov_set (l : List (Nat × Nat)) : ∀ (i : Nat) (e x : Nat × Nat) (w : Nat), l[i]? = some x →
    cov (l.set i e) w + cnt x w = cov l w + cnt e w := by
  induction l with
  | nil => intro i e x w h; simp at h
  | cons a l ih =>
    intro i e x w h
    cases i with
    | zero => simp at h; subst h; simp [cov]; omega
    | succ i =>
      have := ih i e x w (by simpa using h)
      simp only [cov, List.set_cons_succ, List.map_cons, List.sum_cons] at this ⊢; omega

theorem covS_zero (n w : Nat) : covS (Seg.zero n).slots w = 0 := by
  simp [covS, Seg.zero, cnt]

theorem chainCov_append (n mem a b w) :
    chainCov n mem (a ++ b) w = chainCov n mem a w + chainCov n mem b w := by
  simp [chainCov]

theorem chainCov_cons (n mem s b w) :
    chainCov n mem (s :: b) w = cnt (s, n) w + covS (mem s).slots w + chainCov n mem b w := by
  simp [chainCov]

theorem chainCov_congr {n : Nat} {m m' : Nat → Seg} {l : List Nat} (w : Nat)
    (h : ∀ s ∈ l, (m s).slots = (m' s).slots) : chainCov n m l w = chainCov n m' l w := by
  induction l with
  | nil => rfl
  | cons a l ih =>
    rw [chainCov_cons, chainCov_cons, h a (by simp), ih fun s hs => h s (by simp [hs])]

theorem covS_le_chain {n : Nat} {m : Nat → Seg} {l : List Nat} {a : Nat} (w : Nat) (h : a ∈ l) :
    covS (m a).slots w ≤ chainCov n m l w := by
  induction l with
  | nil => simp at h
  | cons b l ih =>
    rw [chainCov_cons]
    rcases List.mem_cons.mp h with rfl | h
    · omega
    · have := ih h; omega

theorem linked_congr {m m' : Nat → Seg} : ∀ {l : List Nat},
    (∀ s ∈ l, (m s).link = (m' s).link) → Linked m l → Linked m' l
  | [], _, h => h.elim
  | [s], h, hl => by simp only [Linked] at hl ⊢; rw [← h s (by simp)]; exact hl
  | s :: t :: r, h, hl => by
    simp only [Linked] at hl ⊢
    exact ⟨by rw [← h s (by simp)]; exact hl.1, linked_congr (fun x hx => h x (by simp [hx])) hl.2⟩

/-- a table with a link links to a table -/
theorem linked_next {m : Nat → Seg} : ∀ {l : List Nat} {a : Nat}, Linked m l → a ∈ l → (m a).link ≠ 0 →
    (m a).link ∈ l
  | [], _, h, _, _ => h.elim
  | [s], a, h, ha, hn => by simp at ha; subst ha; exact absurd h hn
  | s :: t :: r, a, h, ha, hn => by
    simp only [Linked] at h
    rcases List.mem_cons.mp ha with rfl | ha
    · rw [h.1]; simp
    · exact List.mem_cons_of_mem _ (linked_next h.2 ha hn)

/-- the table without a link is the last one -/
theorem linked_last {m : Nat → Seg} : ∀ {p q : List Nat} {a : Nat}, 0 ∉ p ++ a :: q →
    Linked m (p ++ a :: q) → (m a).link = 0 → q = []
  | [], [], _, _, _, _ => rfl
  | [], t :: q, a, h0, h, hz => by
    simp only [List.nil_append, Linked] at h
    exact absurd (h.1.symm.trans hz) (by intro h; subst h; simp at h0)
  | [s], q, a, h0, h, hz => by
    simp only [List.cons_append, List.nil_append, Linked] at h
    exact linked_last (p := []) (by simp at h0 ⊢; exact h0.2) h.2 hz
  | s :: t :: p, q, a, h0, h, hz => by
    simp only [List.cons_append, Linked] at h
    exact linked_last (p := t :: p) (by simp at h0 ⊢; exact h0.2) h.2 hz

/-- cutting a chain after a table and linking a new last table -/
theorem linked_cut {m m' : Nat → Seg} {q : List Nat} {a na : Nat} : ∀ {p : List Nat},
    Linked m (p ++ a :: q) → (∀ s ∈ p, (m' s).link = (m s).link) → (m' a).link = na → (m' na).link = 0 →
    Linked m' (p ++ [a, na])
  | [], _, _, h2, h3 => ⟨h2, h3⟩
  | [s], h, h1, h2, h3 => by
    simp only [List.cons_append, List.nil_append, Linked] at h ⊢
    exact ⟨by rw [h1 s (by simp)]; exact h.1, h2, h3⟩
  | s :: t :: p, h, h1, h2, h3 => by
    simp only [List.cons_append, Linked] at h ⊢
    exact ⟨by rw [h1 s (by simp)]; exact h.1,
      linked_cut (p := t :: p) h.2 (fun x hx => h1 x (by simp [hx])) h2 h3⟩

/-- writing a table of the chain with the same link -/
theorem AInv.put {held held' segs} {f f' : AFile} (h : AInv held segs f) {a : Nat} (ha : a ∈ segs) (s : Seg)
    (hl : s.link = (f.mem a).link)
    (hm : f'.mem = fun b => if b = a then s else f.mem b) (hfs : f'.fileSize = f.fileSize)
    (hav : f'.segAvail = f.segAvail) (ht : f'.table = f.table) (hn : f'.slotsN = f.slotsN)
    (hc : ∀ w, cov held' w + covS s.slots w ≤ cov held w + covS (f.mem a).slots w) :
    AInv held' segs f' := by
  obtain ⟨p, q, hpq⟩ := List.append_of_mem ha
  refine ⟨linked_congr (fun x _ => ?_) h.linked, by rw [ht]; exact h.head, h.nodup, h.nz, by rw [hfs]; exact h.pos,
    by rw [hfs]; exact h.below, by rw [hav]; exact h.avail, fun w => ?_⟩
  · rw [hm]; by_cases hx : x = a
    · simp [hx, hl]
    · simp [hx]
  · have c := h.cover w
    have e : f'.segSize = f.segSize := by simp [AFile.segSize, hn]
    rw [hfs, e]
    rw [hpq, chainCov_append, chainCov_cons] at c ⊢
    have nd := h.nodup
    rw [hpq, List.nodup_append] at nd
    have hp : a ∉ p := fun hx => nd.2.2 a hx a (by simp) rfl
    have hq : a ∉ q := (List.nodup_cons.mp nd.2.1).1
    have e1 : chainCov f.segSize f'.mem p w = chainCov f.segSize f.mem p w :=
      chainCov_congr w fun x hx => by rw [hm]; have : x ≠ a := fun h => hp (h ▸ hx); simp [this]
    have e2 : chainCov f.segSize f'.mem q w = chainCov f.segSize f.mem q w :=
      chainCov_congr w fun x hx => by rw [hm]; have : x ≠ a := fun h => hq (h ▸ hx); simp [this]
    have e3 : f'.mem a = s := by rw [hm]; simp
    rw [e1, e2, e3]
    have := hc w
    omega

/-- changing only fields the invariant does not mention, or the table in use, or giving up pieces -/
theorem AInv.frame {held held' segs} {f f' : AFile} (h : AInv held segs f)
    (hm : f'.mem = f.mem) (hfs : f'.fileSize = f.fileSize)
    (hav : f'.segAvail = 0 ∨ f'.segAvail ∈ segs) (ht : f'.table = f.table) (hn : f'.slotsN = f.slotsN)
    (hc : ∀ w, cov held' w ≤ cov held w) : AInv held' segs f' := by
  refine ⟨by rw [hm]; exact h.linked, by rw [ht]; exact h.head, h.nodup, h.nz, by rw [hfs]; exact h.pos,
    by rw [hfs]; exact h.below, hav, fun w => ?_⟩
  have c := h.cover w
  have e : f'.segSize = f.segSize := by simp [AFile.segSize, hn]
  rw [hfs, e, hm]
  have := hc w
  omega

theorem cnt_eof (n fs w : Nat) : (if w < fs then 1 else 0) + cnt (fs, n) w = if w < fs + n then 1 else 0 := by
  unfold cnt; simp only
  split <;> split <;> split <;> omega

theorem AInv.eof {held segs} {f : AFile} (h : AInv held segs f) (n : Nat) :
    AInv ((f.fileSize, n) :: held) segs { f with fileSize := f.fileSize + n } := by
  refine ⟨h.linked, h.head, h.nodup, h.nz, Nat.lt_of_lt_of_le h.pos (Nat.le_add_right _ _),
    fun s hs => Nat.lt_of_lt_of_le (h.below s hs) (Nat.le_add_right _ _), h.avail, fun w => ?_⟩
  have c := h.cover w
  show cov _ w + chainCov f.segSize f.mem segs w ≤ if w < f.fileSize + n then 1 else 0
  rw [cov_cons, ← cnt_eof]
  omega

theorem AInv.table_mem {held segs} {f : AFile} (h : AInv held segs f) : f.table ∈ segs := by
  have := h.head
  cases segs with
  | nil => simp at this
  | cons a l => simp at this; simp [this]

/-- what walking and searching keep -/
structure Kept (f f' : AFile) : Prop where
  table : f'.table = f.table
  slotsN : f'.slotsN = f.slotsN
  level : f'.level = f.level
  header : f'.mem 0 = f.mem 0

theorem Kept.refl (f : AFile) : Kept f f := ⟨rfl, rfl, rfl, rfl⟩
theorem Kept.trans {f g h : AFile} (a : Kept f g) (b : Kept g h) : Kept f h :=
  ⟨b.table.trans a.table, b.slotsN.trans a.slotsN, b.level.trans a.level, b.header.trans a.header⟩

theorem walkCreate_inv {held} : ∀ (k : Nat) (f : AFile) (segs : List Nat) (a : Nat), AInv held segs f →
    f.segAvail ≠ 0 → f.level ≠ 1 → a ∈ segs →
    ∃ segs', AInv held segs' (walkCreate k f a).1 ∧ (walkCreate k f a).2 ∈ segs' ∧
      (walkCreate k f a).1.segAvail ≠ 0 ∧ Kept f (walkCreate k f a).1 := by
  intro k
  induction k with
  | zero => intro f segs a h hz _ ha; exact ⟨segs, h, ha, hz, Kept.refl f⟩
  | succ k ih =>
    intro f segs a h hz hlv ha
    unfold walkCreate
    simp only [getEOF]
    by_cases hlk : (f.mem a).link = 0
    · rw [if_pos hlk]
      rw [show reclaimWrite { f with fileSize := f.fileSize + f.segSize } { f.mem a with link := f.fileSize } =
        AFile.put { f with fileSize := f.fileSize + f.segSize } f.segAvail { f.mem a with link := f.fileSize } from if_neg hlv]
      simp only [AFile.put]
      have hj : f.segAvail ∈ segs := h.avail.resolve_left hz
      obtain ⟨p, q, hpq⟩ := List.append_of_mem hj
      have hb : ∀ s ∈ segs, s ≠ f.fileSize := fun s hs => Nat.ne_of_lt (h.below s hs)
      have haj : a ∈ f.segAvail :: q := by
        obtain ⟨p2, q2, h2⟩ := List.append_of_mem ha
        have hq2 : q2 = [] := linked_last (h2 ▸ h.nz) (h2 ▸ h.linked) hlk
        subst hq2
        have : segs.getLast? = some a := by rw [h2]; simp
        rw [hpq, List.getLast?_append] at this
        have e : (f.segAvail :: q).getLast? = some a := by
          cases hx : (f.segAvail :: q).getLast? with
          | none => simp at hx
          | some y => rw [hx] at this; simpa using this
        exact List.mem_of_getLast? e
      have nd := h.nodup
      rw [hpq, List.nodup_append] at nd
      have hp : f.segAvail ∉ p := fun hx => nd.2.2 _ hx _ (by simp) rfl
      have hbp : ∀ s ∈ p, s ≠ f.fileSize := fun s hs => hb s (by rw [hpq]; simp [hs])
      have hbj : f.segAvail ≠ f.fileSize := hb _ hj
      let mem' : Nat → Seg := fun b => if b = f.fileSize then Seg.zero f.slotsN else
        if b = f.segAvail then { f.mem a with link := f.fileSize } else f.mem b
      have hm1 : ∀ s ∈ p, mem' s = f.mem s := fun s hs => by
        have h1 := hbp s hs
        have h2 : s ≠ f.segAvail := fun e => hp (e ▸ hs)
        show (if s = f.fileSize then _ else if s = f.segAvail then _ else f.mem s) = _
        rw [if_neg h1, if_neg h2]
      have hm2 : mem' f.segAvail = { f.mem a with link := f.fileSize } := by
        show (if f.segAvail = f.fileSize then _ else if f.segAvail = f.segAvail then _ else f.mem _) = _
        rw [if_neg hbj, if_pos rfl]
      have hm3 : mem' f.fileSize = Seg.zero f.slotsN := by
        show (if f.fileSize = f.fileSize then _ else _) = _
        rw [if_pos rfl]
      have inv : AInv held (p ++ [f.segAvail, f.fileSize])
          { f with fileSize := f.fileSize + f.segSize, mem := mem', segAvail := f.fileSize } := by
        refine ⟨?_, ?_, ?_, ?_, ?_, ?_, ?_, ?_⟩
        · refine linked_cut (m := f.mem) (q := q) (hpq ▸ h.linked) (fun s hs => ?_) ?_ ?_
          · show (mem' s).link = _; rw [hm1 s hs]
          · show (mem' f.segAvail).link = _; rw [hm2]
          · show (mem' f.fileSize).link = _; rw [hm3]; rfl
        · have := h.head; rw [hpq] at this
          cases p with
          | nil => simpa using this
          | cons x p => simpa using this
        · rw [List.nodup_append]
          refine ⟨nd.1, by simp [hbj], fun x hx y hy => ?_⟩
          simp at hy
          rcases hy with rfl | rfl
          · exact fun e => hp (e ▸ hx)
          · exact hbp x hx
        · have := h.nz
          have hpos := h.pos
          rw [hpq] at this
          simp at this ⊢
          refine ⟨this.1, this.2.1, by omega⟩
        · exact Nat.lt_of_lt_of_le h.pos (Nat.le_add_right _ _)
        · intro s hs
          show s < f.fileSize + f.segSize
          have : 0 < f.segSize := by simp [AFile.segSize]
          rw [List.mem_append] at hs
          rcases hs with hs | hs
          · have := h.below s (by rw [hpq]; simp [hs]); omega
          · simp at hs
            rcases hs with rfl | rfl
            · have := h.below _ hj; omega
            · omega
        · right; simp
        · intro w
          have c := h.cover w
          show cov held w + chainCov f.segSize mem' (p ++ [f.segAvail, f.fileSize]) w ≤
            if w < f.fileSize + f.segSize then 1 else 0
          rw [hpq, chainCov_append, chainCov_cons] at c
          rw [chainCov_append, chainCov_cons, chainCov_cons, hm2, hm3, covS_zero, ← cnt_eof]
          have e1 : chainCov f.segSize mem' p w = chainCov f.segSize f.mem p w :=
            chainCov_congr w fun x hx => by rw [hm1 x hx]
          have e2 : chainCov f.segSize mem' [] w = 0 := rfl
          have e3 : covS (f.mem a).slots w ≤ covS (f.mem f.segAvail).slots w + chainCov f.segSize f.mem q w := by
            rcases List.mem_cons.mp haj with e | e
            · rw [e]; omega
            · have := covS_le_chain (n := f.segSize) (m := f.mem) w e; omega
          rw [e1, e2]
          show cov held w + (chainCov f.segSize f.mem p w + (cnt (f.segAvail, f.segSize) w + covS (f.mem a).slots w +
            (cnt (f.fileSize, f.segSize) w + 0 + 0))) ≤ _
          omega
      obtain ⟨segs', i1, i2, i3, i4⟩ := ih _ _ f.fileSize inv
        (by show f.fileSize ≠ 0; have := h.pos; omega) hlv (by simp)
      have hk : Kept f { f with fileSize := f.fileSize + f.segSize, mem := mem', segAvail := f.fileSize } := by
       refine ⟨rfl, rfl, rfl, ?_⟩
       show mem' 0 = f.mem 0
       have h1 : 0 ≠ f.fileSize := by have := h.pos; omega
       show (if 0 = f.fileSize then _ else if 0 = f.segAvail then _ else f.mem 0) = _
       rw [if_neg h1, if_neg (Ne.symm hz)]
      exact ⟨segs', i1, i2, i3, hk.trans i4⟩
    · rw [if_neg hlk]
      exact ih f segs _ h hz hlv (linked_next h.linked ha hlk)

theorem walkGet_mem {held segs} {f : AFile} (h : AInv held segs f) : ∀ (k a : Nat), a ∈ segs →
    walkGet f k a = 0 ∨ walkGet f k a ∈ segs
  | 0, a, ha => Or.inr ha
  | k + 1, a, ha => by
    unfold walkGet
    simp only
    by_cases hl : (f.mem a).link = 0
    · left; rw [if_pos hl]
    · rw [if_neg hl]; exact walkGet_mem h k _ (linked_next h.linked ha hl)

/-- reading a table to search it only changes which table is in use -/
theorem readGet_inv {held segs} {f : AFile} (h : AInv held segs f) (k : Nat) :
    AInv held segs (readGet f k).2 ∧ Kept f (readGet f k).2 ∧ (readGet f k).2.mem = f.mem ∧
    ∀ arr, (readGet f k).1 = some arr → f.level ≠ 1 ∧ (readGet f k).2.segAvail ∈ segs ∧
      arr = f.mem (readGet f k).2.segAvail := by
  unfold readGet
  by_cases h1 : f.level = 1
  · rw [if_pos h1]; exact ⟨h, Kept.refl f, rfl, fun arr e => by simp at e⟩
  rw [if_neg h1]
  by_cases h2 : k = 0
  · rw [if_pos h2]
    refine ⟨h.frame rfl rfl (Or.inr h.table_mem) rfl rfl (fun _ => Nat.le_refl _), ⟨rfl, rfl, rfl, rfl⟩, rfl,
      fun arr e => ⟨h1, h.table_mem, ?_⟩⟩
    simp at e; exact e.symm
  rw [if_neg h2]
  simp only
  have hw := walkGet_mem h k f.table h.table_mem
  by_cases h3 : walkGet f k f.table = 0
  · rw [if_pos h3]
    exact ⟨h.frame rfl rfl (Or.inl rfl) rfl rfl (fun _ => Nat.le_refl _), ⟨rfl, rfl, rfl, rfl⟩, rfl,
      fun arr e => by simp at e⟩
  · rw [if_neg h3]
    have hm := hw.resolve_left h3
    refine ⟨h.frame rfl rfl (Or.inr hm) rfl rfl (fun _ => Nat.le_refl _), ⟨rfl, rfl, rfl, rfl⟩, rfl,
      fun arr e => ⟨h1, hm, ?_⟩⟩
    simp at e; exact e.symm

theorem bestFit_spec (n : Nat) : ∀ (l : List (Nat × Nat)) (i : Nat) (best : Option (Nat × Nat)) (h loc : Nat),
    bestFit n l i best = some (h, loc) → best = some (h, loc) ∨
      ∃ j x, loc = i + j ∧ l[j]? = some (h, x) ∧ h ≥ n := by
  intro l
  induction l with
  | nil => intro i best h loc e; left; exact e
  | cons a l ih =>
    obtain ⟨s, x⟩ := a
    intro i best h loc e
    unfold bestFit at e
    have lift : (∃ j x, loc = i + 1 + j ∧ l[j]? = some (h, x) ∧ h ≥ n) →
        ∃ j x', loc = i + j ∧ ((s, x) :: l)[j]? = some (h, x') ∧ h ≥ n := by
      rintro ⟨j, x', h1, h2, h3⟩
      exact ⟨j + 1, x', by omega, by simpa using h2, h3⟩
    by_cases hs : s ≥ n ∧ s < (best.elim (s + 1) (·.1))
    · rw [if_pos hs] at e
      by_cases he : s = n
      · rw [if_pos he] at e
        simp at e
        right; exact ⟨0, x, by omega, by simp [e.1], by omega⟩
      · rw [if_neg he] at e
        rcases ih _ _ _ _ e with h' | h'
        · simp at h'
          right; exact ⟨0, x, by omega, by simp [h'.1], by omega⟩
        · right; exact lift h'
    · rw [if_neg hs] at e
      rcases ih _ _ _ _ e with h' | h'
      · left; exact h'
      · right; exact lift h'

theorem searchTables_inv {held segs} (n : Nat) : ∀ (fuel : Nat) (f : AFile) (k : Nat), AInv held segs f →
    AInv held segs (searchTables n fuel f k).1 ∧ Kept f (searchTables n fuel f k).1 ∧
    ((searchTables n fuel f k).2 ≠ 0 → AInv (((searchTables n fuel f k).2, n) :: held) segs (searchTables n fuel f k).1) := by
  intro fuel
  induction fuel with
  | zero => intro f k h; exact ⟨h, Kept.refl f, fun e => absurd rfl e⟩
  | succ fuel ih =>
    intro f k h
    obtain ⟨r1, r2, r3, r4⟩ := readGet_inv h k
    unfold searchTables
    rcases hr : readGet f k with ⟨o, f1⟩
    rw [hr] at r1 r2 r3 r4
    simp only at r1 r2 r3 r4
    cases o with
    | none => exact ⟨r1, r2, fun e => absurd rfl e⟩
    | some arr =>
      obtain ⟨q1, q2, q3⟩ := r4 arr rfl
      simp only
      cases hb : bestFit n arr.slots 0 none with
      | none =>
        simp only
        obtain ⟨i1, i2, i3⟩ := ih f1 (k + 1) r1
        exact ⟨i1, r2.trans i2, i3⟩
      | some hl =>
        obtain ⟨hv, loc⟩ := hl
        simp only
        have hs := (bestFit_spec n _ _ _ _ _ hb).resolve_left (by simp)
        obtain ⟨j, x, e1, e2, e3⟩ := hs
        have e1 : j = loc := by omega
        subst e1
        have hg : arr.slots.getD j (0, 0) = (hv, x) := by
          rw [List.getD_eq_getElem?_getD, e2]; rfl
        rw [hg]
        simp only
        have hl1 : f1.level ≠ 1 := by rw [r2.level]; exact q1
        unfold reclaimWrite
        rw [if_neg hl1]
        have key : ∀ w, cnt (x, n) w + covS (arr.slots.set j (if hv - n > f1.minSize then (hv - n, x + n) else (0, 0))) w ≤
            covS arr.slots w := by
          intro w
          have := covS_set arr.slots j (if hv - n > f1.minSize then (hv - n, x + n) else (0, 0)) (hv, x) w e2
          have hc : cnt (x, n) w + cnt ((if hv - n > f1.minSize then (hv - n, x + n) else (0, 0)).2,
              (if hv - n > f1.minSize then (hv - n, x + n) else (0, 0)).1) w ≤ cnt (x, hv) w := by
            unfold cnt
            split <;> simp only <;> split <;> split <;> split <;> omega
          simp only at this
          omega
        have hq : f1.mem f1.segAvail = arr := by rw [q3, r3]
        refine ⟨?_, r2.trans ⟨rfl, rfl, rfl, ?_⟩, fun hx => ?_⟩
        · refine r1.put q2 { arr with slots := _ } (by rw [hq]) rfl rfl rfl rfl rfl (fun w => ?_)
          have := key w
          rw [hq]
          simp only
          omega
        · show (if 0 = f1.segAvail then _ else f1.mem 0) = f1.mem 0
          rw [if_neg]; intro e; exact h.nz (e ▸ q2)
        · refine r1.put q2 { arr with slots := _ } (by rw [hq]) rfl rfl rfl rfl rfl (fun w => ?_)
          have := key w
          rw [hq, cov_cons]
          simp only
          omega

theorem zgetFileSpace_inv {held segs} (fuel : Nat) {f : AFile} (n : Nat) (reuse : Bool) (h : AInv held segs f) :
    AInv (((zgetFileSpace fuel f n reuse).2, n) :: held) segs (zgetFileSpace fuel f n reuse).1 ∧
    Kept f (zgetFileSpace fuel f n reuse).1 := by
  unfold zgetFileSpace
  by_cases hc : reuse = true ∧ f.level > 1 ∧ n ≥ f.minSize ∧ n ≤ f.maxAvail
  · obtain ⟨i1, i2, i3⟩ := searchTables_inv n fuel f 0 h
    rw [if_pos hc]
    rcases hs : searchTables n fuel f 0 with ⟨f1, a⟩
    rw [hs] at i1 i2 i3
    simp only at i1 i2 i3 ⊢
    by_cases ha : a = 0
    · rw [if_pos ha]; exact ⟨i1.eof n, i2.trans ⟨rfl, rfl, rfl, rfl⟩⟩
    · rw [if_neg ha]; exact ⟨i3 ha, i2⟩
  · rw [if_neg hc]
    simp only
    exact ⟨h.eof n, rfl, rfl, rfl, rfl⟩

theorem fillZero_cov (e : Nat × Nat) : ∀ (l l' : List (Nat × Nat)) (w : Nat), fillZero e l = some l' →
    covS l' w ≤ covS l w + cnt (e.2, e.1) w := by
  intro l
  induction l with
  | nil => intro l' w h; simp [fillZero] at h
  | cons a l ih =>
    intro l' w h
    unfold fillZero at h
    by_cases ha : a.1 = 0
    · rw [if_pos ha] at h; simp at h; subst h; simp [covS]; omega
    · rw [if_neg ha] at h
      simp at h
      obtain ⟨l2, h2, rfl⟩ := h
      have := ih l2 w h2
      simp only [covS, List.map_cons, List.sum_cons] at this ⊢
      omega

theorem insertSlot_cov (e : Nat × Nat) (l l' : List (Nat × Nat)) (w : Nat) (h : insertSlot e l = some l') :
    covS l' w ≤ covS l w + cnt (e.2, e.1) w := by
  unfold insertSlot at h
  cases hf : fillZero e l with
  | some x => rw [hf] at h; simp at h; subst h; exact fillZero_cov e l x w hf
  | none =>
    rw [hf] at h
    simp only at h
    split at h
    · simp at h; subst h; exact covS_set_le ..
    · simp at h

theorem readRelease_inv {held segs} {f : AFile} (h : AInv held segs f) (hz : f.segAvail ≠ 0) (k : Nat) :
    ∃ segs', AInv held segs' (readRelease f k).2 ∧ Kept f (readRelease f k).2 ∧ (readRelease f k).2.segAvail ≠ 0 ∧
    ∀ arr k1, (readRelease f k).1 = some (arr, k1) → f.level ≠ 1 ∧ (readRelease f k).2.segAvail ∈ segs' ∧
      arr = (readRelease f k).2.mem (readRelease f k).2.segAvail := by
  unfold readRelease
  by_cases h1 : f.level = 1
  · rw [if_pos h1]; exact ⟨segs, h, Kept.refl f, hz, fun arr k1 e => by simp at e⟩
  rw [if_neg h1]
  by_cases h2 : k = 0 ∨ k = f.segNumber
  · rw [if_pos h2]
    exact ⟨segs, h, Kept.refl f, hz, fun arr k1 e => ⟨h1, h.avail.resolve_left hz, by simp at e; exact e.1.symm⟩⟩
  rw [if_neg h2]
  by_cases h3 : k < f.maxSeg
  · rw [if_pos h3]
    obtain ⟨segs', i1, i2, i3, i4⟩ := walkCreate_inv k f segs f.table h hz h1 h.table_mem
    rcases hw : walkCreate k f f.table with ⟨f1, a⟩
    rw [hw] at i1 i2 i3 i4
    simp only at i1 i2 i3 i4 ⊢
    refine ⟨segs', i1.frame rfl rfl (Or.inr i2) rfl rfl (fun _ => Nat.le_refl _), i4.trans ⟨rfl, rfl, rfl, rfl⟩,
      fun e => i1.nz (e ▸ i2), fun arr k1 e => ⟨h1, i2, by simp at e; exact e.1.symm⟩⟩
  · rw [if_neg h3]
    exact ⟨segs, h, Kept.refl f, hz, fun arr k1 e => by simp at e⟩

theorem releaseTables_inv {held : List (Nat × Nat)} (n a : Nat) : ∀ (fuel : Nat) (f : AFile) (k : Nat) (segs : List Nat),
    AInv ((a, n) :: held) segs f → f.segAvail ≠ 0 →
    ∃ segs', AInv held segs' (releaseTables (n, a) fuel f k) ∧ Kept f (releaseTables (n, a) fuel f k) := by
  intro fuel
  have drop : ∀ {f : AFile} {segs}, AInv ((a, n) :: held) segs f → AInv held segs f := fun {f segs} h =>
    h.frame rfl rfl h.avail rfl rfl (fun w => by rw [cov_cons]; omega)
  induction fuel with
  | zero => intro f k segs h hz; exact ⟨segs, drop h, Kept.refl f⟩
  | succ fuel ih =>
    intro f k segs h hz
    obtain ⟨segs', r1, r2, r3, r4⟩ := readRelease_inv h hz k
    unfold releaseTables
    rcases hr : readRelease f k with ⟨o, f1⟩
    rw [hr] at r1 r2 r3 r4
    simp only at r1 r2 r3 r4
    cases o with
    | none => exact ⟨segs', drop r1, r2⟩
    | some ak =>
      obtain ⟨arr, k1⟩ := ak
      obtain ⟨q1, q2, q3⟩ := r4 arr k1 rfl
      simp only
      cases hi : insertSlot (n, a) arr.slots with
      | none =>
        simp only
        obtain ⟨s2, i1, i2⟩ := ih f1 (k1 + 1) segs' r1 r3
        exact ⟨s2, i1, r2.trans i2⟩
      | some l =>
        simp only
        have hl1 : f1.level ≠ 1 := by rw [r2.level]; exact q1
        unfold reclaimWrite
        rw [if_neg hl1]
        refine ⟨segs', ?_, r2.trans ⟨rfl, rfl, rfl, ?_⟩⟩
        · refine r1.put q2 { arr with slots := l } (by rw [q3]) rfl rfl rfl rfl rfl (fun w => ?_)
          have := insertSlot_cov (n, a) arr.slots l w hi
          rw [← q3, cov_cons]
          simp only at this ⊢
          omega
        · show (if 0 = f1.segAvail then _ else f1.mem 0) = f1.mem 0
          rw [if_neg]; intro e; exact r1.nz (e ▸ q2)

theorem zreclaimSet_inv {held segs} {f : AFile} (h : AInv held segs f) (l : Nat) :
    ∃ segs', AInv held segs' (zreclaimSet f l) ∧ (zreclaimSet f l).mem 0 = f.mem 0 ∧ (zreclaimSet f l).table = f.table := by
  unfold zreclaimSet
  by_cases h1 : l = 1
  · rw [if_pos h1]
    by_cases h2 : f.total > 0
    · rw [if_pos h2]
      have ht := h.table_mem
      refine ⟨[f.table], ⟨?_, rfl, by simp, ?_, h.pos, ?_, Or.inr (by simp), ?_⟩, ?_, rfl⟩
      · show (if f.table = f.table then Seg.zero f.slotsN else _).link = 0
        rw [if_pos rfl]; rfl
      · intro e; simp at e; exact h.nz (e ▸ ht)
      · intro s hs; simp at hs; subst hs; exact h.below _ ht
      · intro w
        have c := h.cover w
        show cov held w + chainCov f.segSize (fun b => if b = f.table then Seg.zero f.slotsN else f.mem b) [f.table] w ≤ if w < f.fileSize then 1 else 0
        rw [chainCov_cons, if_pos rfl, covS_zero]
        have : chainCov f.segSize (fun b => if b = f.table then Seg.zero f.slotsN else f.mem b) [] w = 0 := rfl
        rw [this]
        obtain ⟨p, q, hpq⟩ := List.append_of_mem ht
        rw [hpq, chainCov_append, chainCov_cons] at c
        omega
      · show (if 0 = f.table then _ else f.mem 0) = _
        rw [if_neg]; intro e; exact h.nz (e ▸ ht)
    · rw [if_neg h2]; exact ⟨segs, h, rfl, rfl⟩
  · rw [if_neg h1]
    exact ⟨segs, h.frame rfl rfl h.avail rfl rfl (fun _ => Nat.le_refl _), rfl, rfl⟩

/-- one request keeps the invariant; the header `(0, base)` counts as held -/
theorem aStep_inv (fuel base : Nat) (s : Ledger) (segs : List Nat) (o : AOp)
    (h : AInv ((0, base) :: s.held) segs s.file)
    (hg : match o with | .release _ _ => s.file.segAvail ≠ 0 | _ => True) :
    ∃ segs', AInv ((0, base) :: (aStep fuel s o).held) segs' (aStep fuel s o).file ∧
      (aStep fuel s o).file.mem 0 = s.file.mem 0 := by
  cases o with
  | get n reuse =>
    obtain ⟨i1, i2⟩ := zgetFileSpace_inv fuel n reuse h
    refine ⟨segs, i1.frame rfl rfl i1.avail rfl rfl (fun w => ?_), i2.header⟩
    simp only [aStep, cov_cons]; omega
  | release i n =>
    simp only [aStep]
    cases hh : s.held[i]? with
    | none => exact ⟨segs, h, rfl⟩
    | some al =>
      obtain ⟨a, len⟩ := al
      simp only
      by_cases hn : n ≤ len
      · rw [if_pos hn]
        simp only
        have h' : AInv ((a, n) :: (0, base) :: s.held.set i (a + n, len - n)) segs s.file := by
          refine h.frame rfl rfl h.avail rfl rfl (fun w => ?_)
          have := cov_set s.held i (a + n, len - n) (a, len) w hh
          rw [cov_cons, cov_cons, cov_cons]
          have e : cnt (a, n) w + cnt (a + n, len - n) w = cnt (a, len) w := by
            unfold cnt; simp only; split <;> split <;> split <;> omega
          omega
        unfold zreleaseFileSpace
        by_cases hm : n ≥ s.file.minSize
        · rw [if_pos hm]
          obtain ⟨segs', i1, i2⟩ := releaseTables_inv n a fuel s.file 0 segs h' hg
          exact ⟨segs', i1, i2.header⟩
        · rw [if_neg hm]
          exact ⟨segs, h'.frame rfl rfl h'.avail rfl rfl (fun w => by rw [cov_cons (a, n)]; omega), rfl⟩
      · rw [if_neg hn]; exact ⟨segs, h, rfl⟩
  | level l =>
    simp only [aStep]
    by_cases hl : 1 ≤ l ∧ l ≤ 3
    · rw [if_pos hl]; exact ⟨segs, h.frame rfl rfl h.avail rfl rfl (fun _ => Nat.le_refl _), rfl⟩
    · rw [if_neg hl]; exact ⟨segs, h, rfl⟩
  | reset l =>
    obtain ⟨segs', i1, i2, _⟩ := zreclaimSet_inv h l
    exact ⟨segs', i1, i2⟩

theorem aRun_inv (fuel base : Nat) : ∀ (ops : List AOp) (s : Ledger) (segs : List Nat),
    AInv ((0, base) :: s.held) segs s.file → noReleaseAfterMiss fuel s ops →
    ∃ segs', AInv ((0, base) :: (aRun fuel s ops).held) segs' (aRun fuel s ops).file ∧
      (aRun fuel s ops).file.mem 0 = s.file.mem 0
  | [], s, segs, h, _ => ⟨segs, h, rfl⟩
  | o :: os, s, segs, h, hg => by
    obtain ⟨s1, i1, i2⟩ := aStep_inv fuel base s segs o h hg.1
    obtain ⟨s2, j1, j2⟩ := aRun_inv fuel base os (aStep fuel s o) s1 i1 hg.2
    exact ⟨s2, j1, j2.trans i2⟩

theorem newAllocFile_inv (base : Nat) (hdr : Seg) (hb : 0 < base) : AInv [(0, base)] [base] (newAllocFile base hdr) := by
  refine ⟨?_, rfl, by simp, by simp; omega, Nat.succ_pos _, ?_, Or.inr (List.mem_singleton.mpr rfl), fun w => ?_⟩
  · show ((newAllocFile base hdr).mem base).link = 0
    rw [show (newAllocFile base hdr).mem base = Seg.zero 500 from if_pos rfl]; rfl
  · intro s hs
    rw [List.mem_singleton] at hs; subst hs
    show s < s + 1002
    omega
  · show cov [(0, base)] w + chainCov 1002 (newAllocFile base hdr).mem [base] w ≤ if w < base + 1002 then 1 else 0
    rw [chainCov_cons]
    have e : (newAllocFile base hdr).mem base = Seg.zero 500 := if_pos rfl
    rw [e, covS_zero, cov_cons]
    have e2 : chainCov 1002 (newAllocFile base hdr).mem [] w = 0 := rfl
    have e3 : cov [] w = 0 := rfl
    rw [e2, e3]
    unfold cnt; simp only
    split <;> split <;> split <;> omega

theorem isTable_mem {held segs} {f : AFile} (h : AInv held segs f) {a : Nat} (ha : IsTable f a) : a ∈ segs := by
  induction ha with
  | first => exact h.table_mem
  | next a _ hl ih => exact linked_next h.linked ih hl

theorem cnt_one {r : Nat × Nat} {w : Nat} (h : inPiece r w) : cnt r w = 1 := if_pos h

theorem cov_mem {l : List (Nat × Nat)} {r : Nat × Nat} (h : r ∈ l) (w : Nat) : cnt r w ≤ cov l w := by
  induction l with
  | nil => simp at h
  | cons a l ih =>
    rw [cov_cons]
    rcases List.mem_cons.mp h with rfl | h
    · omega
    · have := ih h; omega

theorem cov_pairwise {l : List (Nat × Nat)} (h : ∀ w, cov l w ≤ 1) : l.Pairwise apart := by
  induction l with
  | nil => exact List.Pairwise.nil
  | cons a l ih =>
    refine List.Pairwise.cons (fun b hb w hw => ?_) (ih fun w => ?_)
    · have := h w
      rw [cov_cons, cnt_one hw.1] at this
      have := cov_mem hb w
      rw [cnt_one hw.2] at this
      omega
    · have := h w; rw [cov_cons] at this; omega

theorem chain_mem {n : Nat} {m : Nat → Seg} {l : List Nat} {a : Nat} (w : Nat) (h : a ∈ l) :
    cnt (a, n) w + covS (m a).slots w ≤ chainCov n m l w := by
  induction l with
  | nil => simp at h
  | cons b l ih =>
    rw [chainCov_cons]
    rcases List.mem_cons.mp h with rfl | h
    · omega
    · have := ih h; omega

theorem covS_mem {l : List (Nat × Nat)} {r : Nat × Nat} (h : r ∈ l) (w : Nat) : cnt (r.2, r.1) w ≤ covS l w := by
  induction l with
  | nil => simp at h
  | cons a l ih =>
    have e : covS (a :: l) w = cnt (a.2, a.1) w + covS l w := by simp [covS]
    rw [e]
    rcases List.mem_cons.mp h with rfl | h
    · omega
    · have := ih h; omega

theorem bestFit_found (n : Nat) : ∀ (l : List (Nat × Nat)) (i : Nat) (best : Option (Nat × Nat)),
    (best.isSome ∨ ∃ x ∈ l, n ≤ x.1) → (bestFit n l i best).isSome := by
  intro l
  induction l with
  | nil => intro i best h; rcases h with h | ⟨x, hx, _⟩
           · exact h
           · simp at hx
  | cons a l ih =>
    obtain ⟨s, x⟩ := a
    intro i best h
    unfold bestFit
    by_cases hs : s ≥ n ∧ s < (best.elim (s + 1) (·.1))
    · rw [if_pos hs]
      by_cases he : s = n
      · rw [if_pos he]; rfl
      · rw [if_neg he]; exact ih _ _ (Or.inl rfl)
    · rw [if_neg hs]
      apply ih
      rcases h with h | ⟨y, hy, hn⟩
      · exact Or.inl h
      · rcases List.mem_cons.mp hy with rfl | hy
        · left
          cases best with
          | none => simp at hs; omega
          | some b => rfl
        · right; exact ⟨y, hy, hn⟩

theorem walkGet_idx {f : AFile} : ∀ (segs : List Nat) (k s t : Nat), 0 ∉ segs → Linked f.mem segs →
    segs.head? = some t → segs[k]? = some s → walkGet f k t = s
  | [], _, _, _, _, _, h, _ => by simp at h
  | a :: l, 0, s, t, _, _, h, hs => by
    simp at h hs; subst h; subst hs; rfl
  | [a], k + 1, s, t, _, _, _, hs => by simp at hs
  | a :: b :: l, k + 1, s, t, h0, hl, h, hs => by
    simp only [Linked] at hl
    simp only [List.head?_cons, Option.some.injEq] at h; subst h
    unfold walkGet
    simp only
    have hb : b ≠ 0 := fun e => h0 (by simp [e])
    rw [hl.1, if_neg hb]
    exact walkGet_idx (b :: l) k s b (fun e => h0 (List.mem_cons_of_mem _ e)) hl.2 rfl (by simpa using hs)

/-- a fitting entry in a table not yet searched is found -/
theorem searchTables_found {held segs} (n base : Nat) (hn : 0 < n) (hb : 0 < base) : ∀ (fuel : Nat) (f : AFile) (k : Nat),
    AInv ((0, base) :: held) segs f → f.level ≠ 1 → segs.length ≤ k + fuel →
    (∃ j s, k ≤ j ∧ segs[j]? = some s ∧ ∃ x ∈ (f.mem s).slots, n ≤ x.1) →
    (searchTables n fuel f k).2 ≠ 0 ∧ (searchTables n fuel f k).1.fileSize = f.fileSize := by
  intro fuel
  induction fuel with
  | zero =>
    intro f k h hl hf ⟨j, s, h1, h2, _⟩
    have := (List.getElem?_eq_some_iff.mp h2).1
    omega
  | succ fuel ih =>
    intro f k h hl hf ⟨j, s, h1, h2, h3⟩
    have hjlt := (List.getElem?_eq_some_iff.mp h2).1
    obtain ⟨t, ht⟩ : ∃ t, segs[k]? = some t := ⟨_, List.getElem?_eq_getElem (by omega)⟩
    have htm : t ∈ segs := List.mem_of_getElem? ht
    have hw := walkGet_idx segs k t f.table h.nz h.linked h.head ht
    have ht0 : t ≠ 0 := fun e => h.nz (e ▸ htm)
    have hr : ∃ f1, readGet f k = (some (f.mem t), f1) ∧ f1.mem = f.mem ∧ f1.fileSize = f.fileSize ∧
        f1.level = f.level ∧ f1.segAvail = t := by
      unfold readGet
      rw [if_neg hl]
      by_cases hk : k = 0
      · subst hk
        rw [if_pos rfl]
        have : t = f.table := by unfold walkGet at hw; exact hw.symm
        subst this
        exact ⟨_, rfl, rfl, rfl, rfl, rfl⟩
      · rw [if_neg hk]
        simp only [hw]
        rw [if_neg ht0]
        exact ⟨_, rfl, rfl, rfl, rfl, rfl⟩
    obtain ⟨f1, e1, e2, e3, e4, e5⟩ := hr
    have hinv := (readGet_inv h k).1
    rw [e1] at hinv
    simp only at hinv
    unfold searchTables
    rw [e1]
    simp only
    cases hbf : bestFit n (f.mem t).slots 0 none with
    | none =>
      simp only
      have hne : j ≠ k := by
        intro e; subst e
        have : s = t := by rw [h2] at ht; simpa using ht
        subst this
        have := bestFit_found n (f.mem s).slots 0 none (Or.inr h3)
        rw [hbf] at this; simp at this
      have := ih f1 (k + 1) hinv (by rw [e4]; exact hl) (by omega) ⟨j, s, by omega, h2, by rw [e2]; exact h3⟩
      rw [e3] at this
      exact this
    | some hv =>
      obtain ⟨sz, loc⟩ := hv
      simp only
      obtain ⟨i, x, _, g2, g3⟩ := (bestFit_spec n _ _ _ _ _ hbf).resolve_left (by simp)
      have hi : i = loc := by omega
      subst hi
      have hg : (f.mem t).slots.getD i (0, 0) = (sz, x) := by
        rw [List.getD_eq_getElem?_getD, g2]; rfl
      rw [hg]
      constructor
      · simp only
        intro hx
        subst hx
        have c := h.cover 0
        rw [cov_cons] at c
        have c1 := chain_mem (n := f.segSize) (m := f.mem) 0 htm
        have c2 := covS_mem (List.mem_of_getElem? g2) 0
        have c3 : cnt (0, sz) 0 = 1 := cnt_one ⟨Nat.le_refl _, by simp; omega⟩
        have c4 : cnt (0, base) 0 = 1 := cnt_one ⟨Nat.le_refl _, by simp; omega⟩
        simp only at c2
        rw [c4] at c
        split at c <;> omega
      · unfold reclaimWrite
        split
        · exact e3
        · exact e3

end Hec
