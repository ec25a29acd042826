import Verif.Proofs.OldNames
import Verif.Proofs.Dates
import Verif.Model.Intervals
import Verif.Proofs.Records
import Verif.Props.EngineCases
/-!
C68: pathnames with a minute interval of version 6 (`15MIN` for `15Minute`).
-/
namespace Hec
set_option synthInstance.maxSize 1000
set_option synthInstance.maxHeartbeats 200000
open _root_.Spec (Op run runs Reachable GoodSizes create AllAllowed OldMinute IsOldName minuteName runName runsName NoOldNames stored oddHeaders SixParts)
open Hec.Spec (sameUpToCase)

theorem notOld_none {p : Bytes} (h : ∀ front e rest, ¬ IsOldName p front e rest) : ztsPathCompatible p = none := by
  cases hq : ztsPathCompatible p with
  | none => rfl
  | some q =>
    obtain ⟨f, e, r, h1, _⟩ := (compatible_iff p q).1 hq
    exact absurd h1 (h f e r)

theorem zcheckName_plain {c : Cfg} {s : Eng} {p : Bytes} (h : ztsPathCompatible p = none) :
    zcheckName c s p = (zcheck c s p REC_STATUS_VALID).map fun k => (k, p) := by
  unfold zcheckName
  cases zcheck c s p REC_STATUS_VALID with
  | none => rfl
  | some k => simp [h]

theorem zreadInfoName_plain {c : Cfg} {s : Eng} {p : Bytes} (h : ztsPathCompatible p = none) :
    zreadInfoName c s p = (zreadInfo c s p REC_STATUS_VALID).map fun y => ((y.1, p), y.2) := by
  unfold zreadInfoName zreadInfo
  rw [zcheckName_plain h]
  cases zcheck c s p REC_STATUS_VALID with
  | none => rfl
  | some k =>
    simp only [Option.map_some]
    split
    · split <;> rfl
    · rfl

theorem findSlotName_self (c : Cfg) (p : Bytes) (u : Bool) (bin : Nat → Nat) : ∀ fuel i, findSlotName c p p u bin fuel i = findSlot c p u bin fuel i
  | 0, _ => rfl
  | fuel + 1, i => by simp only [findSlotName, findSlot, findSlotName_self c p u bin fuel]

theorem overread_self (p after : Bytes) : overread p after p.length = p := by
  unfold overread
  rw [List.take_append_of_le_length (Nat.le_refl _), List.take_length]

theorem zbinUpdateName_self (c : Cfg) (s : Eng) (k : Chk) (p : Bytes) (a st t w d : Nat) :
    zbinUpdateName c s k p p p a st t w d = zbinUpdate c s k p a st t w d := by
  unfold zbinUpdateName zbinUpdate
  simp only [findSlotName_self]
  rfl

theorem newInfoName_self (c : Cfg) (r : Req) (a alloc : Nat) : newInfoName c r r.path a alloc = newInfo c r a alloc := by
  funext i
  unfold newInfoName
  by_cases h1 : i = kinfoPathnameLength
  · rw [if_pos h1, h1]
    simp [newInfo, upd, layoutInfo, kinfoPathnameLength, kinfoPathname, kinfoFlag, kinfoStatus, kinfoHash, kinfoTypeVersion, kinfoExpansion, kinfoLastWriteTime, kinfoCreationTime, kinfoFirstDate, kinfoLastDate, kinfoProgram, kinfoInternalHeadAddress, kinfoInternalHeadNumber, kinfoHeader2Address, kinfoHeader2Number, kinfoUserHeadAddress, kinfoUserHeadNumber, kinfoValues1Address, kinfoValues1Number, kinfoValues2Address, kinfoValues2Number, kinfoValues3Address, kinfoValues3Number, kinfoAllocatedSize, kinfoNumberData, kinfoLogicalNumber]
  · rw [if_neg h1]
    by_cases h2 : i = kinfoHash
    · rw [if_pos h2, h2]
      simp [newInfo, upd, layoutInfo, kinfoPathnameLength, kinfoPathname, kinfoFlag, kinfoStatus, kinfoHash, kinfoTypeVersion, kinfoExpansion, kinfoLastWriteTime, kinfoCreationTime, kinfoFirstDate, kinfoLastDate, kinfoProgram, kinfoInternalHeadAddress, kinfoInternalHeadNumber, kinfoHeader2Address, kinfoHeader2Number, kinfoUserHeadAddress, kinfoUserHeadNumber, kinfoValues1Address, kinfoValues1Number, kinfoValues2Address, kinfoValues2Number, kinfoValues3Address, kinfoValues3Number, kinfoAllocatedSize, kinfoNumberData, kinfoLogicalNumber]
    · rw [if_neg h2]

theorem zwriteNewName_self (c : Cfg) (s : Eng) (k : Chk) (after : Bytes) (r : Req) : zwriteNewName c s k r.path after r = zwriteNew c s k r := by
  unfold zwriteNewName zwriteNew
  simp only [overread_self, zbinUpdateName_self, newInfoName_self]

theorem zwriteName_plain {c : Cfg} {s : Eng} {after : Bytes} {r : Req} (h : ztsPathCompatible r.path = none) : zwriteName c s after r = zwrite c s r := by
  unfold zwriteName zwrite
  rw [zreadInfoName_plain h]
  cases zreadInfo c s r.path REC_STATUS_VALID with
  | none => rfl
  | some y =>
    simp only [Option.map_some, Option.bind_some]
    cases y.2 with
    | none => simp only [zwriteNewName_self]
    | some info => rfl

theorem zdeleteName_plain {c : Cfg} {s : Eng} {p : Bytes} (h : ztsPathCompatible p = none) : zdeleteName c s p = zdeleteInternal c s p false := by
  unfold zdeleteName zdeleteInternal
  rw [zreadInfoName_plain h]
  simp only [Bool.false_eq_true, if_false]
  cases zreadInfo c s p REC_STATUS_VALID with
  | none => rfl
  | some y =>
    simp only [Option.map_some]
    cases y.2 with
    | none => rfl
    | some info => rfl

/-- C68, first part.  As long as no pathname has an old minute interval, the calls look up exactly the pathnames they are
given: they do what Model/Engine says, and what the other theorems are about. -/
theorem C68_other_names (c : Cfg) (ops : List (Bytes × Op)) (h : NoOldNames (ops.map Prod.snd)) (s : Eng) :
    runsName c s ops = runs c s (ops.map Prod.snd) ∧
    ∀ s' p, (∀ front e rest, ¬ IsOldName p front e rest) → zreadName c s' p = zread c s' p := by
  constructor
  · induction ops generalizing s with
    | nil => rfl
    | cons op ops ih =>
      have h1 : ∀ p ∈ op.2.paths, ztsPathCompatible p = none := fun p hp => notOld_none (h op.2 (by simp) p hp)
      have hrun : runName c s op.1 op.2 = run c s op.2 := by
        obtain ⟨after, op⟩ := op
        cases op with
        | write r => exact zwriteName_plain (h1 _ (by simp [Op.paths]))
        | delete p => exact zdeleteName_plain (h1 _ (by simp [Op.paths]))
        | undelete p => rfl
        | rename o n v => rfl
      simp only [runsName, List.map_cons, runs, hrun]
      cases run c s op.2 with
      | none => rfl
      | some x => simp only [Option.bind_some]; rw [ih (fun op hop => h op (by simp [hop])) x.1]
  · intro s' p hp
    unfold zreadName zread
    rw [zreadInfoName_plain (notOld_none hp)]
    cases zreadInfo c s' p REC_STATUS_VALID <;> rfl

theorem second_lookup {c : Cfg} (hc : c.OK) {G : Ghost} {s : Eng} (I : Inv c G s) {p q : Bytes} (hp : p.length ≤ 392) (hq : q.length ≤ 392)
    (hz : zread c s p = some none) (h : ztsPathCompatible p = some q) :
    zreadInfoName c s p = (zreadInfo c s q REC_STATUS_VALID).map fun y => ((y.1, q), y.2) := by
  obtain ⟨k, hk, hf⟩ := zcheck_found hc I hp
  rw [zread_abs hc I hp] at hz
  injection hz with hz
  rw [hz] at hf
  unfold zreadInfoName zreadInfo zcheckName
  rw [hk, Option.bind_some, if_neg (by rw [hf]; decide), h]
  simp only [List.take_of_length_le hq]
  cases zcheck c s q REC_STATUS_VALID with
  | none => rfl
  | some k2 =>
    simp only [Option.map_some]
    split
    · split <;> rfl
    · rfl

theorem oldMinute_case {e e' : Bytes} (h : OldMinute e) (hs : e.map toupper = e'.map toupper) : OldMinute e' := by
  obtain ⟨a, m, i, n, rfl, h1, h2, h3, ha⟩ := h
  rcases ha with ha | ⟨x, y, rfl, hy⟩
  · match a, ha with
    | [a0], _ =>
      match e', hs with
      | [b0, b1, b2, b3], hs =>
        simp only [List.cons_append, List.nil_append, List.map_cons, List.map_nil, List.cons.injEq, and_true] at hs
        exact ⟨[b0], b1, b2, b3, rfl, by rw [← hs.2.1]; exact h1, by rw [← hs.2.2.1]; exact h2, by rw [← hs.2.2.2]; exact h3, Or.inl rfl⟩
      | [], hs => simp at hs
      | [_], hs => simp at hs
      | [_, _], hs => simp at hs
      | [_, _, _], hs => simp at hs
      | _ :: _ :: _ :: _ :: _ :: _, hs => simp at hs
  · match e', hs with
    | [b0, b1, b2, b3, b4], hs =>
      simp only [List.cons_append, List.nil_append, List.map_cons, List.map_nil, List.cons.injEq, and_true] at hs
      exact ⟨[b0, b1], b2, b3, b4, rfl, by rw [← hs.2.2.1]; exact h1, by rw [← hs.2.2.2.1]; exact h2, by rw [← hs.2.2.2.2]; exact h3,
        Or.inr ⟨b0, b1, rfl, by rw [← hs.2.1]; exact hy⟩⟩
    | [], hs => simp at hs
    | [_], hs => simp at hs
    | [_, _], hs => simp at hs
    | [_, _, _], hs => simp at hs
    | [_, _, _, _], hs => simp at hs
    | _ :: _ :: _ :: _ :: _ :: _ :: _, hs => simp at hs

theorem toupper_slash (c : UInt8) (h : toupper c = 47) : c = 47 := by
  have := forallByte (fun c => toupper c = 47 → c = 47) (by decide +kernel) c
  exact this h

theorem oldName_case {p x f e r : Bytes} (h : IsOldName p f e r) (hs : Same p x) : ∃ f' e' r', IsOldName x f' e' r' := by
  obtain ⟨h1, h2, h3, h4⟩ := h
  unfold Same at hs
  rw [h1, List.map_append, List.map_cons, List.map_append, List.map_cons] at hs
  obtain ⟨f', t, hx, hf, ht⟩ := List.map_eq_append_iff.1 hs.symm
  obtain ⟨c, t2, rfl, hc, ht2⟩ := List.map_eq_cons_iff.1 ht
  obtain ⟨e', t3, rfl, he, ht3⟩ := List.map_eq_append_iff.1 ht2
  obtain ⟨c2, r', rfl, hc2, _⟩ := List.map_eq_cons_iff.1 ht3
  have e1 := toupper_slash c hc
  have e2 := toupper_slash c2 hc2
  subst e1; subst e2
  have hcount : ∀ l : Bytes, (l.map toupper).count 47 = l.count 47 := by
    intro l
    induction l with
    | nil => rfl
    | cons a l ih =>
      rw [List.map_cons]
      by_cases ha : a = 47
      · subst ha
        rw [show toupper 47 = 47 by decide, List.count_cons_self, List.count_cons_self, ih]
      · rw [List.count_cons_of_ne (fun h => ha (toupper_slash a h)), List.count_cons_of_ne ha, ih]
  refine ⟨f', e', r', hx, ?_, ?_, oldMinute_case h4 he.symm⟩
  · rw [← hcount, hf, hcount, h2]
  · intro hm
    have : (47 : UInt8) ∈ e'.map toupper := List.mem_map.2 ⟨47, hm, by decide⟩
    rw [he] at this
    obtain ⟨y, hy, hy2⟩ := List.mem_map.1 this
    rw [toupper_slash y hy2] at hy
    exact h3 hy

/-- C68, second part.  In a file written without old names, an old name is a second name of the record under the new one: reading
through it gives that record, deleting deletes it, and writing overwrites it - if it exists.
Missing: writing when it does not exist (`C68_lost_violation`). -/
theorem C68_second_name_partial (g : GoodSizes hdrSize maxHash binSize) {past : List Op} {s : Eng}
    (R : Reachable (create hdrSize maxHash binSize mul).1 (create hdrSize maxHash binSize mul).2 past s) (hno : NoOldNames past)
    {p front e rest : Bytes} (hp : IsOldName p front e rest) (hl : (minuteName front e rest).length ≤ 392) :
    zreadName (create hdrSize maxHash binSize mul).1 s p = zread (create hdrSize maxHash binSize mul).1 s (minuteName front e rest) ∧
    zdeleteName (create hdrSize maxHash binSize mul).1 s p = zdeleteInternal (create hdrSize maxHash binSize mul).1 s (minuteName front e rest) false ∧
    ∀ rec, zread (create hdrSize maxHash binSize mul).1 s (minuteName front e rest) = some (some rec) → ∀ after r, r.path = p →
      zwriteName (create hdrSize maxHash binSize mul).1 s after r = zwrite (create hdrSize maxHash binSize mul).1 s { r with path := minuteName front e rest } := by
  have hc := create_OK (mul := mul) g
  obtain ⟨G, H⟩ := reach g R
  have hq := (compatible_iff p (minuteName front e rest)).2 ⟨front, e, rest, hp, rfl⟩
  have hlen : p.length ≤ 392 := by
    rw [hp.1]
    unfold minuteName at hl
    simp only [List.length_append, List.length_cons, List.length_take, List.length_nil] at hl ⊢
    omega
  have hz : zread (create hdrSize maxHash binSize mul).1 s p = some none := by
    obtain ⟨ha, ress, hr⟩ := R
    obtain ⟨s', ress', st, k1, k2, k3⟩ := C27_refines_store_partial (mul := mul) g past ha
    have : some (s', ress') = some (s, ress) := k1.symm.trans hr
    injection this with this; injection this with this _; subst this
    rw [k3 p hlen, steps_other k2 (fun op hop x hx hs => ?_)]
    · rfl
    · obtain ⟨f', e', r', ho⟩ := oldName_case hp (same_iff.1 (sameUp_symm hs))
      exact hno op hop x hx f' e' r' ho
  have h2 := second_lookup hc H.inv hlen hl hz hq
  refine ⟨?_, ?_, ?_⟩
  · unfold zreadName zread
    rw [h2]
    cases zreadInfo (create hdrSize maxHash binSize mul).1 s (minuteName front e rest) REC_STATUS_VALID <;> rfl
  · unfold zdeleteName zdeleteInternal
    rw [h2]
    simp only [Bool.false_eq_true, if_false]
    cases zreadInfo (create hdrSize maxHash binSize mul).1 s (minuteName front e rest) REC_STATUS_VALID with
    | none => rfl
    | some y =>
      simp only [Option.map_some]
      cases y.2 <;> rfl
  · intro rec hrec after r hr
    subst hr
    unfold zread at hrec
    unfold zwriteName zwrite
    rw [h2]
    cases hy : zreadInfo (create hdrSize maxHash binSize mul).1 s (minuteName front e rest) REC_STATUS_VALID with
    | none => rw [hy] at hrec; cases hrec
    | some y =>
      rw [hy] at hrec
      simp only [Option.map_some, Option.bind_some] at hrec ⊢
      cases hy2 : y.2 with
      | none => rw [hy2] at hrec; cases hrec
      | some info => rfl

/-- The names of the intervals of version 7, which are the E parts of the blocks of a series, are not old: series are looked up
under their own names only. -/
theorem C68_interval_names : ∀ x ∈ intervalTable 7, ¬ OldMinute x.1 := by
  have h : ∀ x ∈ intervalTable 7, ztsPathCompatible ([47, 47, 47, 47] ++ 47 :: (x.1 ++ 47 :: [])) = none ∧ 47 ∉ x.1 := by decide +kernel
  intro x hx ho
  have := (compatible_iff _ _).2 ⟨[47, 47, 47, 47], x.1, [], ⟨rfl, by decide, (h x hx).2, ho⟩, rfl⟩
  rw [(h x hx).1] at this
  cases this

/-- `/A/B/C//15Min/F/`, `/A/B/C//15Minute/F/`, `/A/B/C//ADMIN/F/`. -/
def oldName : Bytes := [47, 65, 47, 66, 47, 67, 47, 47, 49, 53, 77, 105, 110, 47, 70, 47]
def newName : Bytes := [47, 65, 47, 66, 47, 67, 47, 47, 49, 53, 77, 105, 110, 117, 116, 101, 47, 70, 47]
def admin : Bytes := [47, 65, 47, 66, 47, 67, 47, 47, 65, 68, 77, 73, 78, 47, 70, 47]

theorem oldName_is : IsOldName oldName [47, 65, 47, 66, 47, 67, 47] [49, 53, 77, 105, 110] [70, 47] ∧
    minuteName [47, 65, 47, 66, 47, 67, 47] [49, 53, 77, 105, 110] [70, 47] = newName :=
  ⟨⟨rfl, by decide, by decide, [49, 53], 77, 105, 110, rfl, by decide, by decide, by decide, Or.inr ⟨49, 53, rfl, by decide⟩⟩, by decide⟩

/-- The second part speaks about a file with a record under the new name. -/
example : ∃ s past, Reachable tiny.1 tiny.2 past s ∧ NoOldNames past ∧ ∃ rec, zread tiny.1 s newName = some (some rec) := by
  have hp : _root_.Spec.Plain [] [Op.write (req newName [1] [] [2])] := by
    simp [_root_.Spec.Plain, req, oddHeaders, newName]
  obtain ⟨s, ress, h, hz⟩ := C27_last_write_partial (mul := id) tiny_good _ hp
  refine ⟨s, _, ⟨plain_allowed (create_OK tiny_good) _ hp, ress, h⟩, ?_, ?_⟩
  · intro op hop p hx f e r ho
    have hcn := (compatible_iff p _).2 ⟨f, e, r, ho, rfl⟩
    simp only [List.mem_singleton] at hop
    subst hop
    simp only [Op.paths, List.mem_singleton] at hx
    subst hx
    rw [show ztsPathCompatible (req newName [1] [] [2]).path = none by decide] at hcn
    cases hcn
  · exact ⟨_, (hz newName (by decide)).trans (by
      simp only [_root_.Spec.lastWritten, List.foldl, _root_.Spec.next]
      rw [if_pos (show sameUpToCase (req newName [1] [] [2]).path newName from same_iff.2 (Same.refl _))])⟩

/-- A record stored under a new pathname with such an E part reports success and cannot be read afterwards, neither under
this name nor under the other; storing it again adds another record.  `ADMIN` is such an E part. -/
theorem C68_lost_violation :
    ((zwriteName tiny.1 tiny.2 [1, 2, 3] (req oldName [1] [] [2])).map fun x => (x.2, x.1.hdr.numberRecords, zreadName tiny.1 x.1 oldName, zreadName tiny.1 x.1 newName)) =
      some (.ok, 1, some none, some none) ∧
    ((zwriteName tiny.1 tiny.2 [1, 2, 3] (req admin [1] [] [2])).map fun x => (x.2, x.1.hdr.numberRecords, zreadName tiny.1 x.1 admin)) = some (.ok, 1, some none) ∧
    ((zwriteName tiny.1 tiny.2 [1, 2, 3] (req admin [1] [] [2])).bind fun x => (zwriteName tiny.1 x.1 [1, 2, 3] (req admin [1] [] [2])).map fun x => (x.2, x.1.hdr.numberRecords)) =
      some (.ok, 2) := by decide +kernel

/-- A record under the new name is overwritten by a write under the old name, though the two are different pathnames. -/
theorem C68_overwritten_violation :
    ((zwriteName tiny.1 tiny.2 [] (req newName [1] [] [2])).bind fun x => (zwriteName tiny.1 x.1 [] (req oldName [1] [] [7])).bind fun y => zreadName tiny.1 y.1 newName) =
      some (some (stored (req newName [1] [] [7]) 2)) := by decide +kernel

end Hec
