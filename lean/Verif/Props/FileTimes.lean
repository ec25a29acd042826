import Verif.Proofs.FileTimes
import Verif.Props.WhatChanged
import Verif.Props.EngineCases
import Verif.Props.RenameCases
/-!
C101: the time of the last write to the file.
-/
namespace Hec
set_option linter.unusedSimpArgs false
set_option linter.unusedVariables false
open _root_.Spec (Op Store Step Steps run runs Allowed AllAllowed Plain Reachable GoodSizes create join keepDates renamed SixParts IsPart Set DropOne stored
  Timed readings Rising timesAfter timesRuns)
open Hec.Spec (sameUpToCase)

variable {hdrSize maxHash binSize : Nat} {mul : Nat → Nat}

theorem times_reach (g : GoodSizes hdrSize maxHash binSize) {t0 : Nat} {calls : List Timed} {s : Eng} (hx : Rising t0 calls)
    (R : Reachable (create hdrSize maxHash binSize mul).1 (create hdrSize maxHash binSize mul).2 (calls.map (·.1)) s) :
    ∃ G t, timesRuns (create hdrSize maxHash binSize mul).1 (create hdrSize maxHash binSize mul).2 (newTimes t0) calls = some t ∧
      HInv (create hdrSize maxHash binSize mul).1 G s (calls.map (·.1)) ∧
      TimesRun Store.empty (abs (create hdrSize maxHash binSize mul).1 G s.disk) calls (newTimes t0) t := by
  obtain ⟨ha, ress, hr⟩ := R
  have H0 : HInv (create hdrSize maxHash binSize mul).1 _ _ [] := newFile_inv (by have := g.bin; omega)
  obtain ⟨G, t, h1, h2, h3⟩ := times_runs (create_OK g) calls H0 (by rw [newFile_abs]; exact empty_times t0) hx ha hr
  rw [newFile_abs] at h3
  exact ⟨G, t, h1, by simpa using h2, h3⟩

/-- C101.  In every file in use, if the clock was never set back, the file's time of the last write is a time at which a call was
made (or the file was), and no record that can be read was written later. -/
theorem C101_latest_partial (g : GoodSizes hdrSize maxHash binSize) {t0 : Nat} {calls : List Timed} {s : Eng} (hx : Rising t0 calls)
    (R : Reachable (create hdrSize maxHash binSize mul).1 (create hdrSize maxHash binSize mul).2 (calls.map (·.1)) s) :
    ∃ t, timesRuns (create hdrSize maxHash binSize mul).1 (create hdrSize maxHash binSize mul).2 (newTimes t0) calls = some t ∧
      zgetLastWriteTimeFile t ∈ t0 :: calls.flatMap readings ∧ zgetMyLastWriteTime t ∈ t0 :: calls.flatMap readings ∧
      zgetMyLastWriteTime t ≤ zgetLastWriteTimeFile t ∧
      ∀ (q : Bytes) (rec : Rec), q.length ≤ 392 → zread (create hdrSize maxHash binSize mul).1 s q = some (some rec) → rec.lastWrite ≤ zgetLastWriteTimeFile t := by
  obtain ⟨G, t, h1, H, K⟩ := times_reach g hx R
  refine ⟨t, h1, ?_, ?_, K.inv.mine, fun q rec hq hz => ?_⟩
  · rcases K.mem with h | h
    · exact List.mem_cons.mpr (Or.inl h)
    · exact List.mem_cons_of_mem _ h
  · rcases K.mine with h | h
    · exact List.mem_cons.mpr (Or.inl h)
    · exact List.mem_cons_of_mem _ h
  · rw [zread_abs (create_OK (mul := mul) g) H.inv hq] at hz
    injection hz with hz
    exact K.inv.held rec (Or.inl ⟨q, hz⟩)

/-- C101.  Directly after a write it is the time of the record written. -/
theorem C101_written_partial (g : GoodSizes hdrSize maxHash binSize) {t0 : Nat} {calls : List Timed} {r : Req} {now : Nat → Nat} {s s' : Eng} (hx : Rising t0 (calls ++ [(.write r, now)]))
    (R : Reachable (create hdrSize maxHash binSize mul).1 (create hdrSize maxHash binSize mul).2 (calls.map (·.1)) s)
    (ha : Allowed (create hdrSize maxHash binSize mul).1 (calls.map (·.1)) s (.write r))
    (hw : zwrite (create hdrSize maxHash binSize mul).1 s r = some (s', .ok)) {t : FileTimes}
    (ht : timesRuns (create hdrSize maxHash binSize mul).1 (create hdrSize maxHash binSize mul).2 (newTimes t0) calls = some t) :
    ∃ t' rec, timesAfter (create hdrSize maxHash binSize mul).1 s t (.write r, now) = some t' ∧
      zread (create hdrSize maxHash binSize mul).1 s' r.path = some (some rec) ∧
      zgetLastWriteTimeFile t' = rec.lastWrite ∧ zgetMyLastWriteTime t' = rec.lastWrite := by
  have hc := create_OK (mul := mul) g
  have hx0 : Rising t0 calls := by
    unfold Rising at hx ⊢
    rw [List.flatMap_append, ← List.cons_append] at hx
    exact (List.pairwise_append.mp hx).1
  obtain ⟨G, t1, h1, H, K⟩ := times_reach g hx0 R
  obtain ⟨G', s1, res, hr, S, H1⟩ := H.step hc ha
  have he : some (s1, res) = some (s', .ok) := hr.symm.trans hw
  simp only [Option.some.injEq, Prod.mk.injEq] at he
  obtain ⟨rfl, rfl⟩ := he
  obtain ⟨t', ht', hstep⟩ := times_step hc H ha hr S now t
  have hz := zread_abs hc H1.inv (q := r.path) ha.2.1
  have hst := S.step
  generalize abs _ G' s1.disk = S' at hst hz
  generalize abs _ G s.disk = S0 at hst
  have key : ∃ v, S'.live r.path = some (stored r v) := by
    cases hst with
    | writeNew _ h2 _ => exact ⟨_, (h2 _).1 (same_iff.mpr rfl)⟩
    | overwrite _ _ h3 _ => exact ⟨_, (h3 _).1 (same_iff.mpr rfl)⟩
  obtain ⟨v, hv⟩ := key
  have := hstep.written r rfl
  subst this
  exact ⟨_, stored r v, ht', by rw [hz, hv], rfl, rfl⟩

/-- C101.  A program that remembers the time notices every change: if all calls since are later than it, and it is still the same,
then every record is as it was. -/
theorem C101_notice_partial (g : GoodSizes hdrSize maxHash binSize) {t0 : Nat} {before since : List Timed} {s s' : Eng} (hx : Rising t0 (before ++ since))
    (R : Reachable (create hdrSize maxHash binSize mul).1 (create hdrSize maxHash binSize mul).2 (before.map (·.1)) s)
    (ha : AllAllowed (create hdrSize maxHash binSize mul).1 (before.map (·.1)) s (since.map (·.1))) {ress : List Res}
    (hr : runs (create hdrSize maxHash binSize mul).1 s (since.map (·.1)) = some (s', ress)) {t t' : FileTimes}
    (ht : timesRuns (create hdrSize maxHash binSize mul).1 (create hdrSize maxHash binSize mul).2 (newTimes t0) before = some t)
    (ht' : timesRuns (create hdrSize maxHash binSize mul).1 s t since = some t')
    (hlt : ∀ x ∈ since.flatMap readings, zgetLastWriteTimeFile t < x) :
    zgetLastWriteTimeFile t ≤ zgetLastWriteTimeFile t' ∧
      (zgetLastWriteTimeFile t' = zgetLastWriteTimeFile t →
        ∀ q, q.length ≤ 392 → zread (create hdrSize maxHash binSize mul).1 s' q = zread (create hdrSize maxHash binSize mul).1 s q) := by
  have hc := create_OK (mul := mul) g
  have hx0 : Rising t0 before ∧ (since.flatMap readings).Pairwise (· ≤ ·) := by
    unfold Rising at hx ⊢
    rw [List.flatMap_append, ← List.cons_append] at hx
    exact ⟨(List.pairwise_append.mp hx).1, (List.pairwise_append.mp hx).2.1⟩
  obtain ⟨G, t1, h1, H, K⟩ := times_reach g hx0.1 R
  have : t1 = t := Option.some.inj (h1.symm.trans ht)
  subst this
  have hrise : Rising t1.last since := by
    unfold Rising
    rw [List.pairwise_cons]
    exact ⟨fun y hy => Nat.le_of_lt (hlt y hy), hx0.2⟩
  obtain ⟨G', H', k1, k2⟩ := times_still hc since H (Nat.le_refl _) hrise hlt ha hr ht'
  refine ⟨k1, fun h q hq => ?_⟩
  rw [zread_abs hc H'.inv hq, zread_abs hc H.inv hq, k2 h]

/-- C101, on the time of this process: it is not before any write made, and it is the time of the file if all calls were writes. -/
theorem C101_own_partial (g : GoodSizes hdrSize maxHash binSize) {t0 : Nat} {calls : List Timed} {s : Eng} (hx : Rising t0 calls)
    (R : Reachable (create hdrSize maxHash binSize mul).1 (create hdrSize maxHash binSize mul).2 (calls.map (·.1)) s) {t : FileTimes}
    (ht : timesRuns (create hdrSize maxHash binSize mul).1 (create hdrSize maxHash binSize mul).2 (newTimes t0) calls = some t) :
    (∀ r, Op.write r ∈ calls.map (·.1) → r.now ≤ zgetMyLastWriteTime t) ∧
      ((∀ op ∈ calls.map (·.1), ∃ r, op = .write r) → zgetMyLastWriteTime t = zgetLastWriteTimeFile t) ∧
      ∀ quiet now : Int, isQuiet t quiet now = true → ∀ r, Op.write r ∈ calls.map (·.1) → r.now + quiet ≤ now := by
  obtain ⟨G, t1, h1, H, K⟩ := times_reach g hx R
  have : t1 = t := Option.some.inj (h1.symm.trans ht)
  subst this
  have key : ∀ r, Op.write r ∈ calls.map (·.1) → r.now ≤ t1.mine := by
    intro r hr
    obtain ⟨x, hx, he⟩ := List.mem_map.mp hr
    exact K.writes x hx r he
  refine ⟨key, fun h => K.own (fun x hx => h x.1 (List.mem_map_of_mem (f := (·.1)) hx)) rfl, fun quiet now hq r hr => ?_⟩
  have := key r hr
  unfold isQuiet at hq
  have hq := of_decide_eq_true hq
  omega

/-- C101 with C77: a start set with the time that is in the header.  If the writes since are later than it, exactly the records written since
are the ones changed; nothing is asked of the time. -/
theorem C101_since_partial (g : GoodSizes hdrSize maxHash binSize) {t0 : Nat} (h0 : 0 < t0) {before since : List Timed}
    (hp : Plain [] (before.map (·.1) ++ since.map (·.1))) (hx : Rising t0 before) {s0 s : Eng} {ress0 ress : List Res}
    (hr0 : runs (create hdrSize maxHash binSize mul).1 (create hdrSize maxHash binSize mul).2 (before.map (·.1)) = some (s0, ress0))
    (hr : runs (create hdrSize maxHash binSize mul).1 (create hdrSize maxHash binSize mul).2 (before.map (·.1) ++ since.map (·.1)) = some (s, ress))
    (hd : Res.differentType ∉ ress) {t : FileTimes}
    (ht : timesRuns (create hdrSize maxHash binSize mul).1 (create hdrSize maxHash binSize mul).2 (newTimes t0) before = some t)
    (hlt : ∀ r, Op.write r ∈ since.map (·.1) → zgetLastWriteTimeFile t < r.now) (wild : Bytes → Bool) :
    ∃ st all rows, zwhatChangedSetStart (create hdrSize maxHash binSize mul).1 s0 (zgetLastWriteTimeFile t) wild false = some st ∧
      zcatalog (create hdrSize maxHash binSize mul).1 s everything = some all ∧
      zwhatChanged (create hdrSize maxHash binSize mul).1 s st = some rows ∧ rows.Sublist all ∧
      ∀ r, r ∈ rows ↔ r ∈ all ∧ wild r.path = true ∧ ∃ w, Op.write w ∈ since.map (·.1) ∧ sameUpToCase w.path r.path := by
  have hall0 : AllAllowed (create hdrSize maxHash binSize mul).1 [] (create hdrSize maxHash binSize mul).2 (before.map (·.1)) :=
    (plain_allowed (create_OK (mul := mul) g) _ (plain_split _ _ hp).1)
  obtain ⟨G, t1, h1, H, K⟩ := times_reach g hx ⟨hall0, ress0, hr0⟩
  have : t1 = t := Option.some.inj (h1.symm.trans ht)
  subst this
  refine C77_times_partial g hp hr0 hr hd (T := t1.last) (Nat.lt_of_lt_of_le h0 K.up) (fun r hr => ?_) hlt wild
  obtain ⟨x, hx, he⟩ := List.mem_map.mp hr
  exact Nat.le_trans (K.writes x hx r he) K.inv.mine

/-! ### Cases -/

/-- A clock that stands still. -/
def at_ (t : Nat) : Nat → Nat := fun _ => t

/-- A history: two records written at 5, one of them deleted at 7; then a record written over at 9. -/
def timed1 : List Timed := [(.write (reqV nA [1] 5), at_ 0), (.write (reqV nB [2] 5), at_ 0), (.delete nB, at_ 7)]
def timed2 : List Timed := [(.write (reqV nA [3] 9), at_ 0)]

theorem timed_rising : Rising 2 (timed1 ++ timed2) ∧ Rising 2 timed1 := by
  constructor <;> simp [Rising, timed1, timed2, readings, at_, reqV]

theorem timed_plain : Plain [] (timed1.map (·.1) ++ timed2.map (·.1)) := by
  simp only [timed1, timed2, Plain, List.map_cons, List.map_nil, List.cons_append, List.nil_append, and_true]
  refine ⟨⟨?_, ?_, ?_, ?_⟩, ⟨?_, ?_, ?_, ?_⟩, ?_, ⟨?_, ?_, ?_, ?_⟩⟩ <;> decide +kernel

/-- The hypotheses of the theorems are met by this history, and the times after it are these. -/
theorem timed_case : ∃ s s' ress, Reachable tiny.1 tiny.2 (timed1.map (·.1)) s ∧ AllAllowed tiny.1 (timed1.map (·.1)) s (timed2.map (·.1)) ∧
    runs tiny.1 s (timed2.map (·.1)) = some (s', ress) ∧
    (∃ t, timesRuns tiny.1 tiny.2 (newTimes 2) timed1 = some t ∧ zgetLastWriteTimeFile t = 7 ∧ zgetMyLastWriteTime t = 5 ∧
      (∀ x ∈ timed2.flatMap readings, zgetLastWriteTimeFile t < x) ∧
      ∃ t', timesRuns tiny.1 s t timed2 = some t' ∧ zgetLastWriteTimeFile t' = 9 ∧ zgetMyLastWriteTime t' = 9) := by
  have hall := plain_allowed (c := tiny.1) (create_OK tiny_good) (s := tiny.2) _ (plain_split _ _ timed_plain).1
  have ev : ((runs tiny.1 tiny.2 (timed1.map (·.1))).bind fun p => (timesRuns tiny.1 tiny.2 (newTimes 2) timed1).bind fun t =>
      (runs tiny.1 p.1 (timed2.map (·.1))).bind fun q => (timesRuns tiny.1 p.1 t timed2).map fun t' => (q.2, t.last, t.mine, t'.last, t'.mine)) =
        some ([.ok], 7, 5, 9, 9) := by decide +kernel
  rw [Option.bind_eq_some_iff] at ev
  obtain ⟨⟨s, ress0⟩, h0, ev⟩ := ev
  rw [Option.bind_eq_some_iff] at ev
  obtain ⟨t, ht, ev⟩ := ev
  rw [Option.bind_eq_some_iff] at ev
  obtain ⟨⟨s', ress⟩, h1, ev⟩ := ev
  rw [Option.map_eq_some_iff] at ev
  obtain ⟨t', ht', ev⟩ := ev
  simp only [Prod.mk.injEq] at ev
  obtain ⟨_, e1, e2, e3, e4⟩ := ev
  refine ⟨s, s', ress, ⟨hall, ress0, h0⟩, plain_allowed (create_OK tiny_good) _ (plain_split _ _ timed_plain).2, h1, t, ht, e1, e2, ?_, t', ht', e3, e4⟩
  intro x hx
  unfold zgetLastWriteTimeFile
  simp [timed2, readings, reqV] at hx
  omega

/-- C101_latest_partial, C101_own_partial and C101_notice_partial on this history. -/
example : ∃ s t, timesRuns tiny.1 tiny.2 (newTimes 2) timed1 = some t ∧ zread tiny.1 s nB = some none ∧
    (∀ (q : Bytes) (rec : Rec), q.length ≤ 392 → zread tiny.1 s q = some (some rec) → rec.lastWrite ≤ zgetLastWriteTimeFile t) ∧
    ∀ r, Op.write r ∈ timed1.map (·.1) → r.now ≤ zgetMyLastWriteTime t := by
  obtain ⟨s, s', ress, R, ha, hr, _⟩ := timed_case
  obtain ⟨t, h1, _, _, _, h2⟩ := C101_latest_partial (mul := id) tiny_good timed_rising.2 R
  refine ⟨s, t, h1, ?_, h2, (C101_own_partial (mul := id) tiny_good timed_rising.2 R h1).1⟩
  have ev : (runs tiny.1 tiny.2 (timed1.map (·.1))).bind (fun p => zread tiny.1 p.1 nB) = some none := by decide +kernel
  obtain ⟨_, ress0, h0⟩ := R
  rw [h0] at ev
  exact ev

/-- A rename of a record that is not there leaves the times; one that finds a record, and a deletion, set them. -/
example : (timesRuns tiny.1 tiny.2 (newTimes 2) ([(.write (req (join psA1) [] [] [3]), at_ 0), (.rename psB1 psB2 env0, at_ 8)])).map (fun t => (t.last, t.mine)) = some (5, 5) ∧
    (timesRuns tiny.1 tiny.2 (newTimes 2) ([(.write (req (join psA1) [] [] [3]), at_ 0), (.rename psA1 psB2 env0, at_ 8)])).map (fun t => (t.last, t.mine)) = some (8, 8) := by
  decide +kernel

/-- The full claim has no condition on the times of the calls since.  It fails: a change within the same millisecond is not noticed. -/
theorem C101_same_time_violation :
    (timesRuns tiny.1 tiny.2 (newTimes 2) [(.write (reqV nA [1] 5), at_ 0)]).map zgetLastWriteTimeFile = some 5 ∧
    (timesRuns tiny.1 tiny.2 (newTimes 2) [(.write (reqV nA [1] 5), at_ 0), (.write (reqV nA [2] 5), at_ 0)]).map zgetLastWriteTimeFile = some 5 ∧
    ((runs tiny.1 tiny.2 [.write (reqV nA [1] 5)]).bind fun p => zread tiny.1 p.1 nA) ≠
      ((runs tiny.1 tiny.2 [.write (reqV nA [1] 5), .write (reqV nA [2] 5)]).bind fun p => zread tiny.1 p.1 nA) := by decide +kernel

/-- Failing part: when the clock was set back, the time of the file is before that of a record in it. -/
theorem C101_clock_violation :
    (timesRuns tiny.1 tiny.2 (newTimes 2) [(.write (reqV nA [1] 9), at_ 0), (.write (reqV nB [2] 5), at_ 0)]).map zgetLastWriteTimeFile = some 5 ∧
    ((runs tiny.1 tiny.2 [.write (reqV nA [1] 9), .write (reqV nB [2] 5)]).bind fun p => zread tiny.1 p.1 nA).map (·.map (·.lastWrite)) = some (some 9) := by decide +kernel

/-- Failing part: "The system time of the last write for this process" (zgetMyLastWriteTime.c:20) leaves out its deletions; zcheckAccessReset takes a
process for quiet that has just deleted a record. -/
theorem C101_own_delete_violation :
    (timesRuns tiny.1 tiny.2 (newTimes 2) [(.write (reqV nA [1] 5), at_ 0), (.delete nA, at_ 9000)]).map (fun t => (zgetLastWriteTimeFile t, zgetMyLastWriteTime t, isQuiet t 5000 9000)) =
      some (9000, 5, true) := by decide +kernel

/-- Failing part: the time also moves when nothing is written: when a write is refused, and when there is nothing to delete. -/
theorem C101_no_write_violation :
    (timesRuns tiny.1 tiny.2 (newTimes 2) [(.write (reqT nA 100 5), at_ 0), (.write (reqT nA 200 6), at_ 0)]).map zgetLastWriteTimeFile = some 6 ∧
    (runs tiny.1 tiny.2 [.write (reqT nA 100 5), .write (reqT nA 200 6)]).map (·.2) = some [.ok, .differentType] ∧
    (timesRuns tiny.1 tiny.2 (newTimes 2) [(.write (reqT nA 100 5), at_ 0), (.delete nB, at_ 8)]).map zgetLastWriteTimeFile = some 8 ∧
    (runs tiny.1 tiny.2 [.write (reqT nA 100 5), .delete nB]).map (·.2) = some [.ok, .notFound] := by decide +kernel

end Hec
