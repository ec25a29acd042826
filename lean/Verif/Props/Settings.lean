import Verif.Proofs.Settings
/-! C96: settings hold until they are changed. -/
namespace Hec
open _root_.Spec (SetCall sets levelKeys numberSettings keptNumber LevelOf DatumOf currKey totaKey progKey vdtmKey Holds otherKeys)
open Hec.Spec (sameUpToCase)

/-- The number kept under a name. -/
def numberOf (k : Bytes) (s : Settings) : Int :=
  if k = [109, 117, 110, 105] then s.unit else if k = currKey then s.current else if k = totaKey then s.total else if k = [110, 101, 114, 114] then s.errors
  else if k = [109, 97, 120, 101] then s.maxErrors else if k = [105, 110, 116, 101] then s.interrupt else if k = [100, 105, 115, 97] then s.disaggregate
  else if k = [101, 109, 112, 116] then (if s.copyEmpty ≠ 0 then 1 else 0) else s.overwriteDatum

theorem names_key {k : Bytes} (hk : k ∈ levelKeys ++ otherKeys ++ [progKey, vdtmKey] ++ numberSettings.map fun x => x.1) (name : Bytes) :
    paramKey name = k ↔ sameUpToCase (name.take 4) k := by
  have h : ∀ k ∈ levelKeys ++ otherKeys ++ [progKey, vdtmKey] ++ numberSettings.map fun x => x.1, k.length = 4 ∧ k.map tolower = k ∧ ∀ x ∈ k, x ≠ 0 := by decide +kernel
  obtain ⟨h1, h2, h3⟩ := h k hk
  exact key_iff name k h1 h2 h3

theorem number_key {k : Bytes} {yn : Bool} {i : Int} (hk : (k, yn, i) ∈ numberSettings) (name : Bytes) : paramKey name = k ↔ sameUpToCase (name.take 4) k :=
  names_key (List.mem_append.mpr (Or.inr (List.mem_map.mpr ⟨_, hk, rfl⟩))) name

theorem set_number {k : Bytes} {yn : Bool} {i : Int} (hk : (k, yn, i) ∈ numberSettings) {p : Bytes} (hp : paramKey p = k) (s : Settings) (t : Option Bytes) (v : Int) :
    ∃ s', zset s p t v = some (s', true) ∧ numberOf k s' = keptNumber yn v := by
  unfold zset
  simp only [hp]
  simp only [numberSettings, List.mem_cons, Prod.mk.injEq, List.not_mem_nil, or_false] at hk
  unfold numberOf keptNumber
  rcases hk with ⟨h, h2, _⟩ | ⟨h, h2, _⟩ | ⟨h, h2, _⟩ | ⟨h, h2, _⟩ | ⟨h, h2, _⟩ | ⟨h, h2, _⟩ | ⟨h, h2, _⟩ | ⟨h, h2, _⟩ | ⟨h, h2, _⟩ <;> subst h h2 <;>
    (repeat (first | rw [if_neg (by decide)] | rw [if_pos (by decide)])) <;> refine ⟨_, rfl, ?_⟩ <;>
    (try (repeat (first | rw [if_neg (by decide)] | rw [if_pos (by decide)]))) <;> (try rfl)
  all_goals simp only
  all_goals by_cases h0 : v = 0
  all_goals simp [h0]

theorem query_number {k : Bytes} {yn : Bool} {i : Int} (hk : (k, yn, i) ∈ numberSettings) {p : Bytes} (hp : paramKey p = k) (s : Settings)
    (ht : k = currKey → 0 < s.total) {buf : Bytes} (hb : 0 < buf.length) : ∃ b, zquery s p buf = some (true, b, some (numberOf k s)) := by
  have hw : ∃ b, wr buf 0 0 = some b := ⟨_, wr_eq (i := 0) hb⟩
  obtain ⟨b, hw⟩ := hw
  unfold zquery
  simp only [hp]
  simp only [numberSettings, List.mem_cons, Prod.mk.injEq, List.not_mem_nil, or_false] at hk
  unfold numberOf
  rcases hk with ⟨h, _⟩ | ⟨h, _⟩ | ⟨h, _⟩ | ⟨h, _⟩ | ⟨h, _⟩ | ⟨h, _⟩ | ⟨h, _⟩ | ⟨h, _⟩ | ⟨h, _⟩ <;> subst h <;>
    (repeat (first | rw [if_neg (by decide)] | rw [if_pos (by decide)]))
  · rw [hw]; exact ⟨_, rfl⟩
  · rw [if_neg (by have := ht rfl; omega)]; exact ⟨_, rfl⟩
  all_goals first
    | exact ⟨_, rfl⟩
    | (rw [hw]; exact ⟨_, rfl⟩)

theorem number_kept {k : Bytes} {yn : Bool} {i : Int} (hk : (k, yn, i) ∈ numberSettings) {p : Bytes} (hp : paramKey p ≠ k) {s s' : Settings} {t : Option Bytes} {v : Int}
    {b : Bool} (h : zset s p t v = some (s', b)) : numberOf k s' = numberOf k s := by
  obtain ⟨_, k2, _, k4, k5, k6, k7, k8, k9, _, k11, k12⟩ := zset_keeps h
  simp only [numberSettings, List.mem_cons, Prod.mk.injEq, List.not_mem_nil, or_false] at hk
  unfold numberOf
  rcases hk with ⟨h, _⟩ | ⟨h, _⟩ | ⟨h, _⟩ | ⟨h, _⟩ | ⟨h, _⟩ | ⟨h, _⟩ | ⟨h, _⟩ | ⟨h, _⟩ | ⟨h, _⟩ <;> subst h <;>
    (repeat (first | rw [if_neg (by decide)] | rw [if_pos (by decide)]))
  · exact k2 hp
  · exact k4 hp
  · exact k5 hp
  · exact k6 hp
  · exact k7 hp
  · exact k8 hp
  · exact k12 hp
  · rw [k9 hp]; rfl
  · exact k11 hp

/-- C96: a setting that is a number is accepted and found as it was set, or as 0 or 1 where only these are kept, after any calls that do not
name it.  (Partial: the current number is only found when the total number is positive, see C96_current_violation.) -/
theorem C96_number_partial (s : Settings) {k : Bytes} {yesNo : Bool} {start : Int} (hk : (k, yesNo, start) ∈ numberSettings) (c : SetCall) (hc : c.Names k) :
    ∃ s1, zset s c.name c.text c.value = some (s1, true) ∧
      ∀ cs s2, sets s1 cs = some s2 → (∀ x ∈ cs, ¬ x.Names k) → ∀ asked : Bytes, sameUpToCase (asked.take 4) k → (k = currKey → 0 < s2.total) →
        ∀ buf : Bytes, 0 < buf.length → ∃ b, zquery s2 asked buf = some (true, b, some (keptNumber yesNo c.value)) := by
  obtain ⟨s1, h1, h2⟩ := set_number hk ((number_key hk _).mpr hc) s c.text c.value
  refine ⟨s1, h1, fun cs s2 hr hn asked ha ht buf hb => ?_⟩
  rw [← h2, ← sets_kept (numberOf k) (fun x => x.Names k) (fun s c s' b h hn => number_kept hk (fun h' => hn ((number_key hk _).mp h')) h) cs s1 s2 hr hn]
  exact query_number hk ((number_key hk _).mpr ha) s2 ht hb

/-- C96: before any call that names it, a number is what the library starts with. -/
theorem C96_start {k : Bytes} {yesNo : Bool} {start : Int} (hk : (k, yesNo, start) ∈ numberSettings) (cs : List SetCall) {s : Settings}
    (hr : sets initialSettings cs = some s) (hn : ∀ x ∈ cs, ¬ x.Names k) {asked : Bytes} (ha : sameUpToCase (asked.take 4) k) (ht : k = currKey → 0 < s.total)
    {buf : Bytes} (hb : 0 < buf.length) : ∃ b, zquery s asked buf = some (true, b, some start) := by
  have hi : ∀ x ∈ numberSettings, numberOf x.1 initialSettings = x.2.2 := by decide +kernel
  have h0 := hi _ hk
  simp only at h0
  rw [← h0, ← sets_kept (numberOf k) (fun x => x.Names k) (fun s c s' b h hn => number_kept hk (fun h' => hn ((number_key hk _).mp h')) h) cs _ s hr hn]
  exact query_number hk ((number_key hk _).mpr ha) s ht hb

/-- C96, failing part: while the total number is not positive, the current number set is not found. -/
theorem C96_current_violation (s : Settings) (ht : s.total ≤ 0) (v : Int) (buf : Bytes) :
    ((zset s currKey (some []) v).bind fun r => (zquery r.1 currKey buf).map fun q => (r.2, q.1, q.2.2)) = some (true, false, none) := by
  have e : zset s currKey (some []) v = some ({ s with current := v }, true) := rfl
  rw [e]
  have hk : paramKey currKey = currKey := by decide
  simp only [Option.bind_some]
  unfold zquery
  simp only [hk]
  iterate 4 rw [if_neg (by decide)]
  rw [if_pos (by decide), if_pos ht]
  rfl

/-- C96: the name of the program is kept with its first 16 characters until another one is set. -/
theorem C96_program (before : List SetCall) {s : Settings} (hs : sets initialSettings before = some s) (c : SetCall) (hc : c.Names progKey)
    {t : Bytes} (ht : c.text = some t) (h0 : ∀ x ∈ t, x ≠ 0) :
    ∃ s1, zset s c.name c.text c.value = some (s1, true) ∧
      ∀ cs s2, sets s1 cs = some s2 → (∀ x ∈ cs, ¬ x.Names progKey) → ∀ asked : Bytes, sameUpToCase (asked.take 4) progKey →
        ∀ buf : Bytes, 0 < buf.length → ∃ b, zquery s2 asked buf = some (true, b, none) ∧ b.length = buf.length ∧ Holds b ((t.take 16).take (buf.length - 1)) := by
  have hok := sets_ok hs initial_ok
  have key : ∀ n : Bytes, paramKey n = progKey ↔ sameUpToCase (n.take 4) progKey := names_key (by decide)
  obtain ⟨d, m, e1, e2, e3⟩ := stringCopy_trunc s.program t (if t.length > 16 then 16 else t.length) (by rw [hok.program]; omega)
  have e4 : t.take (min (if t.length > 16 then 16 else t.length) (s.program.length - 1)) = t.take 16 := by
    rw [hok.program]
    split
    · rfl
    · rw [show min t.length (17 - 1) = t.length by omega, List.take_of_length_le (Nat.le_refl _), List.take_of_length_le (by omega)]
  rw [e4] at e3
  refine ⟨{ s with program := d }, ?_, fun cs s2 hr hn asked ha buf hb => ?_⟩
  · unfold zset
    simp only [(key _).mpr hc, ht]
    rw [if_neg (by decide), if_neg (by decide), if_neg (by decide), if_pos (by decide), e1]
    rfl
  · have hp : s2.program = d := sets_kept (fun s => s.program) (fun x => x.Names progKey)
      (fun s c s' b h hn => (zset_keeps h).2.2.1 (fun h' => hn ((key _).mp h'))) cs _ s2 hr hn
    have hd : cstr d = t.take 16 := cstr_holds e3 fun x hx => h0 x (List.mem_of_mem_take hx)
    obtain ⟨b, m', f1, f2, f3⟩ := stringCopy_trunc buf (cstr d) buf.length hb
    refine ⟨b, ?_, f2, ?_⟩
    · unfold zquery
      simp only [(key _).mpr ha, hp, f1]
      iterate 14 rw [if_neg (by decide)]
      rw [if_pos (by decide)]
      rfl
    · rw [hd, show min buf.length (buf.length - 1) = buf.length - 1 by omega] at f3
      exact f3

theorem datum_search {t : Bytes} (ht : t ≠ []) (v : Int) :
    ∃ i name, datumOf (some t) v = some (i, name) ∧ DatumOf (some t) v i (name.take 16) ∧ ((∀ x ∈ t, x ≠ 0) → ∀ x ∈ name, x ≠ 0) := by
  obtain ⟨c, cs, rfl⟩ := List.exists_cons_of_ne_nil ht
  unfold datumOf
  simp only
  cases h : datumNames.findIdx? (fun n => sameText (c :: cs) n) with
  | none =>
    refine ⟨_, _, rfl, Or.inl ⟨_, rfl, ht, Or.inr ⟨fun d hd hs => ?_, rfl, rfl⟩⟩, fun h => h⟩
    rw [List.findIdx?_eq_none_iff] at h
    have := h d hd
    unfold sameText at this
    rw [lower_iff] at hs
    simp [hs] at this
  | some i =>
    rw [List.findIdx?_eq_some_iff_getElem] at h
    obtain ⟨hi, h1, _⟩ := h
    have hi4 : i < 4 := hi
    unfold sameText at h1
    have hs : sameUpToCase (c :: cs) (datumNames.getD i []) := by
      rw [lower_iff, List.getD_eq_getElem?_getD, List.getElem?_eq_getElem hi]
      simpa using h1
    have hall : ∀ j ∈ ([0, 1, 2, 3] : List Nat), (datumNames.getD j []).take 16 = datumNames.getD j [] ∧ ∀ x ∈ datumNames.getD j [], x ≠ 0 := by decide
    have hm : i ∈ ([0, 1, 2, 3] : List Nat) := by simp only [List.mem_cons, List.not_mem_nil, or_false]; omega
    exact ⟨_, _, rfl, Or.inl ⟨_, rfl, ht, Or.inl ⟨i, hm, hs, rfl, (hall i hm).1⟩⟩, fun _ => (hall i hm).2⟩

/-- C96: the vertical datum is kept until another one is set: one of the four known ones, whatever its case, or "other" with the first 16
characters of its name; a number that stands for none is refused, and then nothing changes. -/
theorem C96_datum (before : List SetCall) {s : Settings} (hs : sets initialSettings before = some s) (c : SetCall) (hc : c.Names vdtmKey)
    (h0 : ∀ x ∈ c.text.getD [], x ≠ 0) :
    (zset s c.name c.text c.value = some (s, false) ∧ (c.text = none ∨ c.text = some []) ∧ (c.value < 0 ∨ 3 < c.value)) ∨
    ∃ s1 i name, zset s c.name c.text c.value = some (s1, true) ∧ DatumOf c.text c.value i name ∧
      ∀ cs s2, sets s1 cs = some s2 → (∀ x ∈ cs, ¬ x.Names vdtmKey) → ∀ asked : Bytes, sameUpToCase (asked.take 4) vdtmKey →
        ∀ buf : Bytes, 0 < buf.length → ∃ b, zquery s2 asked buf = some (true, b, some i) ∧ b.length = buf.length ∧ Holds b (name.take (buf.length - 1)) := by
  have hok := sets_ok hs initial_ok
  have key : ∀ n : Bytes, paramKey n = vdtmKey ↔ sameUpToCase (n.take 4) vdtmKey := names_key (by decide)
  have hz : ∀ x, zset s c.name c.text c.value = x ↔ (match datumOf c.text c.value with
      | none => some (s, false)
      | some (i, name) => (stringCopy s.datumName name s.datumName.length).map fun d => ({ s with datum := i, datumName := d.1 }, true)) = x := by
    intro x
    unfold zset
    simp only [(key _).mpr hc]
    iterate 13 rw [if_neg (by decide)]
    rw [if_pos (by decide)]
    exact Iff.rfl
  have done : ∀ i name, datumOf c.text c.value = some (i, name) → (∀ x ∈ name, x ≠ 0) → DatumOf c.text c.value i (name.take 16) →
      ∃ s1 i name, zset s c.name c.text c.value = some (s1, true) ∧ DatumOf c.text c.value i name ∧
        ∀ cs s2, sets s1 cs = some s2 → (∀ x ∈ cs, ¬ x.Names vdtmKey) → ∀ asked : Bytes, sameUpToCase (asked.take 4) vdtmKey →
          ∀ buf : Bytes, 0 < buf.length → ∃ b, zquery s2 asked buf = some (true, b, some i) ∧ b.length = buf.length ∧ Holds b (name.take (buf.length - 1)) := by
    intro i name hd hn0 hD
    obtain ⟨d, m, e1, e2, e3⟩ := stringCopy_trunc s.datumName name s.datumName.length (by rw [hok.datumName]; omega)
    rw [hok.datumName, show min 17 (17 - 1) = 16 by rfl] at e3
    refine ⟨{ s with datum := i, datumName := d }, i, name.take 16, ?_, hD, fun cs s2 hr hn asked ha buf hb => ?_⟩
    · rw [hz, hd]
      simp only
      rw [e1]
      rfl
    · have hp : (s2.datum, s2.datumName) = (i, d) := sets_kept (fun s => (s.datum, s.datumName)) (fun x => x.Names vdtmKey)
        (fun s c s' b h hn => by
          have := (zset_keeps h).2.2.2.2.2.2.2.2.2.1 (fun h' => hn ((key _).mp h'))
          simp only [this.1, this.2]) cs _ s2 hr hn
      injection hp with hp1 hp2
      have hcd : cstr d = name.take 16 := cstr_holds e3 fun x hx => hn0 x (List.mem_of_mem_take hx)
      obtain ⟨b, m', f1, f2, f3⟩ := stringCopy_trunc buf (cstr d) buf.length hb
      refine ⟨b, ?_, f2, ?_⟩
      · unfold zquery
        simp only [(key _).mpr ha, hp1, hp2, f1]
        iterate 11 rw [if_neg (by decide)]
        rw [if_pos (by decide)]
        rfl
      · rw [hcd, show min buf.length (buf.length - 1) = buf.length - 1 by omega] at f3
        exact f3
  have none_case : (c.text = none ∨ c.text = some []) → datumOf c.text c.value = if 0 ≤ c.value ∧ c.value ≤ 3 then some (c.value, datumNames.getD c.value.toNat []) else none := by
    rintro (h | h) <;> rw [h] <;> rfl
  by_cases ht : c.text = none ∨ c.text = some []
  · by_cases hv : 0 ≤ c.value ∧ c.value ≤ 3
    · right
      have hd := none_case ht
      rw [if_pos hv] at hd
      have hall : ∀ j ∈ ([0, 1, 2, 3] : List Nat), (datumNames.getD j []).take 16 = datumNames.getD j [] ∧ ∀ x ∈ datumNames.getD j [], x ≠ 0 := by decide
      have hm : c.value.toNat ∈ ([0, 1, 2, 3] : List Nat) := by simp only [List.mem_cons, List.not_mem_nil, or_false]; omega
      exact done _ _ hd (hall _ hm).2 (Or.inr ⟨ht, hv.1, hv.2, rfl, (hall _ hm).1⟩)
    · left
      have hd := none_case ht
      rw [if_neg hv] at hd
      refine ⟨?_, ht, by omega⟩
      rw [hz, hd]
  · right
    have ht' : ∃ t, c.text = some t ∧ t ≠ [] := by
      cases h : c.text with
      | none => exact absurd (Or.inl h) ht
      | some t => exact ⟨t, rfl, fun h' => ht (Or.inr (by rw [h, h']))⟩
    obtain ⟨t, e, hne⟩ := ht'
    obtain ⟨i, name, d1, d2, d3⟩ := datum_search hne c.value
    rw [← e] at d1 d2
    exact done i name d1 (d3 (by rw [e] at h0; exact h0)) d2

/-- C96: a name that is not known is refused and changes nothing. -/
theorem C96_unknown (s : Settings) (c : SetCall) (h : ∀ k ∈ levelKeys ++ otherKeys ++ [progKey, vdtmKey] ++ numberSettings.map (fun x => x.1), ¬ c.Names k) :
    zset s c.name c.text c.value = some (s, false) := by
  have hn : ∀ k ∈ levelKeys ++ otherKeys ++ [progKey, vdtmKey] ++ numberSettings.map (fun x => x.1), paramKey c.name ≠ k :=
    fun k hk e => h k hk ((names_key hk _).mp e)
  unfold zset
  simp only
  rw [if_neg (by rintro (e | e | e) <;> exact hn _ (by decide) e)]
  repeat rw [if_neg (hn _ (by decide))]

end Hec
