import Verif.Spec.Settings
import Verif.Proofs.EngineAbs
import Verif.Proofs.Open
/-! Lemmas for the settings. -/
namespace Hec
open _root_.Spec (SetCall sets levelKeys numberSettings keptNumber LevelOf DatumOf currKey totaKey progKey vdtmKey Holds otherKeys)
open Hec.Spec (sameUpToCase)

theorem lower_upper (x : UInt8) : tolower (toupper x) = tolower x := byte_all (P := fun x => tolower (toupper x) = tolower x) (by decide +kernel) x
theorem upper_lower (x : UInt8) : toupper (tolower x) = toupper x := byte_all (P := fun x => toupper (tolower x) = toupper x) (by decide +kernel) x
theorem lower_zero (x : UInt8) : tolower x = 0 ↔ x = 0 := byte_all (P := fun x => tolower x = 0 ↔ x = 0) (by decide +kernel) x

theorem lower_iff (a b : Bytes) : sameUpToCase a b ↔ a.map tolower = b.map tolower := by
  rw [same_iff]
  unfold Same
  constructor
  · intro h
    have := congrArg (List.map tolower) h
    simpa [List.map_map, Function.comp_def, lower_upper] using this
  · intro h
    have := congrArg (List.map toupper) h
    simpa [List.map_map, Function.comp_def, upper_lower] using this

theorem key_iff (name k : Bytes) (h4 : k.length = 4) (hk : k.map tolower = k) (h0 : ∀ x ∈ k, x ≠ 0) : paramKey name = k ↔ sameUpToCase (name.take 4) k := by
  rw [lower_iff, hk]
  unfold paramKey
  simp only
  by_cases hl : 4 ≤ name.length
  · rw [show 4 - ((name.take 4).map tolower).length = 0 by simp; omega]
    simp
  · have hlt : ((name.take 4).map tolower).length < 4 := by simp; omega
    constructor
    · intro h
      exfalso
      have : (0 : UInt8) ∈ k := by
        rw [← h]
        refine List.mem_append.mpr (Or.inr (List.mem_replicate.mpr ⟨by omega, rfl⟩))
      exact h0 0 this rfl
    · intro h
      rw [h, h4] at hlt
      omega

theorem stringCopy_trunc (dst src : Bytes) (n : Nat) (hd : 0 < dst.length) :
    ∃ d m, stringCopy dst src n = some (d, m) ∧ d.length = dst.length ∧ Holds d (src.take (min n (dst.length - 1))) := by
  unfold stringCopy
  by_cases hn : n = 0
  · rw [if_pos hn, if_pos hd, show (0 : Int) = ((0 : Nat) : Int) from rfl, wr_eq hd]
    refine ⟨_, _, rfl, by simp, ?_⟩
    subst hn
    rw [holds_iff]
    simp [hd]
  · rw [if_neg hn, if_neg (by omega)]
    simp only
    have hm : ∃ m, (if src.length < (if n < dst.length - 1 then n else dst.length - 1) then src.length else (if n < dst.length - 1 then n else dst.length - 1)) = m ∧
        m ≤ dst.length - 1 ∧ m ≤ src.length ∧ src.take m = src.take (min n (dst.length - 1)) := by
      refine ⟨_, rfl, ?_, ?_, ?_⟩
      · split <;> split <;> omega
      · split <;> split <;> omega
      · have e : (if n < dst.length - 1 then n else dst.length - 1) = min n (dst.length - 1) := by split <;> omega
        rw [e]
        split
        · rw [List.take_of_length_le (Nat.le_refl _), List.take_of_length_le (by omega)]
        · rfl
    obtain ⟨m, e, h1, h2, h3⟩ := hm
    rw [e, ← h3]
    have hlt : (src.take m).length = m := by rw [List.length_take]; omega
    obtain ⟨d, ed, ld, hd'⟩ := copyIn_spec (src.take m) dst 0 (by omega)
    have ed' : copyIn dst 0 (src.take m) = some d := ed
    rw [ed']
    simp only [Option.bind_some]
    rw [wr_eq (by omega)]
    refine ⟨_, _, rfl, by simpa using ld, ?_⟩
    rw [holds_iff, hlt]
    refine ⟨by simp; omega, fun k hk => ?_, List.getElem?_set_self (by omega)⟩
    rw [List.getElem?_set_ne (by omega), hd' k, if_pos (by omega)]
    simp

/-- What a call leaves alone. -/
theorem zset_keeps {s s' : Settings} {p : Bytes} {t : Option Bytes} {v : Int} {b : Bool} (h : zset s p t v = some (s', b)) :
    (paramKey p ∉ levelKeys → s'.levels = s.levels) ∧ (paramKey p ≠ [109, 117, 110, 105] → s'.unit = s.unit) ∧
    (paramKey p ≠ progKey → s'.program = s.program) ∧ (paramKey p ≠ currKey → s'.current = s.current) ∧ (paramKey p ≠ totaKey → s'.total = s.total) ∧
    (paramKey p ≠ [110, 101, 114, 114] → s'.errors = s.errors) ∧ (paramKey p ≠ [109, 97, 120, 101] → s'.maxErrors = s.maxErrors) ∧
    (paramKey p ≠ [105, 110, 116, 101] → s'.interrupt = s.interrupt) ∧ (paramKey p ≠ [101, 109, 112, 116] → s'.copyEmpty = s.copyEmpty) ∧
    (paramKey p ≠ vdtmKey → s'.datum = s.datum ∧ s'.datumName = s.datumName) ∧ (paramKey p ≠ [118, 100, 111, 119] → s'.overwriteDatum = s.overwriteDatum) ∧
    (paramKey p ≠ [100, 105, 115, 97] → s'.disaggregate = s.disaggregate) := by
  unfold zset at h
  simp only at h
  generalize paramKey p = k at h ⊢
  unfold levelKeys currKey totaKey progKey vdtmKey
  by_cases hk : k = [109, 101, 115, 115] ∨ k = [109, 108, 118, 108] ∨ k = [109, 108, 101, 118]
  · rw [if_pos hk] at h
    have hk : k ∈ ([[109, 101, 115, 115], [109, 108, 118, 108], [109, 108, 101, 118]] : List Bytes) := by simpa using hk
    cases t with
    | none => cases h
    | some t =>
      injection h with h; injection h with h _; subst h
      (refine ⟨?_, ?_, ?_, ?_, ?_, ?_, ?_, ?_, ?_, ?_, ?_, ?_⟩ <;> intro hn <;> first | rfl | exact ⟨rfl, rfl⟩ | exact absurd hk hn)
  rw [if_neg hk] at h
  clear hk
  by_cases hk : k = [109, 117, 110, 105]
  · rw [if_pos hk] at h
    injection h with h; injection h with h _; subst h
    (refine ⟨?_, ?_, ?_, ?_, ?_, ?_, ?_, ?_, ?_, ?_, ?_, ?_⟩ <;> intro hn <;> first | rfl | exact ⟨rfl, rfl⟩ | exact absurd hk hn)
  rw [if_neg hk] at h
  clear hk
  by_cases hk : k = [109, 104, 97, 110]
  · rw [if_pos hk] at h
    injection h with h; injection h with h _; subst h
    (refine ⟨?_, ?_, ?_, ?_, ?_, ?_, ?_, ?_, ?_, ?_, ?_, ?_⟩ <;> intro hn <;> first | rfl | exact ⟨rfl, rfl⟩ | exact absurd hk hn)
  rw [if_neg hk] at h
  clear hk
  by_cases hk : k = [112, 114, 111, 103]
  · rw [if_pos hk] at h
    cases t with
    | none => cases h
    | some t =>
      simp only [Option.map_eq_some_iff] at h
      obtain ⟨d, _, h⟩ := h
      injection h with h _; subst h
      (refine ⟨?_, ?_, ?_, ?_, ?_, ?_, ?_, ?_, ?_, ?_, ?_, ?_⟩ <;> intro hn <;> first | rfl | exact ⟨rfl, rfl⟩ | exact absurd hk hn)
  rw [if_neg hk] at h
  clear hk
  by_cases hk : k = [99, 117, 114, 114]
  · rw [if_pos hk] at h
    injection h with h; injection h with h _; subst h
    (refine ⟨?_, ?_, ?_, ?_, ?_, ?_, ?_, ?_, ?_, ?_, ?_, ?_⟩ <;> intro hn <;> first | rfl | exact ⟨rfl, rfl⟩ | exact absurd hk hn)
  rw [if_neg hk] at h
  clear hk
  by_cases hk : k = [116, 111, 116, 97]
  · rw [if_pos hk] at h
    injection h with h; injection h with h _; subst h
    (refine ⟨?_, ?_, ?_, ?_, ?_, ?_, ?_, ?_, ?_, ?_, ?_, ?_⟩ <;> intro hn <;> first | rfl | exact ⟨rfl, rfl⟩ | exact absurd hk hn)
  rw [if_neg hk] at h
  clear hk
  by_cases hk : k = [110, 101, 114, 114]
  · rw [if_pos hk] at h
    injection h with h; injection h with h _; subst h
    (refine ⟨?_, ?_, ?_, ?_, ?_, ?_, ?_, ?_, ?_, ?_, ?_, ?_⟩ <;> intro hn <;> first | rfl | exact ⟨rfl, rfl⟩ | exact absurd hk hn)
  rw [if_neg hk] at h
  clear hk
  by_cases hk : k = [109, 97, 120, 101]
  · rw [if_pos hk] at h
    injection h with h; injection h with h _; subst h
    (refine ⟨?_, ?_, ?_, ?_, ?_, ?_, ?_, ?_, ?_, ?_, ?_, ?_⟩ <;> intro hn <;> first | rfl | exact ⟨rfl, rfl⟩ | exact absurd hk hn)
  rw [if_neg hk] at h
  clear hk
  by_cases hk : k = [105, 110, 116, 101]
  · rw [if_pos hk] at h
    injection h with h; injection h with h _; subst h
    (refine ⟨?_, ?_, ?_, ?_, ?_, ?_, ?_, ?_, ?_, ?_, ?_, ?_⟩ <;> intro hn <;> first | rfl | exact ⟨rfl, rfl⟩ | exact absurd hk hn)
  rw [if_neg hk] at h
  clear hk
  by_cases hk : k = [99, 108, 101, 97]
  · rw [if_pos hk] at h
    injection h with h; injection h with h _; subst h
    (refine ⟨?_, ?_, ?_, ?_, ?_, ?_, ?_, ?_, ?_, ?_, ?_, ?_⟩ <;> intro hn <;> first | rfl | exact ⟨rfl, rfl⟩ | exact absurd hk hn)
  rw [if_neg hk] at h
  clear hk
  by_cases hk : k = [109, 97, 120, 112]
  · rw [if_pos hk] at h
    injection h with h; injection h with h _; subst h
    (refine ⟨?_, ?_, ?_, ?_, ?_, ?_, ?_, ?_, ?_, ?_, ?_, ?_⟩ <;> intro hn <;> first | rfl | exact ⟨rfl, rfl⟩ | exact absurd hk hn)
  rw [if_neg hk] at h
  clear hk
  by_cases hk : k = [99, 111, 108, 108]
  · rw [if_pos hk] at h
    injection h with h; injection h with h _; subst h
    (refine ⟨?_, ?_, ?_, ?_, ?_, ?_, ?_, ?_, ?_, ?_, ?_, ?_⟩ <;> intro hn <;> first | rfl | exact ⟨rfl, rfl⟩ | exact absurd hk hn)
  rw [if_neg hk] at h
  clear hk
  by_cases hk : k = [101, 109, 112, 116]
  · rw [if_pos hk] at h
    injection h with h; injection h with h _; subst h
    (refine ⟨?_, ?_, ?_, ?_, ?_, ?_, ?_, ?_, ?_, ?_, ?_, ?_⟩ <;> intro hn <;> first | rfl | exact ⟨rfl, rfl⟩ | exact absurd hk hn)
  rw [if_neg hk] at h
  clear hk
  by_cases hk : k = [118, 100, 116, 109]
  · rw [if_pos hk] at h
    cases hd : datumOf t v with
    | none => rw [hd] at h; injection h with h; injection h with h _; subst h; (refine ⟨?_, ?_, ?_, ?_, ?_, ?_, ?_, ?_, ?_, ?_, ?_, ?_⟩ <;> intro hn <;> first | rfl | exact ⟨rfl, rfl⟩ | exact absurd hk hn)
    | some x =>
      rw [hd] at h
      simp only [Option.map_eq_some_iff] at h
      obtain ⟨d, _, h⟩ := h
      injection h with h _; subst h
      (refine ⟨?_, ?_, ?_, ?_, ?_, ?_, ?_, ?_, ?_, ?_, ?_, ?_⟩ <;> intro hn <;> first | rfl | exact ⟨rfl, rfl⟩ | exact absurd hk hn)
  rw [if_neg hk] at h
  clear hk
  by_cases hk : k = [118, 100, 111, 119]
  · rw [if_pos hk] at h
    injection h with h; injection h with h _; subst h
    (refine ⟨?_, ?_, ?_, ?_, ?_, ?_, ?_, ?_, ?_, ?_, ?_, ?_⟩ <;> intro hn <;> first | rfl | exact ⟨rfl, rfl⟩ | exact absurd hk hn)
  rw [if_neg hk] at h
  clear hk
  by_cases hk : k = [100, 105, 115, 97]
  · rw [if_pos hk] at h
    injection h with h; injection h with h _; subst h
    (refine ⟨?_, ?_, ?_, ?_, ?_, ?_, ?_, ?_, ?_, ?_, ?_, ?_⟩ <;> intro hn <;> first | rfl | exact ⟨rfl, rfl⟩ | exact absurd hk hn)
  rw [if_neg hk] at h
  clear hk
  have hk : True := trivial
  injection h with h; injection h with h _; subst h
  (refine ⟨?_, ?_, ?_, ?_, ?_, ?_, ?_, ?_, ?_, ?_, ?_, ?_⟩ <;> intro hn <;> first | rfl | exact ⟨rfl, rfl⟩ | exact absurd hk hn)

/-- A value survives calls about other things. -/
theorem sets_kept {α : Type} (π : Settings → α) (P : SetCall → Prop)
    (hk : ∀ s (c : SetCall) s' b, zset s c.name c.text c.value = some (s', b) → ¬ P c → π s' = π s) :
    ∀ (cs : List SetCall) (s s' : Settings), sets s cs = some s' → (∀ c ∈ cs, ¬ P c) → π s' = π s := by
  intro cs
  induction cs with
  | nil => intro s s' h _; injection h with h; rw [h]
  | cons c cs ih =>
    intro s s' h hn
    unfold sets at h
    rw [Option.bind_eq_some_iff] at h
    obtain ⟨⟨s1, b⟩, h1, h2⟩ := h
    rw [ih s1 s' h2 fun x hx => hn x (by simp [hx])]
    exact hk s c s1 b h1 (hn c (by simp))

/-- What calls keep in any case. -/
theorem sets_inv (P : Settings → Prop) (hk : ∀ s (c : SetCall) s' b, zset s c.name c.text c.value = some (s', b) → P s → P s') :
    ∀ (cs : List SetCall) (s s' : Settings), sets s cs = some s' → P s → P s' := by
  intro cs
  induction cs with
  | nil => intro s s' h hp; injection h with h; rwa [← h]
  | cons c cs ih =>
    intro s s' h hp
    unfold sets at h
    rw [Option.bind_eq_some_iff] at h
    obtain ⟨⟨s1, b⟩, h1, h2⟩ := h
    exact ih s1 s' h2 (hk s c s1 b h1 hp)

theorem setLevel_length (l : List Int) (g v : Int) : (setLevel l g v).length = l.length := by
  unfold setLevel
  split
  · rfl
  · simp only
    split
    · have : ∀ (js : List Nat) (m : List Int), (js.foldl (fun l i => l.set (i + 1) v) m).length = m.length := by
        intro js
        induction js with
        | nil => intro m; rfl
        | cons j js ih => intro m; rw [List.foldl_cons, ih]; simp
      rw [this]; simp
    · simp

theorem setGroupLevel_length (l : List Int) (n : Bytes) (v : Int) : (setGroupLevel l n v).length = l.length := by
  unfold setGroupLevel
  split
  · exact setLevel_length _ _ _
  · split
    · rfl
    · exact setLevel_length _ _ _

/-- The sizes of the arrays. -/
structure SettingsOk (s : Settings) : Prop where
  levels : s.levels.length = 18
  program : s.program.length = 17
  datumName : s.datumName.length = 17

theorem zset_ok {s s' : Settings} {p : Bytes} {t : Option Bytes} {v : Int} {b : Bool} (h : zset s p t v = some (s', b)) (hs : SettingsOk s) : SettingsOk s' := by
  obtain ⟨k1, _, k3, _, _, _, _, _, _, k10, _, _⟩ := zset_keeps h
  refine ⟨?_, ?_, ?_⟩
  · by_cases hk : paramKey p ∈ levelKeys
    · unfold zset at h
      simp only at h
      rw [if_pos (by simpa [levelKeys] using hk)] at h
      cases t with
      | none => cases h
      | some t => injection h with h; injection h with h _; subst h; rw [← hs.levels]; exact setGroupLevel_length _ _ _
    · rw [k1 hk]; exact hs.levels
  · by_cases hk : paramKey p = progKey
    · unfold zset at h
      simp only [hk] at h
      rw [if_neg (by decide), if_neg (by decide), if_neg (by decide), if_pos (by decide)] at h
      cases t with
      | none => cases h
      | some t =>
        simp only [Option.map_eq_some_iff] at h
        obtain ⟨d, hd, h⟩ := h
        injection h with h _; subst h
        rw [← hs.program]; exact stringCopy_length hd
    · rw [k3 hk]; exact hs.program
  · by_cases hk : paramKey p = vdtmKey
    · unfold zset at h
      simp only [hk] at h
      iterate 13 rw [if_neg (by decide)] at h
      rw [if_pos (by decide)] at h
      split at h
      · injection h with h; injection h with h _; subst h; exact hs.datumName
      · simp only [Option.map_eq_some_iff] at h
        obtain ⟨d, hd, h⟩ := h
        injection h with h _; subst h
        have := stringCopy_length hd
        rw [← hs.datumName]; exact this
    · rw [(k10 hk).2]; exact hs.datumName

theorem initial_ok : SettingsOk initialSettings := ⟨rfl, rfl, rfl⟩

theorem sets_ok {cs : List SetCall} {s s' : Settings} (h : sets s cs = some s') (hs : SettingsOk s) : SettingsOk s' :=
  sets_inv SettingsOk (fun _ _ _ _ h1 h2 => zset_ok h1 h2) cs s s' h hs

end Hec
