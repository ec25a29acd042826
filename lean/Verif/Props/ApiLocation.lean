import Verif.Proofs.Api
import Verif.Props.Location
/-!
The public interface: locations (C59).
-/
namespace Hec
set_option linter.unusedSimpArgs false
set_option linter.unusedVariables false
set_option synthInstance.maxSize 1000
set_option synthInstance.maxHeartbeats 200000
open _root_.Spec (Op Store Step Steps run runs Allowed AllAllowed Reachable GoodSizes create join SixParts stored oddHeaders
  IsInt MayStore Later Ascii NoBlankEnd written shownIn shownOpt locationName HasContent IsLocation HoldsString ReadsBack)
open Hec.Spec (sameUpToCase)

variable {hdrSize maxHash binSize : Nat} {mul : Nat → Nat}

theorem memString_holds {t m : Option Bytes} (ht : ∀ x, t = some x → ∀ b ∈ x, b ≠ 0) (h : HoldsString t m) : memString m = some t := by
  cases t with
  | none => rw [show m = none from h]; rfl
  | some x =>
    obtain ⟨rest, rfl⟩ := h
    unfold memString
    have : cstr (x ++ 0 :: rest) = x := by
      unfold cstr
      rw [List.takeWhile_append_of_pos (by intro b hb; simpa using ht x rfl b hb)]; simp
    simp [this]

theorem putString_shown (buf : Bytes) {size : Nat} (s : Option Bytes) (h1 : size ≤ buf.length) :
    putString buf size s = some (shownOpt buf size s) := by
  cases s with
  | none => rfl
  | some s => exact putString_some buf s (by omega) (by omega)

/-- C59.  In a file reached by any calls, a location with a time zone `z` and other text `t`, of characters 1 to 127, is
stored (with replace = 0 only where there is none yet), and whatever is called next about other records it is read
through every pathname with the same parts A and B, into the variables and the memory of the caller: of each string as
much as there is room for.  An empty time zone leaves the memory as it was.  No other record changes.  Missing: time zones
of more than 72 bytes or of a length divisible by four (see C56_unterminated_violation), strings with blanks at the end
or other characters. -/
theorem C59_location_partial (g : GoodSizes hdrSize maxHash binSize) {past : List Op} {s : Eng}
    (hs : Reachable (create hdrSize maxHash binSize mul).1 (create hdrSize maxHash binSize mul).2 past s) (e : WriteEnv) (junk : Int) {l : LocIn} (replace : Int)
    {z t : Bytes} (hl : IsLocation l) (hz : l.timeZone = some z) (ht : l.supplemental = some t) (hza : Ascii z ∧ NoBlankEnd z) (hta : Ascii t ∧ NoBlankEnd t)
    {a b : Bytes} {cs : List Bytes} (k : Nat) (hp : SixParts (a :: b :: cs)) (hpath : l.path = join (a :: b :: cs) ++ List.replicate k 32)
    (hflag : replace = 0 → zread (create hdrSize maxHash binSize mul).1 s (locationName a b) = some none)
    (hw : MayStore (create hdrSize maxHash binSize mul).1 past s (locationName a b) 0)
    (htype : ∀ R, zread (create hdrSize maxHash binSize mul).1 s (locationName a b) = some (some R) → R.dataType = 20) :
    ∃ s', hecLocationStore (create hdrSize maxHash binSize mul).1 s e junk l replace = some (s', .written .ok) ∧
      (∀ q, q.length ≤ 392 → ¬ sameUpToCase (locationName a b) q →
        zread (create hdrSize maxHash binSize mul).1 s' q = zread (create hdrSize maxHash binSize mul).1 s q) ∧
      ∀ ops s'', Later (create hdrSize maxHash binSize mul).1 past s' (locationName a b) ops s'' →
        ∀ a' b' cs' j junk' heap, SixParts (a' :: b' :: cs') → sameUpToCase a a' → sameUpToCase b b' →
        ∀ (mz mt : Bytes) (nz nt : Nat), nz ≤ mz.length → nt ≤ mt.length →
        hecLocationRetrieve (create hdrSize maxHash binSize mul).1 s'' junk' heap (join (a' :: b' :: cs') ++ List.replicate j 32) mz nz mt nt =
          some (some ((l.x, l.y, l.z), [l.coordinateSystem, l.coordinateID, l.horizontalUnits, l.horizontalDatum, l.verticalUnits, l.verticalDatum]),
            if z = [] then mz else shownIn mz nz z, shownIn mt nt t) := by
  have cz := copy_same hza.1 hza.2
  have ct := copy_same hta.1 hta.2
  have hpath' : ({ l with path := mallocAndCopyPath l.path } : LocIn).path = join (a :: b :: cs) ++ List.replicate 0 32 := by
    show mallocAndCopyPath l.path = _
    rw [hpath]; exact name0 hp k
  obtain ⟨s', k1, k2, k3⟩ := C56_location_partial g hs e junk (l := { l with path := mallocAndCopyPath l.path }) replace
    ⟨hl.ints, hl.zone, hl.text⟩ (by right; right; right; left; show l.supplemental ≠ none; rw [ht]; simp) hp hpath' hflag hw htype
  refine ⟨s', ?_, k2, fun ops s'' hlt a' b' cs' j junk' heap hp' ha hb mz mt nz nt h1 h2 => ?_⟩
  · unfold hecLocationStore
    rw [hz, ht]
    simp only
    rw [cz, ct, ← hz, ← ht]
    exact k1
  · obtain ⟨o, h3, h4⟩ := k3 ops s'' hlt a' b' cs' 0 junk' heap hp' ha hb
    unfold hecLocationRetrieve
    rw [name0 hp' j, h3, Option.bind_some]
    simp only
    have hzone := h4.zone
    have htext := h4.text
    simp only [hz, ht] at hzone htext
    rw [memString_holds (by intro x hx c hc; split at hx <;> simp at hx; subst hx; exact (hl.zone z hz).1 c hc) hzone, Option.bind_some,
      memString_holds (by intro x hx c hc; simp at hx; subst hx; exact hl.text t ht c hc) htext, Option.bind_some,
      putString_shown _ _ h1, Option.bind_some, putString_shown _ _ h2, Option.map_some]
    rw [h4.x, h4.y, h4.z, h4.ints]
    simp only [Option.some.injEq]
    split <;> rfl

/-! ### Cases -/

def there : LocIn := ⟨join [[65], [66], [67], [], [], []] ++ [32], 0, 0, 0, 1, 0, 3, 2, 1, 1, some [85, 84, 67, 45, 56], some []⟩

/-- The conditions of C59_location_partial are met in a new file; the time zone "UTC-8" is read into four bytes. -/
example : ∃ s', hecLocationStore tiny.1 tiny.2 anEnv 7 there 0 = some (s', .written .ok) ∧
    hecLocationRetrieve tiny.1 s' 9 [] (join [[97], [98], [], [], [69], []]) [7, 7, 7, 7, 7] 4 [7, 7] 2 =
      some (some ((0, 0, 0), [1, 0, 3, 2, 1, 1]), [85, 84, 67, 0, 7], [0, 7]) := by
  have hp : SixParts [[65], [66], [67], [], [], []] := ⟨rfl, by simp [_root_.Spec.IsPart]⟩
  have hq : SixParts [[97], [98], [], [], [69], []] := ⟨rfl, by simp [_root_.Spec.IsPart]⟩
  have hz : zread tiny.1 tiny.2 (locationName [65] [66]) = some none := by decide +kernel
  obtain ⟨s', h1, _, h3⟩ := C59_location_partial (mul := id) tiny_good (past := []) (s := tiny.2) ⟨trivial, [], rfl⟩ anEnv 7 (l := there) 0
    (z := [85, 84, 67, 45, 56]) (t := []) ⟨by simp [there, IsInt], by simp [there], by simp [there]⟩ rfl rfl ⟨by unfold Ascii; decide, by unfold NoBlankEnd; decide⟩
    ⟨by unfold Ascii; decide, by unfold NoBlankEnd; decide⟩ 1 hp rfl (fun _ => hz)
    ⟨by decide, (fun R h => by rw [show (create 12 2 58 id) = tiny from rfl, hz] at h; cases h), fun _ d hd => by simp at hd⟩
    (fun R h => by rw [show (create 12 2 58 id) = tiny from rfl, hz] at h; cases h)
  have h := h3 [] s' ⟨trivial, ⟨[], rfl⟩, by simp⟩ [97] [98] _ 0 9 [] hq (by rw [same_iff]; decide) (by rw [same_iff]; decide) [7, 7, 7, 7, 7] [7, 7] 4 2 (by decide) (by decide)
  exact ⟨s', h1, h⟩

/-- C59 fails: a time zone of four bytes is read behind the end of the memory that holds it. -/
theorem C59_unterminated_violation :
    ((hecLocationStore tiny.1 tiny.2 anEnv 7 { there with timeZone := some [85, 84, 67, 56] } 0).bind fun p =>
      hecLocationRetrieve tiny.1 p.1 9 (List.replicate 8 77) there.path [7, 7, 7, 7, 7, 7] 6 [7] 1) = none ∧
    ((hecLocationStore tiny.1 tiny.2 anEnv 7 { there with timeZone := some [85, 84, 67, 56] } 0).bind fun p =>
      (hecLocationRetrieve tiny.1 p.1 9 [77, 0, 0, 0, 0, 0, 0, 0] there.path [7, 7, 7, 7, 7, 7] 6 [7] 1).map fun r => (p.2, r.2.1)) =
      some (.written .ok, [85, 84, 67, 56, 77, 0]) := by decide +kernel

end Hec
