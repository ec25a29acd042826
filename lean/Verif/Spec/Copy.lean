import Verif.Model.Copy
import Verif.Spec.Store
import Verif.Spec.Histories
/-! When the copy of a file is faithful (C52). -/
namespace Spec
open Hec

/-- No word of the file looks like the start of a record unless it is: three words in a row, the first -97534, the low
half of the second negative or at most 2, the low half of the third between 1 and 392. -/
def NoLookAlikes (c : Cfg) (s : Eng) : Prop :=
  ∀ x, x < s.hdr.fileSize → s.disk x = 2 ^ 64 - 97534 → s.disk (x + 1) % 2 ^ 32 ≤ 2 ∨ 2 ^ 31 ≤ s.disk (x + 1) % 2 ^ 32 →
    0 < s.disk (x + 2) % 2 ^ 32 → s.disk (x + 2) % 2 ^ 32 ≤ 392 →
    ∃ p k, p.length ≤ 392 ∧ zcheck c s p 0 = some k ∧ k.found = true ∧ k.infoAdd = x

/-- The pathnames of all records have six parts. -/
def FullNames (c : Cfg) (s : Eng) : Prop :=
  ∀ p R, p.length ≤ 392 → zread c s p = some (some R) → ∃ ps, SixParts ps ∧ p = join ps

/-- No time series has a header of the old form: if there are units, the int before them is zero or four blanks. -/
def NewHeaders (c : Cfg) (s : Eng) : Prop :=
  ∀ p R, p.length ≤ 392 → zread c s p = some (some R) → 100 ≤ R.dataType → R.dataType ≤ 119 → 18 < R.ih.length →
    R.ih[17]? = some 0 ∨ R.ih[17]? = some 0x20202020

/-- A call that leaves neither an incomplete pathname nor a header of the old form. -/
def GoodWrite : Op → Prop
  | .write r => (∃ ps, SixParts ps ∧ r.path = join ps) ∧
      (100 ≤ r.dataType → r.dataType ≤ 119 → 18 < r.ih.length → r.ih[17]? = some 0 ∨ r.ih[17]? = some 0x20202020)
  | .rename o n _ => SixParts o ∧ SixParts n
  | _ => True

end Spec
