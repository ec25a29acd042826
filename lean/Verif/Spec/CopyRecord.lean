import Verif.Model.CopyRecord
import Verif.Spec.OldNames
import Verif.Spec.Copy
import Verif.Spec.Layout
/-! Files in use, when records are also duplicated and copied from file to file. -/
namespace Spec
open Hec Hec.Spec

/-- The part has ELEV nowhere, in any case. -/
def NoElev (x : Bytes) : Prop := ∀ a m b : Bytes, x = a ++ m ++ b → m.map toupper ≠ [69, 76, 69, 86]

/-- The names a record may be copied from and to: six parts, not too long, E parts without an old interval, ELEV in the
C part of one of them at most. -/
structure CopyNames (ps qs : List Bytes) : Prop where
  six : SixParts ps
  six' : SixParts qs
  short : (join ps).length ≤ 392
  short' : (join qs).length ≤ 392
  old : ∀ e, ps[4]? = some e → ¬ OldMinute e
  old' : ∀ e, qs[4]? = some e → ¬ OldMinute e
  elev : NoElev (ps.getD 2 []) ∨ NoElev (qs.getD 2 [])

/-- What is asked of a record of type 100 to 199 that is copied to another file: the same D and E part, the E
part not one of at most five bytes that end with MIN, and A, B and C parts that together are as long. -/
def SameDates (ps qs : List Bytes) : Prop :=
  (ps.drop 3).take 2 = (qs.drop 3).take 2 ∧ (∀ a : Bytes, qs[4]? = some (a ++ [77, 73, 78]) → 5 < a.length + 3) ∧
    (join (ps.take 3)).length = (join (qs.take 3)).length

/-- The header of a time series is not of the old form. -/
def NewHeader (R : Rec) : Prop :=
  100 ≤ R.dataType → R.dataType ≤ 119 → 18 < R.ih.length → R.ih[17]? = some 0 ∨ R.ih[17]? = some 0x20202020

/-- A copy of the record `R` may be written under the pathname `q`, as any other write. -/
def MayReceive (c : Cfg) (past : List Op) (s : Eng) (R : Rec) (q : Bytes) : Prop :=
  (∀ R', zread c s q = some (some R') → oddHeaders R.ih R.h2 R.uh ≤ 1 ∨ oddHeaders R.ih R.h2 R.uh ≤ oddHeaders R'.ih R'.h2 R'.uh) ∧
    (zread c s q = some none → ∀ p ∈ past.flatMap Op.deletes, (p.length + 7) / 8 ≤ (q.length + 7) / 8)

/-- A record may be duplicated. -/
def MayDuplicate (c : Cfg) (past : List Op) (s : Eng) (ps qs : List Bytes) : Prop :=
  CopyNames ps qs ∧ ∀ R, zread c s (join ps) = some (some R) → NewHeader R ∧ MayReceive c past s R (join qs)

/-- A record of the file `f` may be copied to the file `s`. -/
def MayCopy (cf : Cfg) (f : Eng) (c : Cfg) (past : List Op) (s : Eng) (ps qs : List Bytes) : Prop :=
  CopyNames ps qs ∧ (∃ R, zread cf f (join ps) = some (some R)) ∧
    ∀ R, zread cf f (join ps) = some (some R) →
      NewHeader R ∧ R.dataType.toNat < 2 ^ 31 ∧ (100 ≤ R.dataType → R.dataType < 200 → SameDates ps qs) ∧ MayReceive c past s R (join qs)

/-- A file in use: a new file, after calls that change it, records duplicated and records copied from other files in use.
`past` are the calls. -/
inductive InUse : Cfg → List Op → Eng → Prop
  | new {hdrSize maxHash binSize : Nat} {mul : Nat → Nat} : GoodSizes hdrSize maxHash binSize →
      InUse (create hdrSize maxHash binSize mul).1 [] (create hdrSize maxHash binSize mul).2
  | call {c : Cfg} {past : List Op} {s s' : Eng} {op : Op} {res : Res} : InUse c past s → Allowed c past s op → run c s op = some (s', res) →
      InUse c (past ++ [op]) s'
  | duplicate {c : Cfg} {past : List Op} {s s' : Eng} {ps qs : List Bytes} {e : CopyEnv} {buf : Bytes} {junk : Int} {long : Option (Eng × Res)} {res : Res} :
      InUse c past s → MayDuplicate c past s ps qs → 129 ≤ buf.length →
      zduplicateRecord c s e (join ps) (join qs) buf junk long = some (s', res) → InUse c past s'
  | copy {cf c : Cfg} {pastf past : List Op} {f s s' : Eng} {ps qs : List Bytes} {e : CopyEnv} {buf : Bytes} {junk : Int} {long : Option (Eng × Res)} {res : Res} :
      InUse cf pastf f → InUse c past s → MayCopy cf f c past s ps qs → 129 ≤ buf.length →
      zcopyRecord cf f c s false e (join ps) (join qs) buf junk long = some (s', res) → InUse c past s'

end Spec
