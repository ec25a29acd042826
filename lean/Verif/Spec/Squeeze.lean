import Verif.Model.Squeeze
import Verif.Spec.Histories
/-! What a user expects of a squeezed file (C71). -/
namespace Spec
open Hec

/-- The file `f`, opened with the sizes `c`, reads like the state `s` with the sizes `c0`: every record is there, no other
is, and they have the same data, headers, version and time of last write. -/
def ReadsLike (c : Cfg) (f : WFile) (c0 : Cfg) (s : Eng) : Prop :=
  f.open.hdr.numberRecords = s.hdr.numberRecords ∧ ∀ q, q.length ≤ 392 → zread c f.open q = zread c0 s q

/-- No word of the file, but the one at its end, is -97532. -/
def NoEndFlags (s : Eng) : Prop := ∀ x, x < s.hdr.fileSize → s.disk x ≠ 2 ^ 64 - 97532

end Spec

namespace Spec
open Hec

/-- A full file name: directories, a slash, a name without slashes and backslashes, and ".dss". -/
def FileName (dirs name : Bytes) : Bytes := dirs ++ 47 :: (name ++ [46, 100, 115, 115])

/-- The temporary file: "/tmp/", the name, "_squ.dss". -/
def TempFile (name : Bytes) : Bytes := [47, 116, 109, 112, 47] ++ name ++ [95, 115, 113, 117, 46, 100, 115, 115]

/-- No slash and no backslash. -/
def OneName (name : Bytes) : Prop := ∀ b ∈ name, b ≠ 47 ∧ b ≠ 92

end Spec

namespace Spec
open Hec

/-- Sessions: in each the file is opened, some calls are made, and it is closed.  The file after the last. -/
def sessions (c : Cfg) : WFile → List (List Op) → Option (WFile × List Res)
  | f, [] => some (f, [])
  | f, ops :: rest => (runs c f.open ops).bind fun p => (sessions c p.1.image rest).map fun q => (q.1, p.2 ++ q.2)

/-- All calls of the sessions keep to the conditions `Allowed`. -/
def SessionsAllowed (c : Cfg) : List Op → WFile → List (List Op) → Prop
  | _, _, [] => True
  | past, f, ops :: rest => AllAllowed c past f.open ops ∧ ∀ s ress, runs c f.open ops = some (s, ress) → SessionsAllowed c (past ++ ops) s.image rest

end Spec
