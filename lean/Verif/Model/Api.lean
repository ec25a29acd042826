import Verif.Model.Location
import Verif.Model.Paired
import Verif.Model.Catalog
/-!
The public interface: heclib/hecdss/hecdss.c, functions about text, arrays, paired data, locations and the catalog, with
Utilities/mallocAndCopy.c and Public/zstructPdNewDoubles.c.

The memory that the caller gives for results is a list, as long as the memory; what is read or written outside makes the
result `none`.  Simplifications, besides those of the models used: the caller gives pointers that are not null unless
said otherwise; the pattern of the catalog is a parameter (Model/Wild.lean).
-/
namespace Hec

/-- mallocAndCopy.c:46-52: the length up to the first byte that is not positive as a signed char, the last byte not
looked at. -/
def legalLen : Bytes → Nat
  | [] => 0
  | [_] => 1
  | b :: bs => if b.toNat = 0 ∨ b.toNat ≥ 128 then 1 else 1 + legalLen bs

/-- mallocAndCopy.c:55-62: from `i` down to 1, the first that is not blank. -/
def lastInk (s : Bytes) : Nat → Option Nat
  | 0 => none
  | i + 1 => if s.getD (i + 1) 0 ≠ 32 then some (i + 1) else lastInk s i

/-- mallocAndCopy.c:36-78: the characters of the copy. -/
def mallocAndCopy (s : Bytes) : Bytes :=
  let len := legalLen s
  if len = 0 then []
  else if s.getD (len - 1) 0 = 32 then
    match lastInk s (len - 1) with
    | some i => s.take (i + 1)
    | none => s.take (len - 1)
  else s.take len

/-- What a call returns. -/
inductive Api where
  | ok
  /-- HEC_DSS_BUFFER_TOO_SMALL -/
  | tooSmall
  /-- lengths given and read differ (-1) -/
  | badLength
  /-- an error of the function called, or record not found -/
  | failed
deriving DecidableEq

/-! ### Text -/

/-- hecdss.c:932-944, zstructTextNew.c:42-61.  `none`: the copy is read behind its end. -/
def hecTextStore (c : Cfg) (s : Eng) (e : WriteEnv) (path text : Bytes) (length : Int) : Option (Eng × Api) :=
  let t := mallocAndCopy text ++ [0]
  if length ≤ t.length then
    (ztextStore c s e ⟨mallocAndCopyPath path, some t, length, none, 0, none, 0, 0, 0, []⟩).map fun r =>
      (r.1, if r.2 = some .ok then .ok else .failed)
  else none

/-- strncpy into the caller's memory: `n` bytes are written, zeros behind the end of the string. -/
def strncpyInto (buf src : Bytes) (n : Nat) : Option Bytes :=
  let w := (cstr src).take n
  if n ≤ buf.length then some (w ++ List.replicate (n - w.length) 0 ++ buf.drop n) else none

/-- hecdss.c:946-961.  A negative number becomes a large one. -/
def hecTextRetrieve (c : Cfg) (s : Eng) (path : Bytes) (buf : Bytes) (size : Int) : Option (Api × Bytes) :=
  (ztextRetrieve c s (mallocAndCopyPath path)).bind fun r =>
    match r with
    | .got t =>
      if size < 0 then none
      else (strncpyInto buf (t.text ++ [0]) (min size.toNat t.text.length)).map fun b =>
        (if (t.text.length : Int) > size then .tooSmall else .ok, b)
    | _ => some (.failed, buf)

/-! ### Arrays -/

/-- hecdss.c:98-134: hec_dss_array_copy_double, _float, _int. -/
def copyArray {α : Type} (dst : List α) (size : Int) (src : List α) : Option (List α) :=
  if size ≤ 0 ∨ src.length = 0 then some dst
  else
    let n := min src.length size.toNat
    if n ≤ dst.length then some (src.take n ++ dst.drop n) else none

/-- hecdss.c:876-887: pointer and number, if there is something. -/
def someValues {α : Type} (p : Option (List α)) (n : Int) : Option (List α) × Int := if 0 < n then (if p.isSome then (p, n) else (none, 0)) else (none, 0)

/-- hecdss.c:868-891. -/
def hecArrayStore (c : Cfg) (s : Eng) (e : WriteEnv) (path : Bytes) (ints : Option (List UInt32)) (nInts : Int) (floats : Option (List UInt32)) (nFloats : Int)
    (doubles : Option (List UInt64)) (nDoubles : Int) : Option (Eng × Api) :=
  let i := someValues ints nInts
  let f := someValues floats nFloats
  let d := someValues doubles nDoubles
  (zarrayStore c s e ⟨mallocAndCopyPath path, i.1, i.2, f.1, f.2, d.1, d.2, []⟩).map fun r => (r.1, if r.2 = .ok then .ok else .failed)

/-- hecdss.c:893-905: the three numbers, if the record was read. -/
def hecArrayInfo (c : Cfg) (s : Eng) (path : Bytes) : Option (Option (Nat × Nat × Nat)) :=
  (zarrayRetrieve c s (mallocAndCopyPath path)).map fun r =>
    match r with
    | .got a => some (a.ints.length, a.floats.length, a.doubles.length)
    | _ => none

/-- hecdss.c:908-929: into memory of the caller, of the lengths given. -/
def hecArrayRetrieve (c : Cfg) (s : Eng) (path : Bytes) (ints : List UInt32) (nInts : Int) (floats : List UInt32) (nFloats : Int)
    (doubles : List UInt64) (nDoubles : Int) : Option (Api × List UInt32 × List UInt32 × List UInt64) :=
  (zarrayRetrieve c s (mallocAndCopyPath path)).bind fun r =>
    match r with
    | .got a =>
      (if nInts = a.ints.length then copyArray ints nInts a.ints else some ints).bind fun i =>
      (if nFloats = a.floats.length then copyArray floats nFloats a.floats else some floats).bind fun f =>
      (if nDoubles = a.doubles.length then copyArray doubles nDoubles a.doubles else some doubles).map fun d => (.ok, i, f, d)
    | _ => some (.failed, ints, floats, doubles)

/-! ### Strings and paired data -/

/-- `stringCopy(buf, size, s, strlen(s))`, if `s` is not null. -/
def putString (buf : Bytes) (size : Int) (s : Option Bytes) : Option Bytes :=
  match s with
  | none => some buf
  | some s => stringCopyAt buf 0 size s s.length

/-- zstructPdNewDoubles.c:96-111 and hecdss.c:675: the five strings.  `none`: the length of a null string is asked for. -/
def pdApiStrings (unitsI typeI unitsD typeD zone : Option Bytes) : Option PdStrings :=
  (if unitsI.isSome then
    match typeI, unitsD, typeD with
    | some t, some u, some v => some [unitsI.map mallocAndCopy, some (mallocAndCopy t), some (mallocAndCopy u), some (mallocAndCopy v)]
    | _, _, _ => none
  else some [none, none, none, none]).bind fun ss =>
    zone.map fun z => ss ++ [some (mallocAndCopy z)]

/-- hecdss.c:647-683; the lengths of the two arrays of doubles are not looked at.  `none` too if fewer bytes of labels are
given than said. -/
def hecPdStore (c : Cfg) (s : Eng) (e : PdEnv) (w : WriteEnv) (path : Bytes) (ords vals : List UInt64) (nOrd nCurves : Int)
    (unitsI typeI unitsD typeD : Option Bytes) (labels : Option Bytes) (labelsLength : Int) (zone : Option Bytes) : Option (Eng × Api) :=
  (pdApiStrings unitsI typeI unitsD typeD zone).bind fun ss =>
    if labels.isSome ∧ (labelsLength < 0 ∨ labelsLength > (labels.getD []).length) then none
    else if nOrd > ords.length ∨ nCurves * nOrd > vals.length then none
    else
      (zpdStore c s e w 2 ⟨mallocAndCopyPath path, some (.doubles ords vals), nOrd, nCurves, 1, -1, -1, ss, labels, if labels.isSome then labelsLength else 0, [],
        0, 0, 0, 0⟩).map fun r => (r.1, if r.2 = .ok then .ok else .failed)

/-- The memory the caller of hec_dss_pdRetrieve gives, and the lengths said. -/
structure PdBuffers where
  ords : List UInt64
  vals : List UInt64
  nOrd : Int
  nCurves : Int
  unitsI : Bytes
  typeI : Bytes
  unitsD : Bytes
  typeD : Bytes
  labels : Bytes
  zone : Bytes
deriving DecidableEq

structure PdLengths where
  ords : Int
  vals : Int
  unitsI : Int
  typeI : Int
  unitsD : Int
  typeD : Int
  labels : Int
  zone : Int

/-- hecdss.c:631-635. -/
def putLabels (buf : Bytes) (size : Int) (labels : Bytes) : Option Bytes :=
  let n := if (labels.length : Int) > size then size.toNat else labels.length
  if n ≤ buf.length then some (labels.take n ++ buf.drop n) else none

/-- hecdss.c:581-645. -/
def hecPdRetrieve (c : Cfg) (s : Eng) (k : Conv) (ca : Bytes) (path : Bytes) (b : PdBuffers) (l : PdLengths) : Option (Api × PdBuffers) :=
  (zpdRetrieve c s k ca ⟨mallocAndCopyPath path, 0, 0, 0, 0, 2⟩).bind fun r =>
    match r with
    | .got (some o) =>
      if o.nOrd ≠ l.ords ∨ o.nCurves * o.nOrd ≠ l.vals then some (.badLength, b)
      else match o.data, o.strings.map Field.val with
        | .doubles os vs, [s1, s2, s3, s4, s5] =>
          (putString b.unitsI l.unitsI s1).bind fun ui =>
          (putString b.unitsD l.unitsD s3).bind fun ud =>
          (putString b.typeI l.typeI s2).bind fun ti =>
          (putString b.typeD l.typeD s4).bind fun td =>
          (putString b.zone l.zone s5).bind fun z =>
          (if o.labels.length > 0 then putLabels b.labels l.labels o.labels else some b.labels).bind fun lb =>
          (copyArray b.ords l.ords os).bind fun ds =>
          (copyArray b.vals l.vals vs).map fun dv =>
            (.ok, ⟨ds, dv, o.nOrd, o.nCurves, ui, ti, ud, td, lb, z⟩)
        | _, _ => none
    | _ => some (.failed, b)

/-- hecdss.c:524-556, the numbers that tell how much memory to give: ordinates, curves, bytes of labels. -/
def hecPdInfo (c : Cfg) (s : Eng) (k : Conv) (ca : Bytes) (path : Bytes) : Option (Option (Int × Int × Nat)) :=
  (zpdRetrieve c s k ca ⟨mallocAndCopyPath path, 0, 0, 0, 0, 2⟩).map fun r =>
    match r with
    | .got (some o) => some (o.nOrd, o.nCurves, o.labels.length)
    | _ => none

/-! ### Locations -/

/-- hecdss.c:483-511; `l` has the strings of the caller. -/
def hecLocationStore (c : Cfg) (s : Eng) (e : WriteEnv) (junk : Int) (l : LocIn) (replace : Int) : Option (Eng × LocRes) :=
  match l.timeZone, l.supplemental with
  | some z, some t =>
    zlocationStore c s e junk { l with path := mallocAndCopyPath l.path, timeZone := some (mallocAndCopy z), supplemental := some (mallocAndCopy t) } replace
  | _, _ => none

/-- A string in memory; `none`: no zero byte is found. -/
def memString (m : Option Bytes) : Option (Option Bytes) :=
  match m with
  | none => some none
  | some m => if m.any (· == 0) then some (some (cstr m)) else none

/-- hecdss.c:450-481: coordinates, the six numbers, and the two buffers. -/
def hecLocationRetrieve (c : Cfg) (s : Eng) (junk : Int) (heap : Bytes) (path : Bytes) (zone : Bytes) (zoneSize : Int) (text : Bytes) (textSize : Int) :
    Option (Option ((UInt64 × UInt64 × UInt64) × List Int) × Bytes × Bytes) :=
  (zlocationRetrieve c s junk heap (mallocAndCopyPath path)).bind fun r =>
    match r with
    | .got o =>
      (memString o.timeZone).bind fun z => (memString o.supplemental).bind fun t =>
        (putString zone zoneSize z).bind fun zb => (putString text textSize t).map fun tb => (some ((o.x, o.y, o.z), o.ints), zb, tb)
    | _ => some (none, zone, text)

/-! ### The catalog -/

/-- hecdss.c:206-213: pathnames and types from number `i` on. -/
def putRows (item : Nat) : Nat → List CatRow → Bytes → List Nat → Option (Bytes × List Nat)
  | _, [], buf, types => some (buf, types)
  | i, r :: rs, buf, types =>
    if i < types.length then
      (stringCopyAt buf (i * item) item r.path r.path.length).bind fun b => putRows item (i + 1) rs b (types.set i r.dataType)
    else none

/-- hecdss.c:196-216: number of pathnames, the buffer of pathnames, the types. -/
def hecCatalog (c : Cfg) (s : Eng) (wild : Bytes → Bool) (buf : Bytes) (types : List Nat) (count : Int) (item : Nat) : Option (Int × Bytes × List Nat) :=
  (zcatalog c s ⟨REC_STATUS_VALID, 0, 0, 0, 0, 0, wild⟩).bind fun rows =>
    let n : Int := if (rows.length : Int) > count then count else rows.length
    (putRows item 0 (rows.take n.toNat) buf types).map fun r => (n, r.1, r.2)

/-- hecdss.c:185-193. -/
def hecRecordCount (s : Eng) : Nat := s.hdr.numberRecords

end Hec
