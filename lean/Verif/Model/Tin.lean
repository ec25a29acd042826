import Verif.Model.Grid
/-!
Triangulated surfaces (TIN): Public/zspatialTinStore.c, Public/zspatialTinRetrieve.c, headers/zStructSpatialTin.h.

Simplifications as in Model/Grid.lean: a file of version 7, a little endian machine, floats are their bits, a struct to read
into is a new one, the dates of the parts D and E (zspatialTinStore.c:222-242) go to words of the catalog only and are a
parameter (`WriteEnv`).  Arrays are lists; a null array is an empty one.
-/
namespace Hec

/-- zStructSpatialTin as given to zspatialTinStore.  `none` is a null pointer. -/
structure TinIn where
  path : Bytes
  system : Option Bytes
  srsName : Option Bytes
  srsUnits : Option Bytes
  units : Option Bytes
  type : Option Bytes
  zone : Option Bytes
  srsType : Int
  points : Int
  tableLength : Int
  labelLength : Int
  slenderness : UInt32
  minX : UInt32
  minY : UInt32
  maxX : UInt32
  maxY : UInt32
  minValue : UInt32
  meanValue : UInt32
  maxValue : UInt32
  x : List UInt32
  y : List UInt32
  value : List UInt32
  pointType : List UInt32
  connections : List UInt32
  connectTo : List UInt32
  label : Option Bytes

/-- zspatialTinStore.c:97-111. -/
def tinInternal (t : TinIn) : List UInt32 :=
  [i32 t.points, i32 t.tableLength, i32 t.labelLength, i32 t.srsType, t.slenderness, t.minX, t.minY, t.maxX, t.maxY, t.minValue, t.meanValue, t.maxValue]

/-- zspatialTinStore.c:113-184: the six strings, each with a zero byte. -/
def tinText (t : TinIn) : Bytes :=
  [t.system, t.srsName, t.srsUnits, t.units, t.type, t.zone].flatMap fun s => s.getD [] ++ [0]

/-- zspatialTinStore.c:193-197 with charInt.c:87-107, which measures a string of which no length is given.  `none`: access
through a null pointer or behind the labels. -/
def tinLabels (t : TinIn) : Option (List UInt32) :=
  match t.label with
  | none => none
  | some b =>
    if t.labelLength ≤ 0 then some []
    else if t.labelLength > b.length then none
    else some (padInts (b.take t.labelLength.toNat))

/-- zspatialTinStore.c:199-220: the three arrays of values.  The second third of the second one stays zero. -/
def tinValues (t : TinIn) : Option (List UInt32 × List UInt32 × List UInt32) :=
  let n := t.points.toNat
  if t.points < 0 ∨ n > t.x.length ∨ n > t.y.length ∨ n > t.value.length ∨ n > t.pointType.length ∨ n > t.connections.length then none
  else if t.tableLength > t.connectTo.length then none
  else some (t.x.take n ++ t.y.take n ++ t.value.take n, t.pointType.take n ++ List.replicate n 0 ++ t.connections.take n,
    t.connectTo.take t.tableLength.toNat)

/-- zspatialTinStore.c:46-265; DATA_TYPE_SPATIAL_TIN is 450.  `none`: access outside memory. -/
def zspatialTinStore (c : Cfg) (s : Eng) (e : WriteEnv) (t : TinIn) : Option (Eng × Res) :=
  (tinLabels t).bind fun uh => (tinValues t).bind fun v =>
    zwritePublic c s (plainReq e t.path 450 (tinInternal t) (padInts (tinText t)) uh v.1 v.2.1 v.2.2 0)

/-- What zspatialTinRetrieve sets in a new struct. -/
structure TinOut where
  points : Int
  tableLength : Int
  labelLength : Int
  srsType : Int
  floats : List UInt32
  strings : List Bytes
  label : Option Bytes
  x : Option (List UInt32)
  y : Option (List UInt32)
  value : Option (List UInt32)
  pointType : Option (List UInt32)
  connections : Option (List UInt32)
  connectTo : Option (List UInt32)
deriving DecidableEq

/-- zspatialTinRetrieve.c:185-195: the labels, without the eight zero bytes behind them. -/
def readLabels (uh : List UInt32) (labelLength : Int) : Option Bytes :=
  if uh.length > 0 ∧ labelLength > 0 ∧ uh.length ≥ (labelLength.toNat + 3) / 4 then some ((intsToBytes uh).take labelLength.toNat) else none

/-- zspatialTinRetrieve.c:200-222: three arrays of a section of values.  The outer `none`: access behind it. -/
def threeArrays (v : List UInt32) (points : Int) : Option (Option (List UInt32) × Option (List UInt32) × Option (List UInt32)) :=
  let n := points.toNat
  if v.length > 0 then
    if 3 * n > v.length then none else some (some (v.take n), some ((v.drop n).take n), some ((v.drop (2 * n)).take n))
  else some (none, none, none)

/-- zspatialTinRetrieve.c:227-234. -/
def readTable (v : List UInt32) (tableLength : Int) : Option (Option (List UInt32)) :=
  if v.length > 0 ∧ tableLength > 0 then
    if tableLength > v.length then none else some (some (v.take tableLength.toNat))
  else some none

/-- zspatialTinRetrieve.c:51-241 into a new struct.  `none`: access outside an array.  Sections that are not asked for (lines
96-102) are empty. -/
def zspatialTinRetrieve (c : Cfg) (s : Eng) (path : Bytes) (withData : Bool) : Option (Got TinOut) :=
  (zread c s (mallocAndCopyPath path)).bind fun r =>
    match r with
    | none => some .notFound
    | some R =>
      if R.dataType ≠ 450 then some .wrongType
      else
        match R.ih with
        | p :: l :: k :: t :: f0 :: f1 :: f2 :: f3 :: f4 :: f5 :: f6 :: f7 :: _ =>
          let strings := gridStrings 6 (intsToBytes R.h2 ++ List.replicate 8 0)
          let label := readLabels (if withData then R.uh else []) (toInt32 k.toNat)
          (threeArrays (if withData then R.v1 else []) (toInt32 p.toNat)).bind fun a =>
          (threeArrays (if withData then R.v2 else []) (toInt32 p.toNat)).bind fun b =>
          (readTable (if withData then R.v3 else []) (toInt32 l.toNat)).map fun m =>
            .got ⟨toInt32 p.toNat, toInt32 l.toNat, toInt32 k.toNat, toInt32 t.toNat, [f0, f1, f2, f3, f4, f5, f6, f7], strings, label, a.1, a.2.1, a.2.2, b.1, b.2.2, m⟩
        | _ => none

end Hec
