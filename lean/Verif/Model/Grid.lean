import Verif.Model.Api
/-!
Grids: Public/zspatialGridStore.c, Public/zspatialGridRetrieve.c, Public/zstructSpatialGridNew.c, Public/zlibcompress.c,
headers/zStructSpatialGrid.h, and hecdss.c:685-841.

Simplifications, besides those of Model/Engine.lean and Model/Records.lean: the file is of version 7; numbers of cells and
of ranges are mathematical integers until they are put into the header; the dates of the parts D and E go to words of the
catalog only and are a parameter (`WriteEnv`); floats are their bits; the machine is little endian; the library zlib is a
parameter; a struct to read into is a new one.
-/
namespace Hec

/-- zlib.  `compress`: `none` if there is an error or the space of zlibcompress.c:10-14 is not enough.  `uncompress b n`:
what is written into `n` bytes. -/
structure Zlib where
  compress : Bytes → Option Bytes
  uncompress : Bytes → Nat → Option Bytes

/-- zStructSpatialGrid as given to zspatialGridStore.  `none` is a null pointer. -/
structure GridIn where
  path : Bytes
  structVersion : Int
  type : Int
  version : Int
  dataType : Int
  lowerLeftX : Int
  lowerLeftY : Int
  cellsX : Int
  cellsY : Int
  compression : Int
  ranges : Int
  srsType : Int
  zoneOffset : Int
  isInterval : Int
  isTimeStamped : Int
  storageType : Int
  units : Option Bytes
  source : Option Bytes
  srsName : Option Bytes
  srsDefinition : Option Bytes
  zone : Option Bytes
  cellSize : UInt32
  x0 : UInt32
  y0 : UInt32
  nullValue : UInt32
  min : Option UInt32
  max : Option UInt32
  mean : Option UInt32
  limits : List UInt32
  exceeding : List UInt32
  data : List UInt32

/-- zspatialGridStore.c:127-198: the five strings, each with a zero byte.  (The size given to stringCopy is that of the
whole array, which is longer than every string: nothing is cut.) -/
def gridText (g : GridIn) : Bytes :=
  [g.units, g.source, g.srsName, g.srsDefinition, g.zone].flatMap fun s => s.getD [] ++ [0]

/-- zspatialGridStore.c:200-209: eleven ints. -/
def gridHeader (g : GridIn) : List UInt32 := [g.cellSize, g.x0, g.y0, g.nullValue, 0, 0, 0, 0, 0, 0, 0]

/-- zspatialGridStore.c:108-123 and 231, 243, 291, with `size` for the compressed elements: 24 ints. -/
def gridInternal (g : GridIn) (size : Int) : List UInt32 :=
  [i32 g.structVersion, i32 g.type, i32 g.version, i32 g.dataType, i32 g.lowerLeftX, i32 g.lowerLeftY, i32 g.cellsX, i32 g.cellsY,
    i32 g.compression, i32 size, i32 g.ranges, i32 g.srsType, i32 g.zoneOffset, i32 g.isInterval, i32 g.isTimeStamped, i32 g.storageType,
    0, 0, 0, 0, 0, 0, 0, 0]

/-- zspatialGridStore.c:219-228.  `none`: access through a null pointer or outside a table. -/
def gridRanges (g : GridIn) : Option (List UInt32) :=
  match g.min, g.max, g.mean with
  | some a, some b, some d =>
    if g.ranges < 0 ∨ g.ranges > g.limits.length ∨ g.ranges > g.exceeding.length then none
    else some ([a, b, d] ++ g.limits.take g.ranges.toNat ++ g.exceeding.take g.ranges.toNat)
  | _, _, _ => none

/-- zspatialGridStore.c:236-239: the cells, filled up to whole words (two ints for no cells). -/
def gridCells (g : GridIn) : Option (List UInt32) :=
  let n := g.cellsX * g.cellsY
  if n < 0 ∨ n > g.data.length then none
  else
    let numLongs := if n = 0 then 1 else ((n.toNat - 1) / 2) + 1
    some (g.data.take n.toNat ++ List.replicate (2 * numLongs - n.toNat) 0)

inductive GridRes where
  | written (r : Res)
  /-- WRITE_ERROR: "Unsupported storage data type", "Unsupported Compression", "error in zlib compression" -/
  | badStorage
  | badCompression
  | zlibError
deriving DecidableEq

/-- zspatialGridStore.c:229-305: the array values3 and the size in the header.  `pre` is not negative. -/
def gridValues (z : Zlib) (g : GridIn) (pre : Nat) : Option (Except GridRes (List UInt32 × Int)) :=
  if pre ≠ 0 then
    if (pre + 3) / 4 ≤ g.data.length then some (.ok (g.data.take ((pre + 3) / 4), pre)) else none
  else (gridCells g).map fun cells =>
    if g.compression = 1 then .ok (cells, g.cellsX * g.cellsY * 4)
    else if g.compression = 26 then
      match z.compress (intsToBytes cells) with
      | some b => if b.length = 0 then .error .zlibError else .ok (padInts b, b.length)
      | none => .error .zlibError
    else .error .badCompression

/-- zspatialGridStore.c:54-368. -/
def zspatialGridStore (c : Cfg) (s : Eng) (e : WriteEnv) (z : Zlib) (g : GridIn) (pre : Nat) : Option (Eng × GridRes) :=
  if g.storageType = 0 then
    (gridRanges g).bind fun v1 => (gridValues z g pre).bind fun v =>
      match v with
      | .error r => some (s, r)
      | .ok (v3, size) =>
        (zwritePublic c s (plainReq e g.path (i32 g.type) (gridInternal g size) (padInts (gridText g)) (gridHeader g) v1 [] v3 0)).map fun p =>
          (p.1, .written p.2)
  else some (s, .badStorage)

/-- What zspatialGridRetrieve sets in a new struct. -/
structure GridOut where
  type : Int
  version : Int
  dataType : Int
  lowerLeftX : Int
  lowerLeftY : Int
  cellsX : Int
  cellsY : Int
  compression : Int
  size : Int
  ranges : Int
  srsType : Int
  zoneOffset : Int
  isInterval : Int
  isTimeStamped : Int
  storageType : Int
  strings : List Bytes
  cellSize : UInt32
  x0 : UInt32
  y0 : UInt32
  nullValue : UInt32
  min : Option UInt32
  max : Option UInt32
  mean : Option UInt32
  limits : List UInt32
  exceeding : List UInt32
  data : Option (List UInt32)
deriving DecidableEq

inductive GridGot where
  | notFound
  | wrongType
  /-- READ_ERROR: version of the struct, storage type, zlib -/
  | readError
  | got (o : GridOut)
deriving DecidableEq

/-- zspatialGridRetrieve.c:267-287: the next string is looked for behind the length of the copy. -/
def gridStrings : Nat → Bytes → List Bytes
  | 0, _ => []
  | n + 1, b =>
    let t := mallocAndCopy (cstr b)
    t :: gridStrings n (b.drop (t.length + 1))

/-- zspatialGridRetrieve.c:324-378.  The outer `none`: access outside an array; the inner one: an error of zlib. -/
def gridData (z : Zlib) (cells compression size : Int) (v3 : List UInt32) : Option (Option (Option (List UInt32))) :=
  if v3.length > 0 then
    if compression = 1 then
      if cells < 0 ∨ cells > v3.length then none else some (some (some (v3.take cells.toNat)))
    else if compression = 26 then
      let numLongs := if cells = 0 then 1 else ((cells.toNat - 1) / 2) + 1
      let buffer := intsToBytes v3 ++ List.replicate 8 0
      if cells < 0 ∨ size < 0 ∨ size > buffer.length then none
      else match z.uncompress (buffer.take size.toNat) (8 * numLongs) with
        | none => some none
        | some b => some (some (some (bytesToInts ((b ++ List.replicate (8 * numLongs - b.length) 0).take (8 * numLongs)))))
    else some (some none)
  else some (some none)

/-- zspatialGridRetrieve.c:158-402 into a new struct.  `none`: access outside an array. -/
def zspatialGridRetrieve (c : Cfg) (s : Eng) (z : Zlib) (path : Bytes) (withData : Bool) : Option GridGot :=
  (zread c s (mallocAndCopyPath path)).bind fun r =>
    match r with
    | none => some .notFound
    | some R =>
      let t := toInt32 R.dataType.toNat
      if t < 400 ∨ t > 431 then some .wrongType
      else
        match R.ih.map fun w => toInt32 w.toNat with
        | sv :: type :: _ :: dataType :: lx :: ly :: nx :: ny :: comp :: size :: n :: srs :: off :: isI :: isT :: store :: _ =>
          if sv ≠ -100 then some .readError
          else
            let strings := gridStrings 5 (intsToBytes R.h2 ++ List.replicate 8 0)
            (match R.uh with
              | [] => some (0, 0, 0, 0)
              | a :: b :: d :: f :: _ => some (a, b, d, f)
              | _ => none).bind fun (floats : UInt32 × UInt32 × UInt32 × UInt32) =>
            if store ≠ 0 then some .readError
            else
              (if R.v1.length > 0 then
                if n < 0 ∨ R.v1.length < 3 + 2 * n then none
                else some (some (R.v1.getD 0 0), some (R.v1.getD 1 0), some (R.v1.getD 2 0), (R.v1.drop 3).take n.toNat, (R.v1.drop (3 + n.toNat)).take n.toNat)
              else some (none, none, none, [], [])).bind fun (v : Option UInt32 × Option UInt32 × Option UInt32 × List UInt32 × List UInt32) =>
              (if withData then gridData z (nx * ny) comp size R.v3 else some (some none)).map fun d =>
                match d with
                | none => .readError
                | some d =>
                  .got ⟨type, 0, dataType, lx, ly, nx, ny, comp, size, n, srs, off, isI, isT, store, strings,
                    floats.1, floats.2.1, floats.2.2.1, floats.2.2.2, v.1, v.2.1, v.2.2.1, v.2.2.2.1, v.2.2.2.2, d⟩
        | _ => none

/-! ### The public interface -/

/-- hecdss.c:772-841: zstructSpatialGridNew with the arguments of the caller; compression by zlib. -/
def hecGridStore (c : Cfg) (s : Eng) (e : WriteEnv) (z : Zlib) (g : GridIn) (compressionSize : Nat) : Option (Eng × GridRes) :=
  match g.units, g.source, g.srsName, g.srsDefinition, g.zone with
  | some a, some b, some d, some f, some h =>
    zspatialGridStore c s e z { g with path := mallocAndCopyPath g.path, structVersion := -100, version := 0, compression := 26, storageType := 0, units := some (mallocAndCopy a), source := some (mallocAndCopy b), srsName := some (mallocAndCopy d), srsDefinition := some (mallocAndCopy f), zone := some (mallocAndCopy h) } compressionSize
  | _, _, _, _, _ => none

/-- The variables and the memory of the caller of hec_dss_gridRetrieve. -/
structure GridMem where
  ints : List Int
  units : Bytes
  source : Bytes
  srsName : Bytes
  srsDefinition : Bytes
  zone : Bytes
  floats : List UInt32
  stats : List UInt32
  limits : List UInt32
  exceeding : List UInt32
  data : List UInt32
deriving DecidableEq

structure GridLengths where
  units : Int
  source : Int
  srsName : Int
  srsDefinition : Int
  zone : Int
  ranges : Int
  data : Int

/-- hecdss.c:745-757: the first of `n` and `size` elements. -/
def copyFirst (dst : List UInt32) (n size : Int) (src : List UInt32) : Option (List UInt32) :=
  let m := (if n > size then size else n).toNat
  if m ≤ dst.length ∧ m ≤ src.length then some (src.take m ++ dst.drop m) else none

/-- hecdss.c:685-763.  `stats`: maximum, minimum, mean. -/
def hecGridRetrieve (c : Cfg) (s : Eng) (z : Zlib) (path : Bytes) (withData : Bool) (m : GridMem) (l : GridLengths) : Option (Api × GridMem) :=
  (zspatialGridRetrieve c s z (mallocAndCopyPath path) withData).bind fun r =>
    match r with
    | .got o =>
      (putString m.units l.units (o.strings[0]?)).bind fun s1 =>
      (putString m.source l.source (o.strings[1]?)).bind fun s2 =>
      (putString m.srsName l.srsName (o.strings[2]?)).bind fun s3 =>
      (putString m.srsDefinition l.srsDefinition (o.strings[3]?)).bind fun s4 =>
      (putString m.zone l.zone (o.strings[4]?)).bind fun s5 =>
        let ints := [o.type, o.dataType, o.lowerLeftX, o.lowerLeftY, o.cellsX, o.cellsY, o.ranges, o.srsType, o.zoneOffset, o.isInterval, o.isTimeStamped]
        let floats := [o.cellSize, o.x0, o.y0, o.nullValue]
        if withData then
          match o.max, o.min, o.mean with
          | some a, some b, some d =>
            (copyFirst m.limits o.ranges l.ranges o.limits).bind fun t1 =>
            (copyFirst m.exceeding o.ranges l.ranges o.exceeding).bind fun t2 =>
            (copyFirst m.data (o.cellsX * o.cellsY) l.data (o.data.getD [])).map fun t3 =>
              (.ok, ⟨ints, s1, s2, s3, s4, s5, floats, [a, b, d], t1, t2, t3⟩)
          | _, _, _ => none
        else some (.ok, { m with ints := ints, units := s1, source := s2, srsName := s3, srsDefinition := s4, zone := s5, floats := floats })
    | _ => some (.failed, m)

end Hec
