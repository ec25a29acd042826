import Verif.Model.Records
/-!
Paired data: Public/zpdStore.c, Public/zpdRetrieve.c, with v6and7/zdataType.c.

Simplifications, besides those of Model/Engine.lean and Model/Records.lean: the pathname names no elevation
(pathnameIsElevPd is 0: no vertical datum is applied) and no location is stored with the data; the struct given to
zpdRetrieve is new; products of counts do not overflow; locks are those of C35.  Floats and doubles are their bits.
-/
namespace Hec

/-- The conversions between float and double of the machine. -/
structure Conv where
  toD : UInt32 → UInt64
  toF : UInt64 → UInt32

/-- Ordinates and values: the pointers floatOrdinates, floatValues or doubleOrdinates, doubleValues. -/
inductive PdData where
  | floats (ords vals : List UInt32)
  | doubles (ords vals : List UInt64)
deriving DecidableEq

/-- zpdStore.c:780-858 with convertDataArray.c: numbers as ints in an array for the file. -/
def pdInts (k : Conv) (wide : Bool) : List UInt32 ⊕ List UInt64 → List UInt32
  | .inl f => if wide then (f.map k.toD).flatMap doubleInts else f
  | .inr d => if wide then d.flatMap doubleInts else d.map k.toF

/-- The first `n` ordinates and the first `m` values. -/
def PdData.ords (n : Nat) : PdData → List UInt32 ⊕ List UInt64
  | .floats o _ => .inl (o.take n)
  | .doubles o _ => .inr (o.take n)

def PdData.vals (from_ n : Nat) : PdData → List UInt32 ⊕ List UInt64
  | .floats _ v => .inl ((v.drop from_).take n)
  | .doubles _ v => .inr ((v.drop from_).take n)

/-- zStructPairedData, as given to zpdStore. -/
structure PdIn where
  path : Bytes
  data : Option PdData
  nOrd : Int
  nCurves : Int
  xaxis : Int
  xprec : Int
  yprec : Int
  strings : PdStrings
  labels : Option Bytes
  labelsLength : Int
  uh : List UInt32
  startCurve : Int
  endCurve : Int
  startOrd : Int
  endOrd : Int

/-- What zpdStore depends on besides: uninitialised local arrays (zpdStore.c:241, zpdUnitsToHead.c) and the type that
zdataType.c:82-94 makes up from the pathname if there is no record. -/
structure PdEnv where
  conv : Conv
  hdr : Bytes
  ca1 : Bytes
  ca2 : Bytes
  looks : Int

/-- zpdStore.c:269-277. -/
def storeEntire (p : PdIn) : Bool :=
  !(decide (p.startCurve > 1) || decide (p.startOrd > 1) || (decide (p.endOrd ≠ 0) && decide (p.endOrd ≠ p.nOrd)) ||
    (decide (p.endCurve ≠ 0) && decide (p.endCurve ≠ p.nCurves)) ||
    (decide (p.startOrd = 0) && decide (p.endOrd = 0) && (decide (p.startCurve ≠ 0) || decide (p.endCurve ≠ 0))))

/-- zpdStore.c:652-679: doubles are stored; `none`: no data given. -/
def storeDoubles (flag : Int) (d : Option PdData) : Option Bool :=
  if flag = 1 ∨ flag = 11 then some false
  else if flag = 2 ∨ flag = 12 then some true
  else d.map fun d => match d with | .floats _ _ => false | .doubles _ _ => true

/-- An int in memory (little endian). -/
def intBytes (n : Int) : Bytes := intsToBytes [i32 n]

/-- zpdStore.c:700-740: the internal header. -/
def pdHeader (e : PdEnv) (p : PdIn) : Option (List UInt32) :=
  let h := intBytes p.nOrd ++ intBytes p.nCurves ++ intBytes p.xaxis ++ (e.hdr.drop 12).take 4 ++ intBytes 0 ++ e.hdr.drop 20
  (zpdUnitsToHead p.strings e.ca1 h 200).bind fun r =>
    let prec : Int := if p.xprec < 0 then -1 else p.xprec * 10 + p.yprec
    let h := r.1.take 12 ++ intBytes p.labelsLength ++ intBytes prec ++ r.1.drop 20
    (zpdUnitsToHead p.strings e.ca2 h r.2).map fun q => (bytesToInts q.1).take q.2

/-- zpdStore.c:720-737: the labels, filled up to a multiple of eight bytes. -/
def pdLabels (p : PdIn) : List UInt32 :=
  let b := chars p.labels p.labelsLength
  bytesToInts (b ++ List.replicate (7 - (b.length + 7) % 8) 0)

/-- zpdStore.c:741-858: the record, if doubles are (not) stored. -/
def pdReq (e : PdEnv) (w : WriteEnv) (flag : Int) (p : PdIn) (d : PdData) (wide : Bool) (ih : List UInt32) : Req :=
  let n := (p.nCurves * p.nOrd).toNat
  plainReq w p.path (if wide then 205 else 200) ih (pdLabels p) p.uh (pdInts e.conv wide (d.ords p.nOrd.toNat))
    (if flag > 5 then List.replicate (if wide then 2 * n else n) 0 else pdInts e.conv wide (d.vals 0 n)) []
    ((p.nCurves + 1) * p.nOrd).toNat

/-- zdataType.c:54-101; a record is found with the bin entry of zcheck. -/
def zdataType (c : Cfg) (s : Eng) (looks : Int) (path : Bytes) : Option Int :=
  (zcheck c s path REC_STATUS_VALID).map fun k => if k.found then toInt32 (s.disk (k.pathBinAddress + 4)) else looks

inductive PdRes where
  | ok
  | noData
  | wrongType
  | refused
deriving DecidableEq

/-- zpdStore.c:866-875: a record of another type is deleted, then the record is written. -/
def pdWrite (c : Cfg) (s : Eng) (e : PdEnv) (path : Bytes) (r : Req) : Option (Eng × PdRes) :=
  (zdataType c s e.looks path).bind fun t =>
    (if t > 0 ∧ t ≠ toInt32 r.dataType.toNat then (zdeleteInternal c s path false).map Prod.fst else some s).bind fun s =>
      (zwritePublic c s r).map fun q => (q.1, if q.2 = .ok then .ok else .refused)

/-- zpdStore.c:650-892: the whole record. -/
def zpdStoreEntire (c : Cfg) (s : Eng) (e : PdEnv) (w : WriteEnv) (flag : Int) (p : PdIn) : Option (Eng × PdRes) :=
  match storeDoubles flag p.data, p.data with
  | none, _ => some (s, .noData)
  | some wide, d =>
    (pdHeader e p).bind fun ih =>
      if p.nCurves * p.nOrd ≤ 0 then some (s, .noData)
      -- without data and with a flag that says what to store, values1 stays null
      else d.bind fun d => pdWrite c s e (mallocAndCopyPath p.path) (pdReq e w flag p d wide ih)

/-! ### Reading -/

/-- What is asked of zpdRetrieve: curves and ordinates, from 1 on. -/
structure PdAsk where
  path : Bytes
  startCurve : Int
  endCurve : Int
  startOrd : Int
  endOrd : Int
  /-- 0: as stored, 1: floats, 2: doubles -/
  size : Int

/-- What zpdRetrieve sets. -/
structure PdOut where
  dataType : UInt32
  nOrd : Int
  nCurves : Int
  xaxis : Int
  xprec : Int
  yprec : Int
  strings : List Field
  labels : Bytes
  uh : List UInt32
  ordsIn : Int
  curvesIn : Int
  data : PdData
deriving DecidableEq

/-- zpdRetrieve.c:248-252, numberOrdinates and numberCurves being 0 in a new struct. -/
def readEntire (a : PdAsk) : Bool :=
  !(decide (a.startCurve > 1) || decide (a.startOrd > 1) || decide (a.endOrd ≠ 0) || decide (a.endCurve ≠ 0))

/-- zpdRetrieve.c:493-502, 617-626 and zpdStore.c:955-976: first (from 0) and number of rows or curves. -/
def clampRange (start fin n : Int) : Int × Int :=
  let s := if start - 1 < 0 then 0 else start - 1
  let e := if fin = 0 ∨ fin > n then n else fin
  let s := if s > e then 0 else s
  (s, e - s)

/-- zpdRetrieve.c:383-393: start and number of the characters of the labels `sc` (from 0) up to `i + fuel`. -/
def labelLoop (cl : Bytes) (total : Int) (sc : Nat) : Nat → Nat → Nat → Int → Nat → Int × Nat
  | 0, _, _, start, count => (start, count)
  | n + 1, i, ipos, start, count =>
    let len := (cstr (cl.drop ipos)).length
    let q := if i ≥ sc then (if start < 0 then (ipos : Int) else start, count + len + 1) else (start, count)
    if (ipos + len + 1 : Int) ≥ total then q else labelLoop cl total sc n (i + 1) (ipos + len + 1) q.1 q.2

/-- zpdRetrieve.c:363-412. -/
def pdReadLabels (h2 : List UInt32) (labelsLength : Int) (sc ec : Nat) : Bytes :=
  if h2.length > 0 then
    let cl := (intsToBytes h2).take labelsLength.toNat ++ List.replicate ((nLongs h2.length + 1) * 8 - labelsLength.toNat) 0
    let q := labelLoop cl labelsLength sc ec 0 0 (-1) 0
    (cl.drop q.1.toNat).take q.2
  else []

/-- Ints from the file as floats or doubles: convertDataArray.c and the pointers in zpdRetrieve.c. -/
def pdRead (k : Conv) (wide out : Bool) (o v : List UInt32) : PdData :=
  match wide, out with
  | false, false => .floats o v
  | false, true => .doubles (o.map k.toD) (v.map k.toD)
  | true, true => .doubles (intsDoubles o) (intsDoubles v)
  | true, false => .floats ((intsDoubles o).map k.toF) ((intsDoubles v).map k.toF)

/-- zpdRetrieve.c:532-550 and 652-669: `n` numbers from number `m` of an array on. -/
def pdGet (d : Disk) (address : Nat) (wide : Bool) (m n : Nat) : List UInt32 :=
  if wide then getInts d (address + m) (2 * n)
  else if m % 2 = 1 then (getInts d (address + m / 2) (n + 1)).drop 1 else getInts d (address + m / 2) n

/-- zpdRetrieve.c:189-698.  `ca` is the local array of zpdHeadToUnits before.  Result `none` inside: no data in the range
(lines 503-508); another `size` leaves a variable without value. -/
def zpdRetrieve (c : Cfg) (s : Eng) (k : Conv) (ca : Bytes) (a : PdAsk) : Option (Got (Option PdOut)) :=
  (zreadInfo c s (mallocAndCopyPath a.path) REC_STATUS_VALID).bind fun p =>
    match p.2 with
    | none => some .notFound
    | some info =>
      let R := readArrays s.disk info
      if toInt32 R.dataType.toNat < 200 ∨ toInt32 R.dataType.toNat ≥ 300 then some .wrongType
      else match R.ih with
        | w0 :: w1 :: w2 :: w3 :: w4 :: _ =>
          let nOrd := toInt32 w0.toNat
          let nCurves := toInt32 w1.toNat
          let len := toInt32 w3.toNat
          let prec := toInt32 w4.toNat
          (if a.size = 0 then some (decide (R.dataType ≠ 200)) else if a.size = 1 then some false else if a.size = 2 then some true else none).bind fun out =>
          (zpdHeadToUnits (List.replicate 5 ⟨none, false⟩) (intsToBytes R.ih) R.ih.length ca).bind fun strings =>
            let x := if prec < 0 then -1 else prec.tdiv 10
            let y := if prec < 0 then -1 else prec - prec.tdiv 10 * 10
            if readEntire a then
              let labels := pdReadLabels R.h2 len 0 nCurves.toNat
              if R.dataType = 200 then
                some (.got (some ⟨R.dataType, nOrd, nCurves, toInt32 w2.toNat, x, y, strings, labels, R.uh, nOrd, nCurves, pdRead k false out R.v1 R.v2⟩))
              else if R.dataType = 205 then
                some (.got (some ⟨R.dataType, nOrd, nCurves, toInt32 w2.toNat, x, y, strings, labels, R.uh, nOrd, nCurves, pdRead k true out R.v1 R.v2⟩))
              else some .wrongType
            else
              let labels := pdReadLabels R.h2 len (a.startCurve - 1).toNat a.endCurve.toNat
              let rows := clampRange a.startOrd a.endOrd nOrd
              if rows.2 < 1 then some (.got none)
              else
                let wide := decide (R.dataType = 205)
                let curves := clampRange a.startCurve a.endCurve nCurves
                let o := pdGet s.disk (info kinfoValues1Address) wide rows.1.toNat rows.2.toNat
                let v := (List.range curves.2.toNat).flatMap fun i : Nat =>
                  pdGet s.disk (info kinfoValues2Address) wide (rows.1 + (curves.1 + i) * nOrd).toNat rows.2.toNat
                some (.got (some ⟨R.dataType, nOrd, nCurves, toInt32 w2.toNat, x, y, strings, labels, [], rows.2, curves.2, pdRead k wide out o v⟩))
        | _ => some .wrongType

/-! ### Storing a part -/

/-- zpdStore.c:999-1060, one curve: numbers, as ints, into an array from number `m` on.  The first half of a word is read
and written back. -/
def pdPut (s : Eng) (address : Nat) (wide : Bool) (m : Nat) (xs : List UInt32) : Eng :=
  if wide then s.putInts (address + m) xs
  else if m % 2 = 1 then s.putInts (address + m / 2) ((getInts s.disk (address + m / 2) 2).take 1 ++ xs)
  else s.putInts (address + m / 2) xs

/-- zpdStore.c:998-1062: `curves` curves from number `first` on, `rows` values of each from number `start` on. -/
def pdPutCurves (s : Eng) (k : Conv) (address : Nat) (wide : Bool) (nOrd start rows first curves : Nat) (d : PdData) : Eng :=
  (List.range curves).foldl (fun s i => pdPut s address wide (start + (first + i) * nOrd) (pdInts k wide (d.vals (i * rows) rows))) s

/-- zpdStore.c:1075-1101: labels from the record, with those given in place of the labels `first` to `last`.  `fuel` is
the bound of the loop; `out` what is in clabels.  `none`: the array with the old labels is read behind its end. -/
def mergeLabels (old new : Bytes) (first last nCurves words : Int) (len : Nat) : Nat → Nat → Nat → Int → Bytes → Option Bytes
  | 0, _, _, _, out => some out
  | fuel + 1, posOld, posNew, curve, out =>
    (if curve ≥ first ∧ curve ≤ last then
      let l := cstr (new.drop posNew)
      some (posOld + (cstr (old.drop posOld)).length + 1, posNew + l.length, curve + 1, out ++ l ++ [0])
    else old[posOld]?.map fun ch => (posOld + 1, posNew, if ch = 0 then curve + 1 else curve, out ++ [ch])).bind fun q =>
      if q.2.2.1 > nCurves then some q.2.2.2
      else if q.2.2.2.length ≥ len then some q.2.2.2
      else if (q.1 : Int) ≥ words * 4 then some q.2.2.2
      else mergeLabels old new first last nCurves words len fuel q.1 q.2.1 q.2.2.1 q.2.2.2

/-- zpdStore.c:1066-1175: the labels in the file.  The path for labels that need more space (lines 1112-1165) is not
modelled: result `none`. -/
def pdPutLabels (s : Eng) (info : Nat → Nat) (R : Rec) (p : PdIn) (nCurves oldLength : Int) : Option Eng :=
  if p.labelsLength > 0 then
    let old := (intsToBytes R.h2).take oldLength.toNat
    let len := (p.labelsLength + oldLength).toNat
    (mergeLabels old (p.labels.getD []) p.startCurve p.endCurve nCurves R.h2.length len len 0 0 1 []).bind fun out =>
      if (out.length : Int) > oldLength ∧ (out.length + 3) / 4 > R.h2.length then none
      else
        let n := min (max oldLength.toNat out.length) (4 * R.h2.length)
        let c := (out ++ List.replicate (len - out.length) 0).take n
        some (s.putInts (info kinfoHeader2Address) (bytesToInts (c ++ List.replicate (3 - (n + 3) % 4) 0 ++ (intsToBytes R.h2).drop ((n + 3) / 4 * 4))))
  else some s

/-- zpdStore.c:893-1183. -/
def zpdStorePart (c : Cfg) (s : Eng) (k : Conv) (p : PdIn) : Option (Eng × PdRes) :=
  (zreadInfo c s (mallocAndCopyPath p.path) REC_STATUS_VALID).bind fun q =>
    match q.2 with
    | none => some (s, .wrongType)
    | some info =>
      let R := readArrays s.disk info
      if R.dataType ≠ 200 ∧ R.dataType ≠ 205 then some (s, .wrongType)
      else match R.ih with
        | w0 :: w1 :: _ :: w3 :: _ =>
          let nOrd := toInt32 w0.toNat
          let rows := clampRange p.startOrd p.endOrd nOrd
          let curves := clampRange p.startCurve p.endCurve (toInt32 w1.toNat)
          match p.data with
          | none => if curves.2 > 0 then some (s, .noData) else (pdPutLabels s info R p (toInt32 w1.toNat) (toInt32 w3.toNat)).map fun s => (s, .ok)
          | some d =>
            let s := pdPutCurves s k (info kinfoValues2Address) (decide (R.dataType = 205)) nOrd.toNat rows.1.toNat rows.2.toNat curves.1.toNat
              curves.2.toNat d
            (pdPutLabels s info R p (toInt32 w1.toNat) (toInt32 w3.toNat)).map fun s => (s, .ok)
        -- a header too short: reading behind it
        | _ => none

/-- zpdStore.c:650, 893: whole record or part. -/
def zpdStore (c : Cfg) (s : Eng) (e : PdEnv) (w : WriteEnv) (flag : Int) (p : PdIn) : Option (Eng × PdRes) :=
  if storeEntire p then zpdStoreEntire c s e w flag p else zpdStorePart c s e.conv p

end Hec
