import Verif.Model.Copy
/-!
Storing and retrieving text and arrays: Public/ztextStore.c, Public/ztextRetrieve.c, Public/zarrayStore.c,
Public/zarrayRetrieve.c, with DssInterface/v6and7/zwrite.c, the two conversions of user headers in
Utilities/verticalDatum.c, and Internal/charInt.c (little endian).

Simplifications, besides those of Model/Engine.lean: memory is not exhausted; counts are mathematical integers until
they are put into a header; zget.c:96 (no more than 10,000,000 ints are read at once) is left out.
-/
namespace Hec

/-- numberIntsInBytes.c and charInt.c:96-98 into an array of zeros (ztextStore.c:197-199): characters in ints, the last
one filled up with zeros. -/
def padInts (b : Bytes) : List UInt32 := bytesToInts (b ++ List.replicate (3 - (b.length + 3) % 4) 0)

/-- verticalDatum.c:311-345.  (Line 331 compares 0 or 1 with a blank, so the loop never runs.) -/
def userHeaderToString (uh : List UInt32) : Bytes := (intsToBytes uh).takeWhile fun b => b != 0

/-- zwrite.c:30-48, with stringToUserHeader (verticalDatum.c:288-306): the user header that is written. -/
def lengthened (uh : List UInt32) : List UInt32 :=
  if uh.length % 2 = 1 then
    let str := userHeaderToString uh
    if str.length > 0 ∧ (str.length - 1) / 4 + 1 = uh.length then padInts (str ++ [32, 32, 32, 32]) else uh
  else uh

/-- zwrite.c:14-67 for a version 7 file: the record is written with the user header above. -/
def zwritePublic (c : Cfg) (s : Eng) (r : Req) : Option (Eng × Res) := zwrite c s { r with uh := lengthened r.uh }

/-- What a write leaves in the file besides its arguments: time, date words (of an earlier time series call, nothing
reads them for other records), program. -/
structure WriteEnv where
  now : Nat
  firstDate : Nat
  lastDate : Nat
  dates : Nat
  prog : Nat × Nat

/-- The request of a record that is not a time series: zstructTransferNew.c with the pathname of the caller, all
numbers zero. -/
def plainReq (e : WriteEnv) (path : Bytes) (dataType : UInt32) (ih h2 uh v1 v2 v3 : List UInt32) (n : Nat) : Req :=
  ⟨mallocAndCopyPath path, dataType, ih, h2, uh, v1, v2, v3, n, n, 0, 0, e.now, e.firstDate, e.lastDate, e.dates, e.prog⟩

/-- What a read of a certain kind of record gives. -/
inductive Got (α : Type) where
  | notFound
  | wrongType
  | badHeader
  | got (a : α)
deriving DecidableEq

/-! ### Text -/

/-- zStructText: pointers (`none` is null) to characters, with their numbers as the caller gives them. -/
structure TextIn where
  path : Bytes
  text : Option Bytes
  nText : Int
  table : Option Bytes
  nTable : Int
  labels : Option Bytes
  nLabels : Int
  rows : Int
  cols : Int
  uh : List UInt32

/-- An `int` in an internal header. -/
def i32 (n : Int) : UInt32 := UInt32.ofInt n

/-- ztextStore.c:196-228: the characters that a pointer and a number give. -/
def chars (p : Option Bytes) (n : Int) : Bytes := if 0 < n then (p.getD []).take n.toNat else []

/-- ztextStore.c:155-177: the arguments are accepted. -/
def textArgs (t : TextIn) : Bool :=
  !(decide (t.nTable + t.nText < 1) || (decide (0 < t.nText) && t.text.isNone) || (decide (0 < t.nTable) && t.table.isNone) ||
    (decide (0 < t.nLabels) && t.labels.isNone))

/-- ztextStore.c:187-241. -/
def textReq (e : WriteEnv) (t : TextIn) : Req :=
  plainReq e t.path (if t.cols > 1 then 310 else 300) [i32 t.nText, i32 t.nTable, i32 t.nLabels, i32 t.rows, i32 t.cols, 0]
    (padInts (chars t.labels t.nLabels)) t.uh (padInts (chars t.text t.nText)) (padInts (chars t.table t.nTable)) [] 0

/-- ztextStore.c:123-274.  The second part of the result: `none` if the arguments are not accepted. -/
def ztextStore (c : Cfg) (s : Eng) (e : WriteEnv) (t : TextIn) : Option (Eng × Option Res) :=
  if textArgs t then (zwritePublic c s (textReq e t)).map fun p => (p.1, some p.2) else some (s, none)

/-- What ztextRetrieve gives. -/
structure TextOut where
  text : Bytes
  table : Bytes
  labels : Bytes
  rows : Int
  cols : Int
  uh : List UInt32
deriving DecidableEq

/-- ztextRetrieve.c:141-194: the characters in an array, the number of which is in the internal header. -/
def charsOf (xs : List UInt32) (n : UInt32) : Bytes := if xs.length > 0 then (intsToBytes xs).take (toInt32 n.toNat).toNat else []

/-- ztextRetrieve.c:71-231. -/
def ztextRetrieve (c : Cfg) (s : Eng) (path : Bytes) : Option (Got TextOut) :=
  (zread c s (mallocAndCopyPath path)).map fun r =>
    match r with
    | none => .notFound
    | some R =>
      if R.dataType ≠ 300 ∧ R.dataType ≠ 310 then .wrongType
      else match R.ih with
        | n1 :: n2 :: n3 :: rows :: cols :: _ =>
          .got ⟨charsOf R.v1 n1, charsOf R.v2 n2, charsOf R.h2 n3, toInt32 rows.toNat, toInt32 cols.toNat, R.uh⟩
        | _ => .badHeader

/-! ### Arrays -/

/-- zStructArray: ints, floats and doubles as bits; `none` is null. -/
structure ArrayIn where
  path : Bytes
  ints : Option (List UInt32)
  nInts : Int
  floats : Option (List UInt32)
  nFloats : Int
  doubles : Option (List UInt64)
  nDoubles : Int
  uh : List UInt32

/-- zarrayStore.c:79-96: the values that a pointer and a number give. -/
def given {α : Type} (p : Option (List α)) (n : Int) : List α := if 0 < n then (p.getD []).take n.toNat else []

/-- The two ints of a double, in memory (little endian). -/
def doubleInts (x : UInt64) : List UInt32 := [lowInt x.toNat, highInt x.toNat]

/-- The doubles in an array of ints. -/
def intsDoubles : List UInt32 → List UInt64
  | a :: b :: rest => UInt64.ofNat (packInts a b) :: intsDoubles rest
  | _ => []

/-- zarrayStore.c:75-126. -/
def arrayReq (e : WriteEnv) (a : ArrayIn) : Req :=
  plainReq e a.path 90 [] [] a.uh (given a.ints a.nInts) (given a.floats a.nFloats) ((given a.doubles a.nDoubles).flatMap doubleInts)
    ((given a.ints a.nInts).length + (given a.floats a.nFloats).length + (given a.doubles a.nDoubles).length)

/-- zarrayStore.c:66-142. -/
def zarrayStore (c : Cfg) (s : Eng) (e : WriteEnv) (a : ArrayIn) : Option (Eng × Res) := zwritePublic c s (arrayReq e a)

/-- What zarrayRetrieve gives. -/
structure ArrayOut where
  ints : List UInt32
  floats : List UInt32
  doubles : List UInt64
  uh : List UInt32
deriving DecidableEq

/-- zarrayRetrieve.c:71-187 into an empty struct. -/
def zarrayRetrieve (c : Cfg) (s : Eng) (path : Bytes) : Option (Got ArrayOut) :=
  (zread c s (mallocAndCopyPath path)).map fun r =>
    match r with
    | none => .notFound
    | some R => if R.dataType ≠ 90 then .wrongType else .got ⟨R.v1, R.v2, intsDoubles (R.v3.take (2 * (R.v3.length / 2))), R.uh⟩

end Hec
