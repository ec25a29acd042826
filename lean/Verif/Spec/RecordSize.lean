import Verif.Model.RecordSize
import Verif.Spec.CopyRecord
/-! What the description of a record says about the record. -/
namespace Spec
open Hec

/-- All sizes of the record are numbers of type `int`. -/
structure SmallRec (R : Rec) : Prop where
  values : R.numberValues < 2 ^ 31
  logical : R.logicalNumber < 2 ^ 31
  ih : R.ih.length < 2 ^ 31
  h2 : R.h2.length < 2 ^ 31
  uh : R.uh.length < 2 ^ 31
  v1 : R.v1.length < 2 ^ 31
  v2 : R.v2.length < 2 ^ 31
  v3 : R.v3.length < 2 ^ 31

/-- The element `i` of the internal header, as an `int`; 0 where there is none. -/
def headerInt (R : Rec) (i : Nat) : Int := toInt32 (R.ih.getD i 0).toNat

/-- The description is that of the record: its type and version, the numbers of its values, the lengths of its arrays, the
time of its last write, and for time series and paired data the numbers of the internal header. -/
structure Describes (R : Rec) (z : RecordSize) : Prop where
  dataType : z.dataType = toInt32 R.dataType.toNat
  version : z.version = toInt32 R.version.toNat
  values : z.numberValues = R.numberValues
  logical : z.logicalNumberValues = R.logicalNumber
  v1 : z.values1Number = R.v1.length
  v2 : z.values2Number = R.v2.length
  v3 : z.values3Number = R.v3.length
  ih : z.internalHeaderNumber = R.ih.length
  h2 : z.header2Number = R.h2.length
  uh : z.userHeaderNumber = R.uh.length
  time : z.lastWriteTimeMillis = R.lastWrite
  series : (100 ≤ z.dataType → z.dataType < 200 → z.ts = some ⟨headerInt R 1, headerInt R 2, headerInt R 3, headerInt R 4, headerInt R 5, headerInt R 7, headerInt R 8, headerInt R 9, headerInt R 11, headerInt R 12, headerInt R 14, headerInt R 15, headerInt R 16⟩)
  paired : (200 ≤ z.dataType → z.dataType < 300 → z.pd = some ⟨headerInt R 1, headerInt R 0, headerInt R 2, headerInt R 3, headerInt R 4⟩)

/-- The same for the basic description. -/
structure DescribesBasics (R : Rec) (z : RecordBasics) : Prop where
  dataType : z.recordType = toInt32 R.dataType.toNat
  version : z.version = toInt32 R.version.toNat
  values : z.numberValues = R.numberValues
  logical : z.logicalNumberValues = R.logicalNumber
  v1 : z.values1Number = R.v1.length
  v2 : z.values2Number = R.v2.length
  v3 : z.values3Number = R.v3.length
  ih : z.internalHeaderNumber = R.ih.length
  h2 : z.header2Number = R.h2.length
  uh : z.userHeaderNumber = R.uh.length
  time : z.recLastWriteTimeMillis = R.lastWrite

end Spec
