import Verif.Spec.Records
import Verif.Spec.Headers
import Verif.Spec.RegSeries
import Verif.Model.SeriesFile
/-! Regular time series in a file. -/
namespace Spec
open Hec Hec.Spec

/-- A description that fits in the header: units, type and time zone need no more than 200 bytes. -/
structure DescOk (d : TsDesc) : Prop where
  ints : IsInt d.granularity ∧ IsInt d.precision ∧ IsInt d.offset
  noProfile : d.strings.profile = false
  noZero : ∀ s ∈ [d.strings.units, d.strings.type, d.strings.zone], NoZero s
  fits : cells d.strings.units + cells d.strings.type + cells d.strings.zone ≤ 200

/-- What the struct `T` says of a series with the description `d`, after reading. -/
def readHead (d : TsDesc) (T : TsHead) : TsHead :=
  { T with granularity := if d.granularity > 0 then d.granularity else T.granularity, precision := d.precision, offset := d.offset, units := setField T.units d.strings.units, type := setField T.type d.strings.type, zone := setField T.zone d.strings.zone }

/-- The length of the pathnames of the blocks: their D parts have 9 characters. -/
def blockLength (ps : List Bytes) : Nat := (join (ps.set 3 [])).length + 9

/-- The pathname is that of a block of the series: the D part is the date of the block. -/
def AboutSeries (ps : List Bytes) (p : Bytes) : Prop := ∃ x : Bytes, x.length = 9 ∧ IsPart x ∧ sameUpToCase p (join (ps.set 3 x))

/-- The caller gives the pathname of the series with any D part. -/
def NamesSeries (ps : List Bytes) (path : Bytes) : Prop := ∃ x : Bytes, IsPart x ∧ path = join (ps.set 3 x) ∧ path.length ≤ 392

/-- The local arrays have their sizes. -/
def TsArrays (env : Int → TsEnv) : Prop := ∀ j, (env j).carray.length = 300 ∧ (env j).rest.length = 732

end Spec
