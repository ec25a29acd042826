import Verif.Model.OldNames
import Verif.Model.Copy
import Verif.Model.Intervals
import Verif.Model.Strings
/-!
What a file says of a record without reading its data: hec_dss_dataType, hec_dss_recordType and
hec_dss_tsGetDateTimeRange (heclib/hecdss/hecdss.c), with v6and7/zdataType.c, v6and7/zgetRecordBasics.c,
Internal/zgetRecordBasics7.c, Internal/ztsGetFirstLastRecordTimes.c and Public/ztsGetDateTimeRange.c.
Messages are left out, and so are files of version 6.
-/
namespace Hec

/-- The word `kbinTypeAndCatSort` zcheckInternal.c:358-366 copies from the entry of the record. -/
def binTypeWord (s : Eng) (k : Chk) : Nat := s.disk (k.pathBinAddress + 4)

/-- ztsGetInterval.c:87-104, version 7; `ePart` is the local array. -/
def ztsGetInterval (pathname ePart : Bytes) (junk : Int) : Option Int :=
  (zpathnameGetPart pathname 5 ePart junk).map fun e =>
    if (3 : Int) < e.2 then
      match ePartToSeconds 7 (cstr e.1) with
      | none => 0
      | some x => x.2.1
    else 0

/-- hec_dss_dataType in hecdss.c, which is zdataType.c:54-101 (in Model/Paired, `zdataType` is given the type made up for a
pathname that is not there). -/
def hecDataType (c : Cfg) (s : Eng) (pathname ePart : Bytes) (junk : Int) : Option Int :=
  (zcheckName c s pathname).bind fun x =>
    if x.1.found then some (toInt32 (binTypeWord s x.1))
    else
      (ztsGetInterval pathname ePart junk).map fun interval =>
        if interval > 0 then 100 else if interval < 0 then 110 else 0

/-- What hec_dss_recordType does. -/
inductive TypeGot where
  | type (t : Int)
  /-- the status returned is a variable that was not set -/
  | unset
deriving DecidableEq

/-- hec_dss_recordType in hecdss.c, with zgetRecordBasics7.c:51-122.  `words` are the words of `ifltab` from
`kpathAddressInBin` on (the first is an address, not a pathname), with which line 74 compares the pathname. -/
def hecRecordType (c : Cfg) (s : Eng) (words : Nat → Nat) (pathname : Bytes) : Option TypeGot :=
  if zstringCompare pathname (unpackBytes words pathname.length) pathname.length = true then some .unset
  else (zreadInfoName c s pathname).map fun x =>
    match x.2 with
    | none => .type (-1)
    | some info => .type (toInt32 (info kinfoTypeVersion))

/-- What ztsGetFirstLastRecordTimes gives: a status other than 0, or the first and the last time, as day and second. -/
inductive TsRange where
  | notFound
  | range (first last : Int × Int)
deriving DecidableEq

/-- ztsGetFirstLastRecordTimes.c:103-110. -/
def endOfDay (w : Nat) : Int × Int :=
  let j := toInt32 (lo32 w)
  let s := toInt32 (hi32 w)
  if s = 0 then (j - 1, 86400) else (j, s)

/-- ztsGetFirstLastRecordTimes.c:68-117 with `boolGetSecondsAlso`. -/
def ztsGetFirstLastRecordTimes (c : Cfg) (s : Eng) (pathname : Bytes) : Option TsRange :=
  (zcheckName c s pathname).bind fun x =>
    if x.1.found = false then some .notFound
    else
      let dataType := toInt32 (binTypeWord s x.1)
      if dataType < 100 ∨ dataType > 199 then some .notFound
      else (zreadInfoName c s pathname).map fun y =>
        match y.2 with
        | none => .notFound
        | some info => .range (endOfDay (info kinfoFirstDate)) (endOfDay (info kinfoLastDate))

/-- ztsGetDateTimeRange.c:60-109 with `boolFullSet` 0, which is hec_dss_tsGetDateTimeRange for pathnames that are not
those of patterns. -/
def ztsGetDateTimeRange (c : Cfg) (s : Eng) (pathname : Bytes) : Option TsRange := ztsGetFirstLastRecordTimes c s pathname

end Hec
