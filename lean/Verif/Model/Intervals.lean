import Verif.Model.Strings
import Verif.Model.Times
/-!
Model of the standard intervals (headers/standardIntervals.h, SemiPublic/ztsGetStandardInterval.c)
and of times of day as text (Utilities/DateTime).
-/
namespace Hec

/-- The bytes of an ASCII text. -/
def str (s : String) : Bytes := s.toList.map (fun c => UInt8.ofNat c.toNat)

/-- standardIntervals.h:108-130: names and lengths (negative: block size of irregular data). -/
def intervals7 : List (Bytes × Int) :=
  [(str "1Year", 31536000), (str "1Month", 2592000), (str "Semi-Month", 1296000), (str "Tri-Month", 864000),
   (str "1Week", 604800), (str "1Day", 86400), (str "12Hour", 43200), (str "8Hour", 28800),
   (str "6Hour", 21600), (str "4Hour", 14400), (str "3Hour", 10800), (str "2Hour", 7200),
   (str "1Hour", 3600), (str "30Minute", 1800), (str "20Minute", 1200), (str "15Minute", 900),
   (str "12Minute", 720), (str "10Minute", 600), (str "6Minute", 360), (str "5Minute", 300),
   (str "4Minute", 240), (str "3Minute", 180), (str "2Minute", 120), (str "1Minute", 60),
   (str "30Second", 30), (str "20Second", 20), (str "15Second", 15), (str "10Second", 10),
   (str "6Second", 6), (str "5Second", 5), (str "4Second", 4), (str "3Second", 3),
   (str "2Second", 2), (str "1Second", 1),
   (str "IR-Century", -5), (str "IR-Decade", -4), (str "IR-Year", -3), (str "IR-Month", -2), (str "IR-Day", -1)]

/-- standardIntervals.h:132-148. -/
def intervals6 : List (Bytes × Int) :=
  [(str "1YEAR", 31536000), (str "1MON", 2592000), (str "SEMI-MONTH", 1296000), (str "TRI-MONTH", 864000),
   (str "1WEEK", 604800), (str "1DAY", 86400), (str "12HOUR", 43200), (str "8HOUR", 28800),
   (str "6HOUR", 21600), (str "4HOUR", 14400), (str "3HOUR", 10800), (str "2HOUR", 7200),
   (str "1HOUR", 3600), (str "30MIN", 1800), (str "20MIN", 1200), (str "15MIN", 900),
   (str "12MIN", 720), (str "10MIN", 600), (str "6MIN", 360), (str "5MIN", 300),
   (str "4MIN", 240), (str "3MIN", 180), (str "2MIN", 120), (str "1MIN", 60),
   (str "IR-CENTURY", -5), (str "IR-DECADE", -4), (str "IR-YEAR", -3), (str "IR-MONTH", -2), (str "IR-DAY", -1)]

/-- ztsGetStandardInterval.c:131-138. -/
def intervalTable (version : Int) : List (Bytes × Int) := if version = 6 then intervals6 else intervals7

/-- ztsGetStandardInterval.c:171-216: block size (negative) of a pseudo regular interval. -/
def pseudoBlock (version secs : Int) : Int :=
  if secs < 1800 then -1
  else if secs < (if version = 6 then 86400 else 21600) then -2
  else if secs < 604800 then -3
  else if secs < 2592000 then -4
  else -5

/-- ztsGetStandardInterval.c:155-166: compare as many characters as the shorter one has. -/
def ePartMatches (e name : Bytes) : Bool := zstringCompare e name (min e.length name.length)

/-- ztsGetStandardInterval.c:140-237, 285: status, interval and the standard name (what
`EPART_TO_SECONDS_TO_EPART` copies behind the `~`); status -1 when nothing matches (the interval is
then unchanged; `none`). -/
def ePartToSeconds (version : Int) (ePart : Bytes) : Option (Int × Int × Bytes) :=
  let pseudo := ePart.head? == some 126
  let e := if pseudo then ePart.tail else ePart
  match (intervalTable version).find? (fun x => ePartMatches e x.1) with
  | none => none
  | some x =>
    let secs := if pseudo then pseudoBlock version x.2 else x.2
    some (if secs > 0 then 0 else 1, secs, x.1)

/-- ztsGetStandardInterval.c:238-252: the name of an interval, `none` for status -1. -/
def secondsToEPart (version secs : Int) : Option Bytes :=
  ((intervalTable version).find? (fun x => secs == x.2)).map (·.1)

/-- ztsGetStandardInterval.c:253-264: first interval of the enumeration. -/
def beginEnumeration (version : Int) : Option (Bytes × Int) := (intervalTable version).head?

/-- ztsGetStandardInterval.c:265-284: the interval after the one of length `secs`. -/
def continueEnumeration (version secs : Int) : Option (Bytes × Int) :=
  (intervalTable version)[((intervalTable version).findIdx (fun x => secs == x.2)) + 1]?

/-- The list a caller sees: begin, then continue until the status is not 0; `n` bounds the calls. -/
def enumerateFrom (version : Int) : Nat → Option (Bytes × Int) → List (Bytes × Int)
  | 0, _ => []
  | _ + 1, none => []
  | n + 1, some x => x :: enumerateFrom version n (continueEnumeration version x.2)

/-! ### Times of day as text -/

/-- secondsToTimeString.c:92-98: two digits. -/
def digitByte (n : Int) : UInt8 := UInt8.ofNat (n + 48).toNat
def two (n : Int) : Bytes := [digitByte (cdiv n 10), digitByte (n - cdiv n 10 * 10)]

/-- secondsToTimeString.c:63-150: the bytes written from the start of a buffer of `size` bytes. -/
def secondsToTimeString (seconds mills style : Int) (size : Nat) : Bytes :=
  if size < 5 then []
  else if style < 0 ∨ style > 3 ∨ seconds < 0 ∨ seconds > SECS_IN_1_DAY then [0]
  else
    let ihr := cdiv seconds 3600
    let imin := cdiv (seconds - ihr * 3600) 60
    let isec := seconds - ihr * 3600 - imin * 60
    let hm := two ihr ++ (if style ≠ 0 then [58] else []) ++ two imin
    if style < 2 ∨ size < 9 then (if size > hm.length then hm ++ [0] else hm)
    else
      let hms := hm ++ [58] ++ two isec
      if style < 3 ∨ size < 13 ∨ mills > 999 ∨ mills < 0 then (if size > hms.length then hms ++ [0] else hms)
      else
        let u := cdiv mills 100
        let m := cdiv (mills - u * 100) 10
        hms ++ [46, digitByte u, digitByte m, digitByte (mills - u * 100 - m * 10), 0]

/-- timeStringToSecondsMills.c:64-75: the digits (at most nine) and the position of the point. -/
def scanDigits : Bytes → List Nat → Int → List Nat × Int
  | [], ds, m => (ds, m)
  | c :: cs, ds, m =>
    if 47 < c ∧ c < 58 then
      if ds.length + 1 ≥ 9 then (ds ++ [c.toNat - 48], m)
      else scanDigits cs (ds ++ [c.toNat - 48]) m
    else if c = 46 then scanDigits cs ds ds.length
    else scanDigits cs ds m

/-- Distance of neighbouring binary32 numbers at `n` (24 significant bits), in the unit of `n`. -/
def spacing (n : Nat) : Nat := if n < 2 ^ 24 then 1 else 2 * spacing (n / 2)

/-- Rounding to 24 significant bits, to nearest, ties to even: the `float` operations. -/
def roundFloat (n : Nat) : Nat :=
  let u := spacing n
  let q := n / u
  let r := n % u
  if 2 * r < u ∨ (2 * r = u ∧ q % 2 = 0) then q * u else (q + 1) * u

/-- Numbers of type `float` are counted in units of 2^-33; `0.001f` is 8589935 units. -/
def UNIT : Nat := 8589934592

/-- timeStringToSecondsMills.c:48-115; the result in units of 2^-33 second, -1 second for the error
status, `none` when an element of `idigits` is read that was never set. -/
def timeStringToSecondsMills (t : Bytes) : Option Int :=
  let x := scanDigits t [] (-1)
  let ds := x.1
  if ds.length < 3 then some (-(UNIT : Int))
  else
    let mills := if x.2 > 0 then (ds.drop x.2.toNat).foldl (fun a d => a * 10 + d) 0 else 0
    let icount := if x.2 > 0 then x.2.toNat else ds.length
    let secs (ihr imin isec : Nat) : Option Int :=
      let itime := ihr * 3600 + imin * 60 + isec
      some (roundFloat (itime * UNIT + roundFloat (roundFloat mills * 8589935)))
    if icount % 2 = 1 then
      ds[0]?.bind fun a => ds[1]?.bind fun b => ds[2]?.bind fun c =>
        if icount = 5 then ds[3]?.bind fun d => ds[4]?.bind fun e => secs a (b * 10 + c) (d * 10 + e)
        else secs a (b * 10 + c) 0
    else
      ds[0]?.bind fun a => ds[1]?.bind fun b => ds[2]?.bind fun c => ds[3]?.bind fun d =>
        if icount = 6 then ds[4]?.bind fun e => ds[5]?.bind fun f => secs (a * 10 + b) (c * 10 + d) (e * 10 + f)
        else secs (a * 10 + b) (c * 10 + d) 0

/-- timeStringToSeconds.c:41-51. -/
def timeStringToSeconds (t : Bytes) : Option Int :=
  (timeStringToSecondsMills t).map (fun f => cdiv f UNIT)

end Hec
