import Verif.Model.Times
/-!
Model of ztsTrim.c, ztsTrimAdjustTimeWindow.c and copyLines.c: removing missing values from the ends
of a retrieved series.
-/
namespace Hec

/-- strnlen_hec.c:22-35: characters before the first null, at most `n`. -/
def strnlen (s : List Nat) : Nat → Nat
  | 0 => 0
  | n + 1 =>
    match s with
    | [] => 0
    | c :: cs => if c = 0 then 0 else strnlen cs n + 1

/-- copyLines.c:63-81: position after `n` null terminated lines from `ipos`. -/
def linesEnd (src : List Nat) (max : Nat) : Nat → Nat → Nat
  | 0, ipos => ipos
  | n + 1, ipos =>
    let ipos := ipos + strnlen (src.drop ipos) (max - ipos) + 1
    if ipos ≥ max then ipos else linesEnd src max n ipos

/-- copyLines.c:55-87 with no room in the destination: count the characters of `n` lines. -/
def countLines (src : List Nat) (max n : Nat) : Nat :=
  if max = 0 then 0 else linesEnd src max n 0

/-- copyLines.c:55-107: the characters copied (`size` is the room in the destination). -/
def copyLines (size : Nat) (src : List Nat) (max n : Nat) : List Nat :=
  if size = 0 then []
  else if max = 0 then List.replicate (min n size) 0
  else (src.take (linesEnd src max n 0)).take size

/-- The parts of zStructTimeSeries that ztsTrim changes.  Simplification: the internal time window
holds the same times as the series (as ztsProcessTimes.c leaves them); quality and notes are present
when their element size is not 0, times when `timesGiven`. -/
structure TrimSeries (V : Type) where
  /-- profileDepthsNumber; 0 if not a profile -/
  depths : Nat
  numberValues : Nat
  values : List V
  timesGiven : Bool
  times : List Int
  qualitySize : Nat
  quality : List Int
  inoteSize : Nat
  inotes : List Int
  /-- bytes of the character notes (cnotesLengthTotal is the length) -/
  cnotes : List Nat
  /-- timeWindow->intervalSeconds -/
  interval : Int
  startJulian : Int
  startSeconds : Int
  endJulian : Int
  endSeconds : Int
  julianBase : Int
  granularity : Int

/-- `n` reads of consecutive array elements from index `start`; `none` is a read outside. -/
def readFrom {E : Type} (src : List E) (start : Int) : Nat → Option (List E)
  | 0 => some []
  | n + 1 =>
    if start < 0 then none else
    match src[start.toNat]? with
    | none => none
    | some e => (readFrom src (start + 1) n).map (e :: ·)

/-- ztsTrim.c:135-137, 255-261, 304-306, 319-325, 338-343: copy elements of `size` words, `number` of
them from `first` (the two loops visit consecutive indices); `none` is a read outside of the array. -/
def copyElements {E : Type} (src : List E) (size : Nat) (first : Int) (number : Nat) : Option (List E) :=
  readFrom src (first * size) (number * size)

/-- ztsTrim.c:86-91, 105-110, 176-187, 207-218: first position with a value that is not missing (all
values of a position for profiles); -1 if there is none. -/
def trimFirst {V : Type} (isMissing : V → Bool) (size : Nat) : List V → Nat → Nat → Int
  | _, 0, _ => -1
  | vs, n + 1, i =>
    if (vs.take size).all isMissing then trimFirst isMissing size (vs.drop size) n (i + 1) else i

/-- ztsTrim.c:96-101, 115-120, 192-203, 223-234: last position, going down from `n - 1`; the argument
`dflt` is the value of lastValid if there is none. -/
def trimLast {V : Type} (isMissing : V → Bool) (size : Nat) (vs : List V) (dflt : Int) : Nat → Int
  | 0 => dflt
  | n + 1 =>
    if ((vs.drop (n * size)).take size).all isMissing then trimLast isMissing size vs dflt n else n

/-- ztsTrimAdjustTimeWindow.c:42-104. -/
def trimAdjust {V : Type} (t : TrimSeries V) (first last : Int) : TrimSeries V :=
  let s : Int × Int :=
    if first > 0 then
      if t.interval > 0 then
        let r := incrementTime t.interval first (t.startJulian + t.julianBase) t.startSeconds
        (r.1 - t.julianBase, r.2)
      else if t.timesGiven then
        let r := cleanTime t.julianBase ((t.times[first.toNat]?).getD 0) t.granularity
        (r.1, r.2 * t.granularity)
      else (t.startJulian, t.startSeconds)
    else (t.startJulian, t.startSeconds)
  let e : Int × Int :=
    if last < (t.numberValues : Int) - 1 then
      if t.interval > 0 then
        let r := incrementTime t.interval (last - t.numberValues + 1) (t.endJulian + t.julianBase) t.endSeconds
        (r.1 - t.julianBase, r.2)
      else if t.timesGiven then
        let r := cleanTime t.julianBase ((t.times[last.toNat]?).getD 0) t.granularity
        (r.1, r.2 * t.granularity)
      else (t.endJulian, t.endSeconds)
    else (t.endJulian, t.endSeconds)
  { t with numberValues := (last - first + 1).toNat, startJulian := s.1, startSeconds := s.2, endJulian := e.1, endSeconds := e.2 }

/-- ztsTrim.c:46-376: status and series; `none` is a read outside of an array (undefined behaviour).
Simplification: memory allocation always succeeds; the arrays are present. -/
def ztsTrim {V : Type} (isMissing : V → Bool) (t : TrimSeries V) : Option (Int × TrimSeries V) :=
  -- 72-74
  if t.numberValues = 0 then some (-1, t) else
  let size := if t.depths = 0 then 1 else t.depths
  let first := trimFirst isMissing size t.values t.numberValues 0
  -- 92-102, 188-204
  let last := if first = -1 then (t.numberValues : Int) else trimLast isMissing size t.values t.numberValues t.numberValues
  let number : Int := if first = -1 then 0 else t.numberValues
  -- 128, 242
  let cut : Bool := first > 0 || (if t.depths = 0 then decide (last < number - 1) else decide (last ≠ number - 1))
  -- 166-170, 285-289
  if cut = false ∧ first = -1 then some (-1, { t with numberValues := 0 }) else
  -- 130-164, 244-283
  let number := if cut then last - first + 1 else number
  match (if cut then copyElements t.values size first number.toNat else some t.values) with
  | none => none
  | some values =>
    let t1 := { t with values := values }
    -- 293
    if first > 0 ∨ last < (t.numberValues : Int) - 1 then
      let t2 := trimAdjust t1 first last
      match (if t.timesGiven then copyElements t.times 1 first number.toNat else some t.times),
          copyElements t.quality t.qualitySize first number.toNat,
          copyElements t.inotes t.inoteSize first number.toNat with
      | some times, some quality, some inotes =>
        -- 347-372: `lastValid < end` never holds, so the source is the rest of the notes
        let count := if first > 0 then countLines t.cnotes t.cnotes.length first.toNat else 0
        let room := t.cnotes.length - count
        let cnotes := if t.cnotes = [] then [] else copyLines room (t.cnotes.drop count) room number.toNat
        some (0, { t2 with times := times, quality := quality, inotes := inotes, cnotes := cnotes })
      | _, _, _ => none
    else some (0, t1)

end Hec
