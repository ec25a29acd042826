import Verif.Model.Encoding
/-!
Model of how the arrays of one time series block are packed in the data area of its record
(ztsAggregate.c:145-741) and how a window of them is unpacked (ztsDisaggregate.c:122-782), for
files of version 7-HA and later (older files take the `Dep` routines, not modelled).

A word `W` is a four byte int; an element (a float, a double, a quality flag group, a note group) is
the list of its words.  Not modelled: byte swapping on big endian machines, conversion between
floats and doubles (the size requested is the size stored), character notes, profiles.
-/
namespace Hec

/-- INT_HEAD_* entries written by ztsAggregate. -/
structure PackHead where
  valueSize : Nat
  vflag : Nat
  valuesNumber : Nat
  qualitySize : Nat
  qflag : Nat
  qualityNumber : Nat
  noteSize : Nat
  nflag : Nat
  inotesNumber : Nat
deriving DecidableEq, Repr

/-- What ztsAggregate hands to the record writer: data area, compression header, internal header. -/
structure Packed (W : Type) where
  data : List W
  header2 : List Nat
  head : PackHead
deriving DecidableEq, Repr

/-- ztsAggregate.c:293-307 (and 310-326, 329-345): number of elements equal to their predecessor. -/
def repeatsFrom {E : Type} [DecidableEq E] : E → List E → Nat
  | _, [] => 0
  | prev, x :: xs => (if x = prev then 1 else 0) + repeatsFrom x xs

def repeatNumber {E : Type} [DecidableEq E] : List E → Nat
  | [] => 0
  | x :: xs => repeatsFrom x xs

/-- ztsAggregate.c:397, 414, 434, 501, 630, 664, 700: stay on 8 byte boundaries. -/
def padEven {W : Type} [Inhabited W] (l : List W) : List W :=
  if l.length % 2 = 1 then l ++ [default] else l

/-- ztsAggregate.c:540-553 (555-568, 570-583): compression flag of one area. -/
def areaFlag {E : Type} [DecidableEq E] (compress : Bool) (els : List E) : Nat :=
  if compress then (if repeatNumber els + 1 = els.length then 2 else 1) else 0

/-- ztsAggregate.c:532: words of bit map for `n` elements. -/
def bitWords (n : Nat) : Nat := (n - 1) / 32 + 1

/-- ztsAggregate.c:605-628 (639-662, 676-698): the words of one area. -/
def areaWords {W : Type} [DecidableEq W] (flag : Nat) (els : List (List W)) : List W :=
  if flag = 1 then (repeatCompress els (List.replicate (bitWords els.length) 0)).2.flatten
  else if flag = 2 then els.headD []
  else els.flatten

/-- ztsAggregate.c:546, 561, 576: the number of words recorded for one area. -/
def areaNumber {W : Type} [DecidableEq W] (flag size : Nat) (els : List (List W)) : Nat :=
  if flag = 1 then (els.length - repeatNumber els) * size
  else if flag = 2 then size
  else els.length * size

/-- ztsAggregate.c:610-611, 644-645, 681-682: the bit map of one area (none unless flag 1). -/
def areaBits {W : Type} [DecidableEq W] (flag : Nat) (els : List (List W)) : List Nat :=
  if flag = 1 then (repeatCompress els (List.replicate (bitWords els.length) 0)).1 else []

/-- Whether compressing is worth it, from the number of repeats and the number of elements
(ztsAggregate.c:349-364: a float ratio above 0.05 for values and 0.10 for quality and notes; kept
abstract so that nothing depends on float rounding). -/
structure PackPolicy where
  values : Nat → Nat → Bool
  flags : Nat → Nat → Bool

/-- ztsAggregate.c:145-741.  `times` is empty when boolUseTimes is 0. -/
def aggregate {W : Type} [DecidableEq W] [Inhabited W] (pol : PackPolicy) (times : List W)
    (vsz : Nat) (vals : List (List W)) (qsz : Nat) (quals : List (List W))
    (nsz : Nat) (notes : List (List W)) : Packed W :=
  let n := vals.length
  -- 289-365
  let big := n > 12
  let cv := big && pol.values (repeatNumber vals) n
  let cq := big && qsz > 0 && pol.flags (repeatNumber quals) n
  let cn := big && nsz > 0 && pol.flags (repeatNumber notes) n
  if !cv && !cq && !cn then
    -- 368-465
    let d1 := padEven (times ++ vals.flatten)
    let d2 := if qsz > 0 then padEven (d1 ++ quals.flatten) else d1
    let d3 := if nsz > 0 then padEven (d2 ++ notes.flatten) else d2
    ⟨d3, [], ⟨vsz, 0, n * vsz, qsz, 0, n * qsz, nsz, 0, n * nsz⟩⟩
  else if repeatNumber vals + 1 = n ∧ qsz = 0 ∧ nsz = 0 then
    -- 472-518
    ⟨padEven (times ++ vals.headD []), [], ⟨vsz, 2, vsz, 0, 0, 0, 0, 0, 0⟩⟩
  else
    -- 532-740
    let vf := areaFlag cv vals
    let qf := areaFlag cq quals
    let nf := areaFlag cn notes
    let d1 := padEven (times ++ areaWords vf vals)
    let d2 := if qsz > 0 then padEven (d1 ++ areaWords qf quals) else d1
    let d3 := if nsz > 0 then padEven (d2 ++ areaWords nf notes) else d2
    let used := areaBits vf vals ++ areaBits qf quals ++ areaBits nf notes
    let count := (cv.toNat + cq.toNat + cn.toNat) * bitWords n
    ⟨d3, used ++ List.replicate (count - used.length) 0,
      ⟨vsz, vf, areaNumber vf vsz vals, qsz, qf, areaNumber qf qsz quals, nsz, nf,
        areaNumber nf nsz notes⟩⟩

/-- The `i`-th element of `size` words at `pos`. -/
def elemAt {W : Type} (data : List W) (pos size i : Nat) : List W :=
  (data.drop (pos + i * size)).take size

/-- ztsDisaggregate.c:449-506 (540-596, 621-679): elements `start .. stop-1` of one area whose words
begin at `pos` and whose bit map begins at `bits`. -/
def readArea {W : Type} [Inhabited W] (data : List W) (header2 : List Nat) (flag size pos bits : Nat)
    (start stop : Nat) : List (List W) :=
  if flag = 0 then (List.range (stop - start)).map (fun i => elemAt data pos size (start + i))
  else if flag = 1 then
    repeatUncompress start stop (header2.drop bits)
      ((List.range ((data.length - pos) / size)).map (fun i => elemAt data pos size i))
  else (List.range (stop - start)).map (fun _ => elemAt data pos size 0)

/-- ztsDisaggregate.c:529-531, 610-612. -/
def alignPos (p : Nat) : Nat := if p % 2 = 1 then p + 1 else p

/-- ztsDisaggregate.c: where the quality area begins (line 528-531). -/
def qualityPos (p : Packed W) (dataInPosition : Nat) : Nat :=
  alignPos (dataInPosition + p.head.valuesNumber)

/-- ztsDisaggregate.c:608-612: where the notes area begins. -/
def notesPos (p : Packed W) (dataInPosition : Nat) : Nat :=
  alignPos (qualityPos p dataInPosition + p.head.qualityNumber)

/-- ztsDisaggregate.c:566-571: bit map position of the quality area. -/
def qualityBits (p : Packed W) (numberStored : Nat) : Nat :=
  if p.head.vflag = 1 then bitWords numberStored else 0

/-- ztsDisaggregate.c:644-652: bit map position of the notes area. -/
def notesBits (p : Packed W) (numberStored : Nat) : Nat :=
  qualityBits p numberStored + if p.head.qflag = 1 then bitWords numberStored else 0

/-- ztsDisaggregate.c:437-507: values `start .. stop-1`. -/
def unpackValues {W : Type} [Inhabited W] (p : Packed W) (dataInPosition : Nat) (start stop : Nat) :
    List (List W) :=
  readArea p.data p.header2 p.head.vflag p.head.valueSize dataInPosition 0 start stop

/-- ztsDisaggregate.c:534-597: quality flags `start .. stop-1`. -/
def unpackQuality {W : Type} [Inhabited W] (p : Packed W) (dataInPosition numberStored : Nat)
    (start stop : Nat) : List (List W) :=
  readArea p.data p.header2 p.head.qflag p.head.qualitySize (qualityPos p dataInPosition)
    (qualityBits p numberStored) start stop

/-- ztsDisaggregate.c:615-680: integer notes `start .. stop-1`. -/
def unpackNotes {W : Type} [Inhabited W] (p : Packed W) (dataInPosition numberStored : Nat)
    (start stop : Nat) : List (List W) :=
  readArea p.data p.header2 p.head.nflag p.head.noteSize (notesPos p dataInPosition)
    (notesBits p numberStored) start stop

/-- Writing a run of elements in an array at an element position. -/
def putAt {E : Type} (buf : List E) (pos : Nat) (xs : List E) : List E :=
  buf.take pos ++ xs ++ buf.drop (pos + xs.length)

/-- ztsDisaggregate.c:343-413, 433, 436, 725-773: place a window of one area in the caller's array:
missing elements before the first stored one, the stored ones, missing elements after the last.
`rd start stop` is the copy or decompression of that area. -/
def windowFill {E : Type} (numberToRead numberStored posFirst posLast : Int)
    (rd : Nat → Nat → List E) (miss : E) (buf : List E) : List E :=
  -- 343-389
  let before : Int :=
    if posFirst < 0 then (if -posFirst > numberToRead then numberToRead else -posFirst) else 0
  let buf1 := putAt buf 0 (List.replicate before.toNat miss)
  if posFirst < 0 ∧ before ≥ numberToRead then buf1 else
  -- 393-413
  let storedToRead := numberStored - posFirst
  let start := if posFirst > 0 then posFirst else 0
  let stop0 := if posFirst > 0 then start + storedToRead else numberStored
  let stop1 := if posLast < 0 then stop0 + posLast else stop0
  let stop := if stop1 - start > numberToRead then start + numberToRead else stop1
  -- 433-523
  let buf2 :=
    if stop - start > 0 ∧ storedToRead > 0 then putAt buf1 before.toNat (rd start.toNat stop.toNat)
    else buf1
  -- 726-773
  if posLast > 0 then
    let position := numberStored - posFirst
    if position < 0 then putAt buf2 0 (List.replicate (posLast + position).toNat miss)
    else putAt buf2 position.toNat (List.replicate posLast.toNat miss)
  else buf2

end Hec
