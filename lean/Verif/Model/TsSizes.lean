import Verif.Model.ItsApi
/-!
How many values a time series has in a window: hec_dss_tsGetSizes (heclib/hecdss/hecdss.c), with ztsGetSizes.c,
Internal/ztsGetSizesInternal.c and ztsProcessTimes.c.

Simplifications: those of Model/TsApi.lean; zreadInfo and the zget of the header are taken as one zread of the record (of
which only the number of values and one int of the header are used).  Sums are exact.
-/
namespace Hec

/-- What the call ends with. -/
inductive SizesGot where
  /-- the number of values and the size of a quality flag -/
  | ok (number quality : Int)
  | failed
  /-- not yet ended after that many rounds -/
  | running
  | unmodelled
deriving DecidableEq

/-- ztsGetSizesInternal.c:151-217.  `was`: the int 11 of the local array `internalHeader`, which is not cleared; `n`, `q`:
the numbers so far. -/
def sizesLoop (c : Cfg) (m : Around) (blockSize endBlock : Int) (s : Eng) : Nat → Bytes → Int → (was n q : Int) → Option SizesGot
  | 0, _, jb, _, n, q => if jb ≤ endBlock then some .running else some (.ok n q)
  | fuel + 1, buf, jb, was, n, q =>
    if jb ≤ endBlock then
      (blockName m buf jb).bind fun buf =>
        (zread c s (cstr buf)).bind fun R =>
          let next := ztsIncrementBlock jb blockSize
          match R with
          | none => sizesLoop c m blockSize endBlock s fuel buf next was n q
          | some R =>
            let was := if 11 < R.ih.length then headInt R.ih 11 else was
            sizesLoop c m blockSize endBlock s fuel buf next was (n + toInt32 R.logicalNumber) (if was > q then was else q)
    else some (.ok n q)

/-- ztsGetSizesInternal.c:115-230, ztsGetSizes.c:51-62 with a time window.  If there is no round, the result is that of a
variable that was not set (line 225). -/
def getSizes (c : Cfg) (m : TsMem) (pathname : Bytes) (blockSize startBlock endBlock : Int) (s : Eng) (fuel : Nat) : Option SizesGot :=
  if startBlock ≤ endBlock then (pathBuffer pathname m.path).bind fun buf => sizesLoop c m.loop blockSize endBlock s fuel buf startBlock m.junk 0 0
  else some (if m.junk ≥ 0 then .ok 0 0 else .failed)

/-- hecdss.c:253-281 with ztsProcessTimes.c, whose result is not looked at: for an E part that is no interval all numbers of the
window are zero (calloc, line 96).  `fuel`: for how many rounds the call is watched. -/
def hecTsGetSizes (c : Cfg) (m : TsMem) (path startDate startTime endDate endTime : Bytes) (s : Eng) (fuel : Nat) : Option SizesGot :=
  let pathname := mallocAndCopyPath path
  (timeStringToSeconds startTime).bind fun s1 => (timeStringToSeconds endTime).bind fun e1 =>
  let s0 := (dateToJulian startDate, s1)
  let e0 := (dateToJulian endDate, e1)
  (tsPath m pathname).bind fun p =>
  if p = .bad then getSizes c m pathname 0 0 0 s fuel
  else
    -- ztsProcessTimes.c:116-131
    if (s0.1 = 0 ∧ e0.1 = 0) ∨ (s0.1 = -1 ∧ e0.1 = -1) then some .unmodelled
    else
      let start := cleanTime s0.1 s0.2 1
      let last := cleanTime e0.1 e0.2 1
      if isTimeDefined start = false ∨ isTimeDefined last = false then some .unmodelled
      else
        match p with
        | .bad => none
        | .pattern => some .unmodelled
        | .regular interval buf =>
          let w := regWindow interval start.1 start.2 last.1 last.2
          (internalPath m buf w.startBlock).bind fun _ => getSizes c m pathname w.blockSize w.startBlock w.endBlock s fuel
        | .irregular blockSize buf =>
          let startBlock := ztsIrregGetBlockStart start.1 blockSize
          (internalPath m buf startBlock).bind fun _ => getSizes c m pathname blockSize startBlock (ztsIrregGetBlockStart last.1 blockSize) s fuel

end Hec
