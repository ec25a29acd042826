import Verif.Model.Strings
/-!
A number with commas: heclib/heclib_c/src/Utilities/longWithCommas.c (Linux).  `none`: a byte is written outside the caller's array.  The smallest
long long, for which `-number` overflows, is left out.
-/
namespace Hec

/-- `%lld` of a number that is not negative. -/
def digitText (n : Nat) : Bytes := (Nat.toDigits 10 n).map fun c => UInt8.ofNat c.toNat

/-- longWithCommas.c:50-59: the digits from the last to the first, `ipos` of them since the last comma, and what is in `temp`; `none` is line 52 or 57,
return -1. -/
def commaLoop (room : Nat) : Bytes → Nat → Bytes → Option Bytes
  | [], _, temp => some temp
  | c :: cs, ipos, temp =>
    if (temp ++ [c]).length = room then none
    else if ipos + 1 = 3 ∧ cs ≠ [] then
      if (temp ++ [c] ++ [44]).length = room then none else commaLoop room cs 0 (temp ++ [c] ++ [44])
    else commaLoop room cs (ipos + 1) (temp ++ [c])

/-- longWithCommas.c:29-70, for an array of `room` bytes: the text written and the value returned.  Line 46 cuts the digits off (snprintf). -/
def longWithCommas (room : Nat) (n : Int) : Option (Bytes × Int) :=
  if room = 0 then none
  else
    let str := (digitText n.natAbs).take (room - 1)
    match commaLoop room str.reverse 0 [] with
    | none => some (str, -1)
    | some temp =>
      -- lines 62-69
      let text := if n < 0 then 45 :: temp.reverse else temp.reverse
      if text.length < room then some (text, text.length) else none

end Hec
