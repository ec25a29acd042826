import Verif.Model.Strings
/-!
Model of the functions for texts of `parameter separator value delimiter` entries
(Utilities/verticalDatum.c:181-283), with `matchCase` TRUE as all callers in the library have it.
-/
namespace Hec

/-- `strstr(s, t)`, as an index. -/
def findText (t : Bytes) : Bytes → Option Nat
  | [] => if t = [] then some 0 else none
  | c :: cs => if t.isPrefixOf (c :: cs) then some 0 else (findText t cs).map (· + 1)

/-- verticalDatum.c:204: the number of bytes before a zero or the delimiter; `none` when neither is
in the memory. -/
def scanEnd (d : UInt8) : Bytes → Option Nat
  | [] => none
  | c :: cs => if c = 0 ∨ c = d then some 0 else (scanEnd d cs).map (· + 1)

/-- verticalDatum.c:184-223 for the memory `b` at `*delimitedString`: the value (as a C string) or
NULL, and the memory afterwards; `none` when a byte outside the memory is read or written. -/
def extractFrom (b parameter separator : Bytes) (removeFromString : Bool) (d : UInt8) : Option (Option Bytes × Bytes) :=
  let param := parameter ++ separator
  if b.contains 0 = false then none
  else
    match findText param (cstr b) with
    | none => some (none, b)
    | some paramStart =>
      let valueStart := paramStart + param.length
      (scanEnd d (b.drop (valueStart + 1))).bind fun k =>
        let valueEnd := valueStart + 1 + k
        let value := cstr ((b.drop valueStart).take (valueEnd - valueStart))
        if removeFromString then
          (rd b valueEnd).bind fun c =>
            if c ≠ 0 then
              let from' := b.drop (valueEnd + 1)
              if from'.contains 0 then
                let moved := cstr from' ++ [0]
                some (some value, b.take paramStart ++ moved ++ b.drop (paramStart + moved.length))
              else none
            else (wr b paramStart 0).map fun b' => (some value, b')
        else some (some value, b)

/-- verticalDatum.c:258-270: `for (cp = text; *cp && len < size; ++cp) s[len++] = *cp`. -/
def putChars (size : Int) : Bytes → Nat → Bytes → Option (Bytes × Nat)
  | b, len, [] => some (b, len)
  | b, len, c :: cs => if (len : Int) < size then (wr b len c).bind fun b' => putChars size b' (len + 1) cs else some (b, len)

/-- verticalDatum.c:227-283: the return code and the memory afterwards. -/
def insertInto (b : Bytes) (size : Int) (parameter value separator : Bytes) (overwriteExisting : Bool) (d : UInt8) : Option (Int × Bytes) :=
  (extractFrom b parameter separator false d).bind fun existing =>
    if existing.1.isSome ∧ overwriteExisting = false then some (0, b)
    else
      (if existing.1.isSome then (extractFrom b parameter separator true d).map (·.2) else some b).bind fun b =>
        if b.contains 0 = false then none
        else
          let len := (cstr b).length
          (if 0 < len ∧ b[len - 1]? ≠ some d then (wr b len d).map fun b' => (b', len + 1) else some (b, len)).bind fun s =>
            (putChars size s.1 s.2 parameter).bind fun s =>
              (putChars size s.1 s.2 separator).bind fun s =>
                (putChars size s.1 s.2 value).bind fun s =>
                  if (s.2 : Int) > size - 2 then some (-1, s.1)
                  else
                    (wr s.1 s.2 d).bind fun b =>
                      (wr b (s.2 + 1 : Nat) 0).map fun b => (0, b)

end Hec
