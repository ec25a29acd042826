/-!
Specification of pathnames: `/A/B/C/D/E/F/`.
-/
namespace Spec

/-- A part without its leading and trailing blanks. -/
def trim (s : List UInt8) : List UInt8 :=
  ((s.dropWhile (· = 32)).reverse.dropWhile (· = 32)).reverse

/-- The pathname made of the given parts: a slash, then each part followed by a slash. -/
def join (parts : List (List UInt8)) : List UInt8 := 47 :: parts.flatMap (· ++ [47])

/-- A text that can be a part: no slash and no string terminator. -/
def IsPart (s : List UInt8) : Prop := ∀ c ∈ s, c ≠ 47 ∧ c ≠ 0

/-- The buffer holds the C string `s`: its bytes, then a zero. -/
def Holds (b s : List UInt8) : Prop := ∃ rest, b = s ++ 0 :: rest

end Spec
