import Verif.Spec.Pathnames
/-! Specification of text in base 64 (RFC 4648, section 4). -/
namespace Spec

/-- One of the 64 characters: letters, digits, plus and slash. -/
def IsBase64 (c : UInt8) : Prop :=
  (65 ≤ c ∧ c ≤ 90) ∨ (97 ≤ c ∧ c ≤ 122) ∨ (48 ≤ c ∧ c ≤ 57) ∨ c = 43 ∨ c = 47

/-- The number with the given base 64 digits or bytes, the first one highest. -/
def numberIn (base : Nat) (l : List Nat) : Nat := l.foldl (fun n d => n * base + d) 0

/-- The digit a character of base 64 stands for. -/
def digit (c : UInt8) : Nat :=
  if c = 43 then 62 else if c = 47 then 63
  else if c ≤ 57 then c.toNat - 48 + 52
  else if c ≤ 90 then c.toNat - 65
  else c.toNat - 97 + 26

/-- The characters that stand for the bytes: groups of three bytes are four characters that are the
same 24 bit number; at the end two bytes are three characters and a pad, and one byte is two
characters and two pads, with zero bits after them. -/
inductive InBase64 : List UInt8 → List UInt8 → Prop
  | none : InBase64 [] []
  | one (a c d : UInt8) : (∀ k ∈ [c, d], IsBase64 k) → numberIn 64 [digit c, digit d] = a.toNat * 16 → InBase64 [a] [c, d, 61, 61]
  | two (a b c d e : UInt8) : (∀ k ∈ [c, d, e], IsBase64 k) →
      numberIn 64 [digit c, digit d, digit e] = numberIn 256 [a.toNat, b.toNat] * 4 →
      InBase64 [a, b] [c, d, e, 61]
  | three (a b x c d e f : UInt8) (rest t : List UInt8) : (∀ k ∈ [c, d, e, f], IsBase64 k) →
      numberIn 64 [digit c, digit d, digit e, digit f] = numberIn 256 [a.toNat, b.toNat, x.toNat] → InBase64 rest t →
      InBase64 (a :: b :: x :: rest) (c :: d :: e :: f :: t)

end Spec
