import Verif.Model.Open
/-! Names of DSS files, and which files are DSS files of version 7. -/
namespace Spec
open Hec

/-- The name has something in front of ".dss" or ".ds-", in capital or small letters. -/
def HasExtension (n : Bytes) : Prop :=
  ∃ stem d s t, n = stem ++ [46, d, s, t] ∧ stem ≠ [] ∧ (d = 68 ∨ d = 100) ∧ (s = 83 ∨ s = 115) ∧ (t = 83 ∨ t = 115 ∨ t = 45)

/-- A name neither end of which is a quote. -/
def NoQuotes (n : Bytes) : Prop := n ≠ [] ∧ n.head? ≠ some 34 ∧ n.getLast? ≠ some 34

/-- The name in quotes. -/
def quoted (n : Bytes) : Bytes := [34] ++ n ++ [34]

/-- The bytes have the number `n` in the eight bytes of word `i`, the lowest first. -/
def WordIs (b : Bytes) (i : Nat) (n : Int) : Prop :=
  ∃ (pre rest : Bytes) (b0 b1 b2 b3 b4 b5 b6 b7 : UInt8), b = pre ++ [b0, b1, b2, b3, b4, b5, b6, b7] ++ rest ∧ pre.length = 8 * i ∧
    -2 ^ 63 ≤ n ∧ n < 2 ^ 63 ∧
    n % 2 ^ 64 = ((b0.toNat + 256 * b1.toNat + 256 ^ 2 * b2.toNat + 256 ^ 3 * b3.toNat + 256 ^ 4 * b4.toNat + 256 ^ 5 * b5.toNat +
      256 ^ 6 * b6.toNat + 256 ^ 7 * b7.toNat : Nat) : Int)

/-- A DSS file of version 7: it begins with "ZDSS"; the version (byte 16) begins with "7"; it is as long as its header, the
size of which in words (word 1) is 100 to 5,000,000; the flag at the end of the header (word 99) is there; the size of a
bin of pathnames (word 23) is 20 to 1000. -/
def IsDss7 (b : Bytes) : Prop :=
  b.take 4 = [90, 68, 83, 83] ∧ b[16]? = some 55 ∧
    (∃ n : Nat, WordIs b 1 n ∧ 100 ≤ n ∧ n ≤ 5000000 ∧ 8 * n ≤ b.length) ∧ WordIs b 99 (-97531) ∧ ∃ k : Int, WordIs b 23 k ∧ 20 ≤ k ∧ k ≤ 1000

/-- The place after the files have changed. -/
def after (p : Place) (fs : Files) : Place := { p with files := fs }

end Spec
