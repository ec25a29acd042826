import Verif.Model.Engine
/-! What is in the bins of a file, whatever its words are (C73, second part). -/
namespace Spec
open Hec

/-- The entries of a bin start at its first word; each says how long its pathname is. -/
inductive EntryIn (c : Cfg) (bin : Nat → Nat) : Nat → Prop
  | first : bin 0 ≠ 0 → EntryIn c bin 0
  | next {n : Nat} : EntryIn c bin n → n + (7 + hi32 (bin (n + 2))) < c.isize - 2 → bin (n + (7 + hi32 (bin (n + 2)))) ≠ 0 →
      EntryIn c bin (n + (7 + hi32 (bin (n + 2))))

/-- The entry is of a record, neither deleted nor renamed: its status is at most 2. -/
def LiveEntry (bin : Nat → Nat) (n : Nat) : Prop := bin (n + 1) ≤ 2

/-- The pathname in the entry at `n`. -/
def nameIn (bin : Nat → Nat) (n : Nat) : Bytes := unpackBytes (fun j => bin (n + 7 + j)) (lo32 (bin (n + 2)))

/-- The blocks of bins: the first is behind the hash table, each has the address of the next at its end. -/
inductive BlockIn (c : Cfg) (d : Disk) : Nat → Prop
  | first : BlockIn c d c.firstBin
  | next {a : Nat} : BlockIn c d a → d (a + c.binsPerBlock * c.isize) ≠ 0 → BlockIn c d (d (a + c.binsPerBlock * c.isize))

/-- The bin at `a` is in a block. -/
def BinIn (c : Cfg) (d : Disk) (a : Nat) : Prop := ∃ b k, BlockIn c d b ∧ k < c.binsPerBlock ∧ a = b + k * c.isize

/-- A record with this pathname is listed in the bins. -/
def Listed (c : Cfg) (d : Disk) (p : Bytes) : Prop :=
  ∃ a n, BinIn c d a ∧ EntryIn c (fun i => d (a + i)) n ∧ LiveEntry (fun i => d (a + i)) n ∧ p = nameIn (fun i => d (a + i)) n

/-- The bins of the hash `h`: the hash table has the address of the first, each has that of the next in its last word. -/
inductive BinOf (c : Cfg) (d : Disk) (h : Nat) : Nat → Prop
  | first : d (c.hashStart + h) ≠ 0 → BinOf c d h (d (c.hashStart + h))
  | next {a : Nat} : BinOf c d h a → d (a + (c.isize - 1)) ≠ 0 → BinOf c d h (d (a + (c.isize - 1)))

/-- An array of `n` ints at the word `a` ends within the file (words of 64 bits). -/
def InsideFile (fileSize a n : Nat) : Prop := a % 2 ^ 64 < 2 ^ 63 ∧ n % 2 ^ 64 < 2 ^ 63 ∧ a % 2 ^ 64 + n % 2 ^ 64 / 2 ≤ fileSize

/-- The places of address and length of the six arrays in an info block. -/
def ARRAYS : List (Nat × Nat) :=
  [(kinfoInternalHeadAddress, kinfoInternalHeadNumber), (kinfoHeader2Address, kinfoHeader2Number), (kinfoUserHeadAddress, kinfoUserHeadNumber),
    (kinfoValues1Address, kinfoValues1Number), (kinfoValues2Address, kinfoValues2Number), (kinfoValues3Address, kinfoValues3Number)]

/-- The record can be found by its pathname, its info block is one, and its arrays are in the file. -/
def Sane (c : Cfg) (s : Eng) (p : Bytes) : Prop :=
  ∃ k, zcheck c s p REC_STATUS_VALID = some k ∧ k.found = true ∧ s.disk (k.infoAdd + kinfoFlag) = DSS_INFO_FLAG ∧
    ∀ x ∈ ARRAYS, InsideFile s.hdr.fileSize (s.disk (k.infoAdd + x.1)) (s.disk (k.infoAdd + x.2))

end Spec
