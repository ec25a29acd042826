/-!
The chain of the aliases of one record: Public/zaliasAdd.c, zaliasRemove.c, zaliasNumber.c, zaliasList.c, zaliasGetPrimary.c.

An alias is the address of its entry in a pathname bin; what is modelled of an entry is its status and the address it leads to (kbinStatus, kbinInfoAdd).
The information block of the record is at `info`, and is told from an entry by its first word.  Left out: how the entry of a pathname is found and made
(Model/Engine.lean has that for records), errors of the disk, the locks, the other counts of the file header.
-/
namespace Hec

/-- The entries, the pointer of the information block to the chain (kinfoAliasesBinAddress, 0 if there is none), and knumberAliases. -/
structure AliasChain where
  head : Nat
  status : Nat → Nat
  next : Nat → Nat
  count : Int

/-- zaliasAdd.c:184-212: a new entry at `a` (kpathBinAddress). -/
def aliasLink (info : Nat) (s : AliasChain) (a : Nat) : AliasChain :=
  { head := a, status := fun x => if x = a then 2 else s.status x, count := s.count + 1,
    next := fun x => if x = a then (if s.head = 0 then info else s.head) else s.next x }

/-- zaliasRemove.c:204-268: down the chain from `address`, `last` being the entry before.  `none`: line 221, an error, or the chain does not end. -/
def aliasCut (info : Nat) (s : AliasChain) (a : Nat) : Nat → Nat → Nat → Option AliasChain
  | 0, _, _ => none
  | fuel + 1, address, last =>
    if address = info then some s
    else if s.status address ≠ 2 then none
    else if address = a then
      some { s with status := fun x => if x = a then 13 else s.status x, next := fun x => if x = last then s.next a else s.next x }
    else aliasCut info s a fuel (s.next address) address

/-- zaliasRemove.c:94-273: the alias whose entry is at `a`.  `none`: an error. -/
def aliasUnlink (info : Nat) (s : AliasChain) (a fuel : Nat) : Option AliasChain :=
  if s.status a ≠ 2 then some s
  else if s.head = 0 then some s
  else
    let dead : Nat → Nat := fun x => if x = a then 13 else s.status x
    let r : Option AliasChain :=
      if s.head = a ∧ s.next a = info then some { s with head := 0, status := dead }
      else if s.head = a then some { s with head := s.next a, status := dead }
      else aliasCut info s a fuel s.head s.head
    r.map fun t => { t with count := t.count - 1 }

/-- zaliasNumber.c:87-111, zaliasList.c:132-179: the entries that are passed.  `none`: line 100, an error, or the chain does not end. -/
def aliasPassed (info : Nat) (s : AliasChain) : Nat → Nat → Option (List Nat)
  | 0, _ => none
  | fuel + 1, address =>
    if address = info then some []
    else if s.status address ≠ 2 then none
    else if s.next address = info then some [address]
    else (aliasPassed info s fuel (s.next address)).map (address :: ·)

/-- zaliasNumber.c:84-112. -/
def aliasesOf (info : Nat) (s : AliasChain) (fuel : Nat) : Option (List Nat) :=
  if s.head ≠ 0 then aliasPassed info s fuel s.head else some []

/-- zaliasGetPrimary.c:98-120: where the entry leads to.  `none`: line 112, an error, or the chain does not end. -/
def aliasPrimary (info : Nat) (s : AliasChain) : Nat → Nat → Option Nat
  | 0, _ => none
  | fuel + 1, address =>
    if address = info then some address
    else if s.status address ≠ 2 then none
    else aliasPrimary info s fuel (s.next address)

/-- A record without aliases (zwriteNew.c). -/
def noAliases : AliasChain := ⟨0, fun _ => 0, fun _ => 0, 0⟩

/-- What may be done: an alias is added, its entry being at an address, or the alias there is removed. -/
inductive AliasOp where
  | add (a : Nat)
  | remove (a : Nat)

/-- A history.  `none`: an error. -/
def aliasRun (info fuel : Nat) (s : AliasChain) : List AliasOp → Option AliasChain
  | [] => some s
  | .add a :: ops => aliasRun info fuel (aliasLink info s a) ops
  | .remove a :: ops => (aliasUnlink info s a fuel).bind fun t => aliasRun info fuel t ops

end Hec
