import Verif.Model.Settings
import Verif.Spec.OldNames
/-! Settings of the library. -/
namespace Spec
open Hec Hec.Spec

/-- A call of zset: hec_dss_set_value has no text, hec_dss_set_string the value 0. -/
structure SetCall where
  name : Bytes
  text : Option Bytes
  value : Int

/-- The name of a setting counts with its first four letters, in any case. -/
def SetCall.Names (c : SetCall) (k : Bytes) : Prop := sameUpToCase (c.name.take 4) k

/-- Calls one after the other; `none`: one of them reads a null pointer. -/
def sets (s : Settings) : List SetCall → Option Settings
  | [] => some s
  | c :: cs => (zset s c.name c.text c.value).bind fun r => sets r.1 cs

/-- "mess", "mlvl", "mlev": the settings of the levels of messages. -/
def levelKeys : List Bytes := [[109, 101, 115, 115], [109, 108, 118, 108], [109, 108, 101, 118]]
/-- "curr", "tota", "prog", "vdtm". -/
def currKey : Bytes := [99, 117, 114, 114]
def totaKey : Bytes := [116, 111, 116, 97]
def progKey : Bytes := [112, 114, 111, 103]
def vdtmKey : Bytes := [118, 100, 116, 109]

/-- The settings that are numbers: the name, whether only "no" (0) and "yes" (1) are told apart, and the value before any call.  "muni",
"curr", "tota", "nerr", "maxe", "inte", "disa", "empt", "vdow". -/
def numberSettings : List (Bytes × Bool × Int) :=
  [([109, 117, 110, 105], false, -1), (currKey, false, 0), (totaKey, false, 0), ([110, 101, 114, 114], false, 0), ([109, 97, 120, 101], false, 0),
   ([105, 110, 116, 101], false, 0), ([100, 105, 115, 97], false, 0), ([101, 109, 112, 116], true, 1), ([118, 100, 111, 119], true, 0)]

/-- What is kept of a number. -/
def keptNumber (yesNo : Bool) (v : Int) : Int := if yesNo then (if v = 0 then 0 else 1) else v

/-- The other names zset knows: "mhan", "clea", "maxp", "coll". -/
def otherKeys : List Bytes := [[109, 104, 97, 110], [99, 108, 101, 97], [109, 97, 120, 112], [99, 111, 108, 108]]

/-- The level of messages that a number given without the name of a group stands for. -/
def LevelOf (v level : Int) : Prop :=
  (v ≤ 0 ∧ level = 0) ∨ (v = 1 ∧ level = 1) ∨ ((v = 2 ∨ v = 3) ∧ level = 2) ∨ (v = 4 ∧ level = 3) ∨ (5 ≤ v ∧ v ≤ 10 ∧ level = 4) ∨
    ((v = 11 ∨ v = 12) ∧ level = 5) ∨ (13 ≤ v ∧ level = 6)

/-- The call is about the messages of the functions of group `g`: it names all groups (no text, "general" or "global"), or this one, by its
first three letters. -/
def SetCall.About (c : SetCall) (g : Nat) : Prop :=
  (∃ k ∈ levelKeys, c.Names k) ∧ ∃ t, c.text = some t ∧
    (t.length < 2 ∨ t.take 3 = [103, 101, 110] ∨ t.take 3 = [103, 108, 111] ∨ t.take 3 = (groupNames.getD g []).take 3)

/-- The vertical datum that a text, or a number if there is no text, stands for: one of the four, or a local one with this name. -/
def DatumOf (text : Option Bytes) (v : Int) (i : Int) (name : Bytes) : Prop :=
  (∃ t, text = some t ∧ t ≠ [] ∧
    ((∃ n ∈ ([0, 1, 2, 3] : List Nat), sameUpToCase t (datumNames.getD n []) ∧ i = n ∧ name = datumNames.getD n []) ∨
      ((∀ d ∈ datumNames, ¬ sameUpToCase t d) ∧ i = 3 ∧ name = t.take 16))) ∨
  ((text = none ∨ text = some []) ∧ 0 ≤ v ∧ v ≤ 3 ∧ i = v ∧ name = datumNames.getD v.toNat [])

end Spec
