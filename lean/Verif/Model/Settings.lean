import Verif.Model.Open
/-!
Settings of the library: zset and zquery (hec_dss_set_value, hec_dss_set_string), the levels of messages (zsetMessageLevel, zmessageLevel) and
what zsqueeze7 does to the levels.  Not modelled: the messages these functions write themselves, and the settings of version 6.
-/
namespace Hec

/-- zdssVals.h:6-29, zdssMessages.h:70-75 and zprogress, as far as zset and zquery use them.  The texts are the arrays of 17, 17 and 500
characters. -/
structure Settings where
  levels : List Int
  unit : Int
  handle : Int
  program : Bytes
  current : Int
  total : Int
  errors : Int
  maxErrors : Int
  interrupt : Int
  errorFlag : Int
  errorMess : Bytes
  maxPaths : Int
  newCollection : Int
  copyEmpty : Int
  datum : Int
  datumName : Bytes
  overwriteDatum : Int
  disaggregate : Int
deriving DecidableEq

/-- zinit.c:85-125, 1028-1030; everything else is zero. -/
def initialSettings : Settings :=
  ⟨List.replicate 18 3, -1, -1, [110, 111, 116, 32, 115, 112, 101, 99, 105, 102, 105, 101, 100] ++ [0, 0, 0, 0], 0, 0, 0, 0, 0, 0, List.replicate 500 0, 0, 0, 1, 0,
    List.replicate 17 0, 0, 0⟩

/-- zset.c:94-102, zquery.c:66-75, strncmp with 4: the first four characters of `parameter`, lower case, filled with zeros. -/
def paramKey (parameter : Bytes) : Bytes :=
  let t := (parameter.take 4).map tolower
  t ++ List.replicate (4 - t.length) 0

/-- zdssMessages.h:79-114: the names of the groups of functions. -/
def groupNames : List Bytes :=
  [[103, 108, 111, 98, 97, 108], [103, 101, 110, 101, 114, 97, 108], [103, 101, 116], [112, 117, 116], [114, 101, 97, 100], [119, 114, 105, 116, 101],
   [112, 101, 114, 109], [111, 112, 101, 110], [99, 104, 101, 99, 107], [108, 111, 99, 107, 105, 110, 103],
   [116, 105, 109, 101, 95, 115, 101, 114, 105, 101, 115, 95, 114, 101, 97, 100], [116, 105, 109, 101, 95, 115, 101, 114, 105, 101, 115, 95, 119, 114, 105, 116, 101],
   [97, 108, 105, 97, 115], [99, 111, 112, 121], [117, 116, 105, 108, 105, 116, 121], [99, 97, 116, 97, 108, 111, 103],
   [102, 105, 108, 101, 95, 99, 104, 101, 99, 107], [106, 110, 105]]

/-- zsetMessageLevel.c:143-196: the first group whose name has the same three first characters. -/
def groupOfName (name : Bytes) : Option Nat := groupNames.findIdx? fun g => name.take 3 = g.take 3

/-- zsetMessageLevel.c:86-108. -/
def setLevel (levels : List Int) (group : Int) (level : Int) : List Int :=
  if group < 0 ∨ group > 17 then levels
  else
    let l := levels.set group.toNat level
    if group = 0 ∨ group = 1 then (List.range 17).foldl (fun l i => l.set (i + 1) level) l else l

/-- zsetMessageLevel.c:132-200. -/
def setGroupLevel (levels : List Int) (name : Bytes) (level : Int) : List Int :=
  if name.length < 2 then setLevel levels 0 level
  else
    match groupOfName name with
    | none => levels
    | some g => setLevel levels g level

/-- zset.c:116-138. -/
def usualLevel (v : Int) : Int :=
  if v < 1 then 0 else if v < 2 then 1 else if v < 4 then 2 else if v < 5 then 3 else if v < 11 then 4 else if v < 13 then 5 else 6

/-- zmessageLevel.c:85-117: is a message of this level from the functions of `group` written?  `file`: the level of the file, for a file of
version 7. -/
def zmessageLevel (levels : List Int) (file : Option Int) (group : Nat) (level : Int) : Bool :=
  if (match file with | none => false | some f => decide (f > -1 ∧ level ≤ f)) then true
  else if level ≤ levels.getD group 0 then true
  else
    let general := levels.getD 1 0
    if general > 3 then decide ((level ≤ 4 ∧ general ≥ 10) ∨ (level ≤ 5 ∧ general ≥ 12) ∨ (level ≤ 6 ∧ general ≥ 15))
    else false

/-- verticalDatum.h:80-90: UNSET, NAVD-88, NGVD-29, OTHER. -/
def datumNames : List Bytes :=
  [[85, 78, 83, 69, 84], [78, 65, 86, 68, 45, 56, 56], [78, 71, 86, 68, 45, 50, 57], [79, 84, 72, 69, 82]]

/-- strcasecmp is 0. -/
def sameText (a b : Bytes) : Bool := a.map tolower = b.map tolower

/-- zset.c:182-232: the number and the text; `none` inside: refused. -/
def datumOf (text : Option Bytes) (v : Int) : Option (Int × Bytes) :=
  match text with
  | some (c :: cs) =>
    match datumNames.findIdx? fun n => sameText (c :: cs) n with
    | some i => some (i, datumNames.getD i [])
    | none => some (3, c :: cs)
  | _ => if 0 ≤ v ∧ v ≤ 3 then some (v, datumNames.getD v.toNat []) else none

/-- zset.c:115-245: `false`: STATUS_NOT_OKAY.  `none`: the text is a null pointer that is read. -/
def zset (s : Settings) (parameter : Bytes) (text : Option Bytes) (v : Int) : Option (Settings × Bool) :=
  let k := paramKey parameter
  -- "mess", "mlvl", "mlev"
  if k = [109, 101, 115, 115] ∨ k = [109, 108, 118, 108] ∨ k = [109, 108, 101, 118] then
    match text with
    | none => none
    | some t => some ({ s with levels := setGroupLevel s.levels t (if t.length < 3 then usualLevel v else v) }, true)
  -- "muni", "mhan"
  else if k = [109, 117, 110, 105] then some ({ s with unit := v }, true)
  else if k = [109, 104, 97, 110] then some ({ s with handle := v }, true)
  -- "prog"
  else if k = [112, 114, 111, 103] then
    match text with
    | none => none
    | some t => (stringCopy s.program t (if t.length > 16 then 16 else t.length)).map fun d => ({ s with program := d.1 }, true)
  -- "curr", "tota", "nerr", "maxe", "inte"
  else if k = [99, 117, 114, 114] then some ({ s with current := v }, true)
  else if k = [116, 111, 116, 97] then some ({ s with total := v }, true)
  else if k = [110, 101, 114, 114] then some ({ s with errors := v }, true)
  else if k = [109, 97, 120, 101] then some ({ s with maxErrors := v }, true)
  else if k = [105, 110, 116, 101] then some ({ s with interrupt := v }, true)
  -- "clea", "maxp", "coll", "empt"
  else if k = [99, 108, 101, 97] then some ({ s with errorFlag := 0, errorMess := s.errorMess.set 0 0 }, true)
  else if k = [109, 97, 120, 112] then some ({ s with maxPaths := v }, true)
  else if k = [99, 111, 108, 108] then some ({ s with newCollection := 1 }, true)
  else if k = [101, 109, 112, 116] then some ({ s with copyEmpty := v }, true)
  -- "vdtm", "vdow", "disa"
  else if k = [118, 100, 116, 109] then
    match datumOf text v with
    | none => some (s, false)
    | some (i, name) => (stringCopy s.datumName name s.datumName.length).map fun d => ({ s with datum := i, datumName := d.1 }, true)
  else if k = [118, 100, 111, 119] then some ({ s with overwriteDatum := if v ≠ 0 then 1 else 0 }, true)
  else if k = [100, 105, 115, 97] then some ({ s with disaggregate := v }, true)
  else some (s, false)

/-- zquery.c:77-173: the text goes into `buf`, whose length is the one given.  The number is `none` if it was not set. -/
def zquery (s : Settings) (parameter : Bytes) (buf : Bytes) : Option (Bool × Bytes × Option Int) :=
  let k := paramKey parameter
  let empty := fun (n : Int) => (wr buf 0 0).map fun b => (true, b, some n)
  let copy := fun (t : Bytes) (n : Option Int) => (stringCopy buf (cstr t) buf.length).map fun b => (true, b.1, n)
  -- "mlvl", "mlev", "muni"
  if k = [109, 108, 118, 108] ∨ k = [109, 108, 101, 118] then empty (s.levels.getD 0 0)
  else if k = [109, 117, 110, 105] then empty s.unit
  -- "vers", "date": 7-JA, 24 April 2026
  else if k = [118, 101, 114, 115] then copy [55, 45, 74, 65] (some 7)
  else if k = [100, 97, 116, 101] then copy [50, 52, 32, 65, 112, 114, 105, 108, 32, 50, 48, 50, 54] (some 7)
  -- "curr", "tota", "nerr", "maxe", "inte"
  else if k = [99, 117, 114, 114] then if s.total ≤ 0 then some (false, buf, none) else some (true, buf, some s.current)
  else if k = [116, 111, 116, 97] then some (true, buf, some s.total)
  else if k = [110, 101, 114, 114] then some (true, buf, some s.errors)
  else if k = [109, 97, 120, 101] then some (true, buf, some s.maxErrors)
  else if k = [105, 110, 116, 101] then some (true, buf, some s.interrupt)
  -- "erro", "empt", "vdtm", "vdow", "disa", "prog"
  else if k = [101, 114, 114, 111] then copy s.errorMess (some s.errorFlag)
  else if k = [101, 109, 112, 116] then empty (if s.copyEmpty ≠ 0 then 1 else 0)
  else if k = [118, 100, 116, 109] then copy s.datumName (some s.datum)
  else if k = [118, 100, 111, 119] then some (true, buf, some s.overwriteDatum)
  else if k = [100, 105, 115, 97] then some (true, buf, some s.disaggregate)
  else if k = [112, 114, 111, 103] then copy s.program none
  else some (false, buf, none)

/-- hecdss.c:176-178. -/
def hecSetValue (s : Settings) (name : Bytes) (v : Int) : Option (Settings × Bool) := zset s name (some []) v

/-- hecdss.c:180-182. -/
def hecSetString (s : Settings) (name : Bytes) (text : Option Bytes) : Option (Settings × Bool) := zset s name text 0

/-- zsqueeze7.c:169-174: the levels before, and those during the squeeze.  The group given to zsetMessageLevel is the level of the group
looked at. -/
def squeezeLower (levels : List Int) : List Int × List Int :=
  (List.range 17).foldl (fun x i =>
    let level := x.2.getD (i + 1) 0
    (x.1.set (i + 1) level, if level > 1 ∧ level < 5 then setLevel x.2 level 1 else x.2)) (List.replicate 18 0, levels)

/-- zsqueeze7.c:567-569. -/
def squeezeRestore (original levels : List Int) : List Int :=
  (List.range 17).foldl (fun l i => setLevel l (l.getD (i + 1) 0) (original.getD (i + 1) 0)) levels

/-- zsqueeze7.c:169-174 and 567-569: the levels after a squeeze.  Copying the file does not set any. -/
def squeezeLevels (levels : List Int) : List Int :=
  let x := squeezeLower levels
  squeezeRestore x.1 x.2

end Hec
