/-!
# Parameter overrides: model of `/repo/src/parameter_plugin/parameter_file_contents.rs`

YAML values are trees.  Mapping keys other than strings are left out (overrides only use string
keys); scalars, sequences and null are opaque leaves.  YAML text parsing and serde
deserialisation are not modelled; deserialisation is an arbitrary partial function `decode`.
A result `none` is a panic.
-/

namespace Verif.Overrides

/-- `serde_yaml::Value` reduced to mappings and opaque leaves. -/
inductive Value
  | leaf (s : String)
  | mapping (entries : List (String × Value))
deriving Repr

/-- `Value::Null`. -/
def Value.null : Value := .leaf "null"

/-- `Mapping::get`: `serde_yaml::Mapping` has at most one entry per key; the model takes the first
one. -/
def lookupKey (k : String) : List (String × Value) → Option Value
  | [] => none
  | (k', v) :: rest => if k' = k then some v else lookupKey k rest

/-- The effect of writing through `Mapping::get_mut`: replaces the value of the entry of `k`. -/
def replaceKey (k : String) (v : Value) : List (String × Value) → List (String × Value)
  | [] => []
  | (k', v') :: rest => if k' = k then (k', v) :: rest else (k', v') :: replaceKey k v rest

/-- `construct_sub_mapping`, parameter_file_contents.rs lines 86-97. -/
def constructSubMapping : List String → Value → Value
  | [], v => v
  | k :: ks, v => .mapping [(k, constructSubMapping ks v)]

/-- `set_sublevel_value_by_keys`, parameter_file_contents.rs lines 99-117 (`unreachable!()` is
`none`). -/
def setSublevelValueByKeys : Value → List String → Value → Option Value
  | _, [], target => some target
  | .leaf _, _ :: _, _ => none
  | .mapping m, k :: ks, target =>
    match lookupKey k m with
    | some v => (setSublevelValueByKeys v ks target).map (fun v' => .mapping (replaceKey k v' m))
    | none => some (.mapping (m ++ [(k, constructSubMapping ks target)]))

/-- `struct Override`, parameter_file_contents.rs lines 9-14. -/
structure Override where
  sectionName : String
  keys : List String
  value : Value
deriving Repr

/-- `insert_overrides`, parameter_file_contents.rs lines 22-32, with the early `return` after an
override of the entire section. -/
def insertOverrides : Value → List Override → Option Value
  | v, [] => some v
  | v, o :: os =>
    if o.keys.isEmpty then some o.value
    else
      match setSublevelValueByKeys v o.keys o.value with
      | none => none
      | some v' => insertOverrides v' os

/-- `extract_from_default`, parameter_file_contents.rs lines 38-65: tries an empty mapping with the
overrides and then `Null` **without** overrides. -/
def extractFromDefault {T : Type} (decode : Value → Option T) (os : List Override) : Option T :=
  match insertOverrides (.mapping []) os with
  | none => none
  | some v => (decode v).or (decode Value.null)

/-- `extract_parameter_struct`, parameter_file_contents.rs lines 162-178, without the insertion of
the re-encoded struct into the section map: `sec` is the section's value in the file. -/
def extractParameterStruct {T : Type} (decode : Value → Option T) (sec : Option Value)
    (sectionName : String) (overrides : List Override) : Option T :=
  let os := overrides.filter (fun o => o.sectionName = sectionName)
  match sec with
  | some v => (insertOverrides v os).bind decode
  | none => extractFromDefault decode os

end Verif.Overrides
