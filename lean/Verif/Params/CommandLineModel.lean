import Verif.Params.OverridesModel

/-!
# Overrides on the command line and the file with the used parameters: model of
`/repo/src/command_line_options.rs` and of `ParameterFileContents` in
`/repo/src/parameter_plugin/parameter_file_contents.rs`

Parsing of YAML text is a parameter.
-/

namespace Verif.Overrides

/-! ### The command line -/

/-- The outcome of `Override::from_str`: an error which is shown to the user, a panic, or an override. -/
inductive Parsed
  | error
  | panic
  | ok (o : Override)

/-- `Override::from_str`, command_line_options.rs lines 26-45. `yaml` is `serde_yaml::from_str`. -/
def parseOverride (yaml : List Char → Option Value) (s : List Char) : Parsed :=
  match s.splitOn ':' with
  | [path, text] =>
    match path.splitOn '/' with
    | name :: keys => match yaml text with
      | some v => .ok ⟨String.ofList name, keys.map String.ofList, v⟩
      | none => .panic
    | [] => .panic
  | _ => .error

/-! ### Parameter files -/

/-- `struct ParameterFileContents`, parameter_file_contents.rs lines 16-20. -/
structure Contents where
  sections : String → Option Value
  overrides : List Override

/-- The sections of a mapping; a later entry with the same name would replace an earlier one, but YAML mappings have no name
twice. -/
def sectionsOf (m : List (String × Value)) : String → Option Value := fun name => lookupKey name m

/-- `ParameterFileContents::new`, lines 120-134, on the parsed text: `none` is text which is not YAML, for which
`unwrap_or_default` gives no sections. The result `none` is the panic for a file which is not a mapping. -/
def Contents.new (parsed : Option Value) : Option Contents :=
  match parsed with
  | none => some ⟨fun _ => none, []⟩
  | some (.mapping m) => some ⟨sectionsOf m, []⟩
  | some (.leaf _) => none

variable {T : Type}

/-- `extract_parameter_struct`, lines 162-178, with the change of the sections. The parameter types of all sections have one
type `T` here; `decode name` and `encode` are serde's for the type of section `name`. -/
def Contents.extract (decode : String → Value → Option T) (encode : T → Value) (c : Contents) (name : String) :
    Option (T × Contents) :=
  let os := c.overrides.filter (fun o => o.sectionName = name)
  match c.sections name with
  | some v => do
    -- `extract_from_section`, lines 67-81: the overrides are inserted in place
    let v' ← insertOverrides v os
    let t ← decode name v'
    some (t, { c with sections := fun s => if s = name then some v' else c.sections s })
  | none => do
    let t ← extractFromDefault (decode name) os
    some (t, { c with sections := fun s => if s = name then some (encode t) else c.sections s })

/-- The parameter plugins of a program, one after the other (`ParameterPlugin::build_everywhere`, parameter_plugin/mod.rs
lines 72-76). -/
def extractAll (decode : String → Value → Option T) (encode : T → Value) (c : Contents) :
    List String → Option (List (String × T) × Contents)
  | [] => some ([], c)
  | name :: names => do
    let (t, c) ← c.extract decode encode name
    let (ts, c) ← extractAll decode encode c names
    some ((name, t) :: ts, c)

/-- `ParameterFileContents::contents`, lines 154-160, which `write_used_parameters_system` (io/output/mod.rs lines 69-86)
writes: a new run which reads this file has these sections and no overrides. -/
def Contents.reread (c : Contents) : Contents := ⟨c.sections, []⟩

/-- `Simulation::validate`, simulation/mod.rs lines 473-500, on the names of the sections and the sections which were asked for;
`false` is a panic. -/
def validate (names : List String) (used : List String) : Bool :=
  let unused := names.filter fun param => !used.contains param
  if unused.length == 1 && unused[0]? == some "visualization" then true
  else unused.isEmpty

end Verif.Overrides
