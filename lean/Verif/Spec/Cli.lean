import Verif.Model.Cli

/-! # What the command line promises (independent of the dispatch) -/

namespace Ocelot.Spec

/-- The commands of the help text, /repo/ocelot/bin/ocelot_cli.py:5-24. -/
inductive Command where
  | run (dirpath : String) (config : Option String) (noshow : Bool) (save follow : Option String)
  | cleanup
  | validate (dirpath : String)
  | xsd (dirpath : String) (schema : Option String)
  | list (short : Bool)

/-- What docopt makes of a command line that fits a line of the usage text. -/
def Command.args : Command → CliArgs
  | .run d c n s f => { run := true, dirpath := some d, config := c, noshow := n, save := s, follow := f }
  | .cleanup => { cleanup := true }
  | .validate d => { validate := true, dirpath := some d }
  | .xsd d s => { xsd := true, dirpath := some d, schema := s }
  | .list true => { l := true }
  | .list false => { list := true }

/-- What the help text says a command does. `list` only reports: "List the updates needed, but don't do anything". -/
def Command.documented {ω : Type} (A : Api ω) (dataDir : String) : Command → ω → ω × Except Stop Unit
  | .run d c n s f, w => A.systemModel (some d) c (!n) s f w
  | .cleanup, w => A.cleanup w
  | .validate d, w => A.validateDirectory (some d) w
  | .xsd d none, w => A.validateXsd (some d) (dataDir ++ "/EcoSpold02.xsd") w
  | .xsd d (some s), w => A.validateXsd (some d) s w
  | .list _, w => (w, .ok ())

end Ocelot.Spec
