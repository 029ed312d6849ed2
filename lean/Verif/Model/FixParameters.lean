import Verif.Model.References

/-! # The collection `fix_ecoinvent_parameters` -/

namespace Ocelot

/-- The parameters of the collection: `lower` is `str.lower`, `ws` the whitespace test of `str.strip`, `num` is `str(float(x))`, `words`
are the reserved words in the order of iteration, `parses` tells whether python can parse a text. -/
structure TextEnv where
  lower : String → String
  ws : Char → Bool
  num : Text → Option Text
  words : List Text
  parses : Text → Bool

/-- /repo/ocelot/transformations/parameterization/__init__.py:19-29 `fix_ecoinvent_parameters` on one dataset. Every function of the collection
goes through the datasets one after the other and looks at one dataset only, so that each dataset can be followed through the whole collection. -/
def fixEcoinventParameters (M : MathEnv) (T : TextEnv) (ds : Dataset) : Except Err Dataset := do
  let d1 ← replaceImplicitReferences (fixSpecificIssues ds)
  let d2 ← repairAll M d1
  let d3 ← fixKnownBadFormulas d2
  let d4 ← lowercaseAllParameters T.lower d3
  let d5 ← fixMathFormulas T.ws T.num d4
  let d6 ← replaceReservedWords T.words T.parses d5
  deleteUnparsableFormulas T.parses d6

end Ocelot
