import Verif.Spec.Shadow

/-!
# Browsers that reject selectors

`unmount` looks for the element of a style with the selector `style[data-style=ID]`. An
attribute value without quotes has to be a CSS identifier: for anything else
`query_selector` throws, so nothing is found.
-/

namespace Manager

/-- The browser finds nothing for a selector whose attribute value is no identifier. -/
def Rejects (env : Env) : Prop := ∀ id cs, cssIdent id = false → env.oddQuery id cs = none

end Manager
