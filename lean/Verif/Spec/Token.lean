import Verif.Model.Tokens

/-!
# The texts of tokens
-/

namespace Spec

/-- The text of an identifier of CSS that is made of dashes and Rust identifiers, of which
raw ones are meant without their prefix. -/
def cssName : CssIdent → Str
  | [] => []
  | .dash _ :: ps => c! "-" ++ cssName ps
  | .ident n _ :: ps => n ++ cssName ps

/-- The text of a token: literals as they are written. -/
def tokenText : PTok → Str
  | .punct c _ => [c]
  | .lit t _ => t
  | .ident i => cssName i

end Spec
