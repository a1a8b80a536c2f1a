import Verif.Model.Literal
import Verif.Model.Inline

/-!
# The choice of the macro syntax

Models `packages/stylist-macros/src/sheet.rs`; `css!`, `style!`, `global_style!` and
`use_style!` wrap its result.
-/

namespace Macro

open Output

/-- `sheet::macro_fn` (`stylist-macros/src/sheet.rs` 3-9): the string syntax if the first
token is a literal, of any kind, the inline syntax otherwise. `none` stands for a compile
error. -/
def expand (isExpr : RExpr → Bool) : List Tree → Option CSheet
  | ts@(.lit _ _ :: _) => Literal.macroFn ts
  | ts =>
    match Inline.macroFn isExpr ts with
    | .code c => some c
    | _ => none

end Macro
