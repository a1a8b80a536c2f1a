import Verif.Spec.Token

/-!
# The texts of tokens are as specified
-/

namespace Spec

theorem cssName_eq (i : CssIdent) : CssIdent.text i = cssName i := by
  induction i with
  | nil => rfl
  | cons p i ih =>
    cases p with
    | dash => simp only [cssName, ← ih]; rfl
    | ident n => simp only [cssName, ← ih]; rfl

theorem tokenText_eq (t : PTok) : t.text = tokenText t := by
  cases t with
  | ident i => exact cssName_eq i
  | _ => rfl

end Spec
