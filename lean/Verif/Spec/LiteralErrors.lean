import Verif.Model.LiteralErrors
import Verif.Spec.Macro

/-!
# What is wrong with a call of a macro with a string literal
-/

namespace Spec

open Literal Output

/-- The first mistake in a list of arguments after arguments with these names. -/
inductive ArgsWrong : List Str → List Tree → LErr → Prop where
  /-- There is something else than a name after a comma. -/
  | ident (known j t rest) : (∀ name raw, t ≠ .ident name raw) → ArgsWrong known (.punct ',' j :: t :: rest) (.ident t)
  /-- There is no `=` after a name. -/
  | equals (known j name raw rest) : (∀ j' rest', rest ≠ .punct '=' j' :: rest') →
      ArgsWrong known (.punct ',' j :: .ident name raw :: rest) (.equals (nameText name raw))
  /-- There was an argument with this name. -/
  | duplicate (known j name raw j' rest) : nameText name raw ∈ known →
      ArgsWrong known (.punct ',' j :: .ident name raw :: .punct '=' j' :: rest) (.duplicate (nameText name raw))
  /-- An argument that is right, and the mistake is in what follows. -/
  | more (known j name raw j' e rest err) : nameText name raw ∉ known → (∀ t ∈ e, NotComma t) →
      ArgsWrong (known ++ [nameText name raw]) rest err →
      ArgsWrong known (.punct ',' j :: .ident name raw :: .punct '=' j' :: (e ++ rest)) err

/-- A text can be split, and the names in it are known. -/
def TextRight (known : List Str) (s : Str) : Prop := (∃ ps, Pieces s ps) ∧ ∀ n, Mentions s n → n ∈ known

/-- What is wrong with one text. -/
inductive TextWrong (known : List Str) (s : Str) : LErr → Prop where
  /-- It cannot be split into runs, `$${` and `${name}`. -/
  | text : (¬ ∃ ps, Pieces s ps) → TextWrong known s (.text s)
  /-- It can, but one of the names is not known. -/
  | missing (n : Str) : Mentions s n → n ∉ known → TextWrong known s (.missing s)

/-- The mistake in a call that is reported. The places are looked at in this order: the first
token, the css, the arguments, the texts of the css with the names in them, the use of the
arguments. `order` is the order in which the last one looks at arguments. -/
inductive CallWrong (order : Args → Args) : List Tree → LErr → Prop where
  | noArgument : CallWrong order [] .noArgument
  | notString (t rest) : (∀ text s, t ≠ .lit text (some s)) → CallWrong order (t :: rest) (.notString t)
  | css (text s rest places message) : Report.parse s = .error (places, message) →
      CallWrong order (.lit text (some s) :: rest) (.css message)
  | comma (text s rest sheet t) : Css.parse s = some sheet → NotComma t →
      CallWrong order (.lit text (some s) :: t :: rest) (.comma t)
  | args (text s rest sheet err) : Css.parse s = some sheet → ArgsWrong [] rest err →
      CallWrong order (.lit text (some s) :: rest) err
  | text (text s rest sheet args before x after err) : Css.parse s = some sheet → ArgTokens rest args →
      (args.map Prod.fst).Nodup → texts sheet = before ++ x :: after →
      (∀ y ∈ before, TextRight (args.map Prod.fst) y) → TextWrong (args.map Prod.fst) x err →
      CallWrong order (.lit text (some s) :: rest) err
  | unused (text s rest sheet args before a after) : Css.parse s = some sheet → ArgTokens rest args →
      (args.map Prod.fst).Nodup → (∀ x ∈ texts sheet, TextRight (args.map Prod.fst) x) →
      order args = before ++ a :: after → (∀ b ∈ before, ∃ x ∈ texts sheet, Mentions x b.1) →
      (∀ x ∈ texts sheet, ¬ Mentions x a.1) →
      CallWrong order (.lit text (some s) :: rest) (.unused a.1)

end Spec
