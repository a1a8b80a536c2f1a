import Verif.Spec.Grammar

/-!
# Values, selectors and conditions that are read as they are written

Grammars of the texts, from left to right. They are exact: a text outside of them is not read
as it is written (C96).
-/

namespace Spec

/-- Nothing at the beginning of a text is a blank. -/
def NoBlanks (s : Str) : Prop := ∀ b t, Blank b → s = b ++ t → b = []

/-- Values: plain characters, `/` before a character other than `*`, and double-quoted strings
and placeholders with blanks and comments around them. -/
inductive ReadableValue : Str → Prop
  | nil : ReadableValue []
  | char (c : Char) (s : Str) : c ∉ (c! "${;}/\"") → ReadableValue s → ReadableValue (c :: s)
  | slash (c : Char) (s : Str) : c ∉ (c! "${;}\"*") → ReadableValue s → ReadableValue ('/' :: c :: s)
  | str (b body b' s : Str) : Blank b → StrBody body → Blank b' → ReadableValue s →
      ReadableValue (b ++ '"' :: (body ++ '"' :: (b' ++ s)))
  | placeholder (b t b' s : Str) : Blank b → Placeholder t → Blank b' → ReadableValue s →
      ReadableValue (b ++ (t ++ (b' ++ s)))

/-- Single selectors: double-quoted strings and placeholders, with the blanks and comments
after them, and between these, plain characters without commas and `{`. At the beginning and
after a string or a placeholder there is no `}` and no `@`. -/
inductive ReadableSelector : Str → Prop
  | nil : ReadableSelector []
  | run (c : Char) (s u : Str) : c ∉ (c! "$,}@{\"") → (∀ d ∈ s, d ∉ (c! "$,\"{")) →
      (∀ d ∈ u.head?, d = '$' ∨ d = '"') → ReadableSelector u → ReadableSelector (c :: (s ++ u))
  | str (body b s : Str) : StrBody body → Blank b → NoBlanks s → ReadableSelector s →
      ReadableSelector ('"' :: (body ++ '"' :: (b ++ s)))
  | placeholder (t b s : Str) : Placeholder t → Blank b → NoBlanks s → ReadableSelector s →
      ReadableSelector (t ++ (b ++ s))

/-- The conditions of at-rules: characters other than `$` and `{`, and placeholders with the
blanks and comments after them. -/
inductive ReadableCondition : Str → Prop
  | nil : ReadableCondition []
  | char (c : Char) (s : Str) : c ∉ (c! "${") → ReadableCondition s → ReadableCondition (c :: s)
  | placeholder (t b s : Str) : Placeholder t → Blank b → NoBlanks s → ReadableCondition s →
      ReadableCondition (t ++ (b ++ s))

/-- A text that begins with a declaration and its semicolon. -/
def BeginsWithDecl (s : Str) : Prop := ∃ t d u, DeclText t d ∧ s = t ++ ';' :: u

end Spec
