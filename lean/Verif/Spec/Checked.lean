import Verif.Spec.Written

/-!
# Inline css that can be read again

In debug builds the text of every new style is parsed again.
-/

namespace Spec

open Output

mutual
/-- An item whose texts, with the values of the expressions, are those of css in a string:
declarations have an identifier and a value, conditions have no `$` and no `{`, and selectors have no
`$ { } ; @ /` outside of double-quoted strings. Selectors may have commas inside (in `:is(a, b)`) if
there is something between them. -/
def Checked (ρ : Env) : SItem → Prop
  | .decl name vs => CleanDecl (declName ρ name) (cvsText ρ vs)
  | .rule _ ps body =>
    Str.trim (cvsText ρ ps) = cvsText ρ ps ∧ '$' ∉ cvsText ρ ps ∧ '{' ∉ cvsText ρ ps ∧ CheckedL ρ body
  | .block qs body => (∀ s ∈ writtenSelectors ρ qs, CleanFrame s) ∧ CheckedL ρ body
/-- The same for a list of items. -/
def CheckedL (ρ : Env) : List SItem → Prop
  | [] => True
  | i :: is => Checked ρ i ∧ CheckedL ρ is
end

/-! ## Ordinary tokens -/

/-- A text with no blanks at its ends. -/
def Solid (t : Str) : Prop := t ≠ [] ∧ Str.trim t = t

mutual
/-- A component value of a value: no `$`, `;` or braces outside of double-quoted strings. -/
def ValueCV (ρ : Env) : CV → Prop
  | .func i args => plainIdent i = true ∧ ValueCVs ρ args
  | .tok (.ident i) => plainIdent i = true
  | .tok (.punct c _) => c ∈ (c! "=<>!~?+-*/%^&|@.,:#")
  | .tok (.lit t _) => Solid t ∧ ValueText t
  | .block d cs => d ≠ .brace ∧ ValueCVs ρ cs
  | .expr _ e => Solid (exprText ρ e) ∧ ValueText (exprText ρ e)
/-- The same for a list, in which something follows a `/`, and that is not another `/`, a `*` or
a string. -/
def ValueCVs (ρ : Env) : List CV → Prop
  | [] => True
  | c :: cs => ValueCV ρ c ∧ (punctOf c = some '/' → ∃ d, (cvsText ρ cs).head? = some d ∧ d ∉ (c! "*/\"")) ∧ ValueCVs ρ cs
end

/-- Commas are between other things. -/
def CommasBetween : List CV → Prop
  | [] => False
  | [c] => punctOf c ≠ some ','
  | c :: d :: cs =>
    punctOf c ≠ some ',' ∧
      (punctOf d = some ',' ∧ CommasBetween cs ∨ punctOf d ≠ some ',' ∧ CommasBetween (d :: cs))

mutual
/-- A component value of a selector: no `$`, `/`, `;`, `@` or braces outside of double-quoted
strings. -/
def SelectorCV (ρ : Env) : CV → Prop
  | .func i args => plainIdent i = true ∧ (args = [] ∨ CommasBetween args) ∧ SelectorCVs ρ args
  | .tok (.ident i) => plainIdent i = true
  | .tok (.punct c _) => c ∈ (c! "=<>!~?+-*%^&|.,:#")
  | .tok (.lit t _) => Solid t ∧ SelText t
  | .block d cs => d ≠ .brace ∧ (cs = [] ∨ CommasBetween cs) ∧ SelectorCVs ρ cs
  | .expr _ e => Solid (exprText ρ e) ∧ SelText (exprText ρ e)
/-- The same for a list. -/
def SelectorCVs (ρ : Env) : List CV → Prop
  | [] => True
  | c :: cs => SelectorCV ρ c ∧ SelectorCVs ρ cs
end

mutual
/-- A component value of a condition: no `$` and no `{`. -/
def ConditionCV (ρ : Env) : CV → Prop
  | .func i args => plainIdent i = true ∧ ConditionCVs ρ args
  | .tok (.ident i) => plainIdent i = true
  | .tok (.punct c _) => c ∈ (c! "=<>!~?+-*/%^&|@.,;:#")
  | .tok (.lit t _) => Solid t ∧ '$' ∉ t ∧ '{' ∉ t
  | .block d cs => d ≠ .brace ∧ ConditionCVs ρ cs
  | .expr _ e => Solid (exprText ρ e) ∧ '$' ∉ exprText ρ e ∧ '{' ∉ exprText ρ e
/-- The same for a list. -/
def ConditionCVs (ρ : Env) : List CV → Prop
  | [] => True
  | c :: cs => ConditionCV ρ c ∧ ConditionCVs ρ cs
end

mutual
/-- An item made of ordinary tokens. No value is empty and no selector is. -/
def Ordinary (ρ : Env) : SItem → Prop
  | .decl name vs =>
    Ident (declName ρ name) ∧ Str.trim (declName ρ name) = declName ρ name ∧ vs ≠ [] ∧ ValueCVs ρ vs
  | .rule _ ps body => ConditionCVs ρ ps ∧ OrdinaryL ρ body
  | .block qs body => (∀ p ∈ dropEmpty (splitCommas qs), p ≠ []) ∧ SelectorCVs ρ qs ∧ OrdinaryL ρ body
/-- The same for a list of items. -/
def OrdinaryL (ρ : Env) : List SItem → Prop
  | [] => True
  | i :: is => Ordinary ρ i ∧ OrdinaryL ρ is
end

end Spec
