import Verif.Spec.Inline
import Verif.Spec.Value
import Verif.Spec.Layout

/-!
# Inline css as it is written

The declarations of inline css, read off its tokens.
-/

namespace Spec

open Output

/-- The text of an interpolated expression: a string literal is its value. -/
def exprText (ρ : Env) : RExpr → Str
  | [.lit _ (some v)] => v
  | e => ρ e

/-- After this component value there may be a blank. -/
def wordBefore : CV → Bool
  | .func _ _ | .block _ _ | .tok (.ident _) | .tok (.lit _ _) => true
  | .tok (.punct c _) => c = '&' ∨ c = '*'
  | .expr _ _ => false

/-- Before this component value there may be a blank. -/
def wordAfter : CV → Bool
  | .func _ _ | .tok (.ident _) | .tok (.lit _ _) => true
  | .tok (.punct c _) => c = '*' ∨ c = '#'
  | .block _ _ | .expr _ _ => false

mutual
/-- The text of a component value. -/
def cvText (ρ : Env) : CV → Str
  | .func i args => cssName i ++ c! "(" ++ cvsText ρ args ++ c! ")"
  | .tok t => tokenText t
  | .block .paren cs => c! "(" ++ cvsText ρ cs ++ c! ")"
  | .block .bracket cs => c! "[" ++ cvsText ρ cs ++ c! "]"
  | .block .brace cs => c! "{" ++ cvsText ρ cs ++ c! "}"
  | .expr _ e => exprText ρ e
/-- The text of component values: they follow each other, with a blank between words. -/
def cvsText (ρ : Env) : List CV → Str
  | [] => []
  | [c] => cvText ρ c
  | c :: d :: cs => cvText ρ c ++ (if wordBefore c && wordAfter d then c! " " else []) ++ cvsText ρ (d :: cs)
end

/-- The text of the name of a declaration. -/
def declName (ρ : Env) : CV → Str
  | .tok (.ident i) => cssName i
  | .expr _ e => exprText ρ e
  | _ => []

/-- The selectors of a block: its component values between commas. -/
def writtenSelectors (ρ : Env) (qs : List CV) : List Str := (dropEmpty (splitCommas qs)).map (cvsText ρ)

mutual
/-- The declarations of an item under the at-rules `rules` and the selector `sel`. -/
def rowsIn (cls : Option Str) (ρ : Env) (rules : List Str) (sel : Str) : SItem → List Decl
  | .decl name vs => [⟨rules ++ [sel], declName ρ name, cvsText ρ vs⟩]
  | .rule name ps body => rowsInAll cls ρ (rules ++ [c! "@" ++ cssName name ++ c! " " ++ cvsText ρ ps]) sel body
  | .block qs body =>
    rowsInAll cls ρ rules
      (if writtenSelectors ρ qs = [] then sel
       else Str.join (c! ", ") ((writtenSelectors ρ qs).map (scopeSelector cls))) body
/-- The same for a list of items. -/
def rowsInAll (cls : Option Str) (ρ : Env) (rules : List Str) (sel : Str) : List SItem → List Decl
  | [] => []
  | i :: is => rowsIn cls ρ rules sel i ++ rowsInAll cls ρ rules sel is
end

/-- The declarations of a sheet for a class, in order, each under the at-rules and selectors
it is written in; outside of blocks, for the class itself. -/
def rows (cls : Option Str) (ρ : Env) (is : List SItem) : List Decl := rowsInAll cls ρ [] (current cls) is

/-! ## Plain tokens -/

/-- Identifiers made of letters, digits, `_` and characters that are not ASCII. -/
def plainIdent (i : CssIdent) : Bool :=
  i ≠ [] ∧ i.all (fun | .dash _ => true | .ident n _ => decide (CleanClass n)) = true

/-- The character of a component value that is one. -/
def punctOf : CV → Option Char
  | .tok (.punct c _) => some c
  | _ => none

mutual
/-- A component value whose texts cannot be taken for something else: punctuation characters
are those of Rust without the quote, literals and values are closed, and there are no braces. -/
def plainCV (ρ : Env) : CV → Bool
  | .func i args => plainIdent i && plainCVs ρ args
  | .tok (.ident i) => plainIdent i
  | .tok (.punct c _) => decide (c ∈ c! "=<>!~?+-*/%^&|@.,;:#$")
  | .tok (.lit t _) => decide (ClosedValue t)
  | .block d cs => decide (d ≠ .brace) && plainCVs ρ cs
  | .expr _ e => decide (ClosedValue (exprText ρ e))
/-- The same for a list, in which no `/` is before a `*`. -/
def plainCVs (ρ : Env) : List CV → Bool
  | [] => true
  | c :: cs => plainCV ρ c && decide (¬ (punctOf c = some '/' ∧ cs.head?.bind punctOf = some '*')) && plainCVs ρ cs
end

/-- The same for the name of a declaration. -/
def plainName (ρ : Env) : CV → Bool
  | .tok (.ident i) => plainIdent i
  | .expr _ e => decide (Whole (exprText ρ e) ∧ ':' ∉ exprText ρ e)
  | _ => false

mutual
/-- The same for an item. At-rules have a condition, and no selector is empty. -/
def plainItem (ρ : Env) : SItem → Bool
  | .decl name vs => plainName ρ name && plainCVs ρ vs
  | .rule _ ps body => !ps.isEmpty && plainCVs ρ ps && plainItems ρ body
  | .block qs body =>
    (dropEmpty (splitCommas qs)).all (fun p => !p.isEmpty) && plainCVs ρ qs && plainItems ρ body
/-- The same for a list of items. -/
def plainItems (ρ : Env) : List SItem → Bool
  | [] => true
  | i :: is => plainItem ρ i && plainItems ρ is
end

/-! ## The same css in a string -/

/-- The text of a declaration with the name and the component values of an item: blanks in
the value are only where one is put between component values. -/
def DeclSrc.Writes (ρ : Env) (d : DeclSrc) (name : CV) (vs : List CV) : Prop :=
  d.Ok ∧ d.key = declName ρ name ∧ d.value = cvsText ρ vs

/-- The same for the head of an at-rule. -/
def AtSrc.Writes (ρ : Env) (a : AtSrc) (name : CssIdent) (ps : List CV) : Prop :=
  a.Ok conditionalNames ∧ a.name = c! "@" ++ cssName name ∧ Str.trim a.cond = cvsText ρ ps

/-- The text of the contents of a block: blanks and comments between its parts, and the
values that the expressions have in `ρ`. -/
inductive BodyWritten (ρ : Env) : Str → List SItem → Prop
  | nil (w : Str) : Blank w → BodyWritten ρ w []
  | decl (d : DeclSrc) (u : Str) (name : CV) (vs : List CV) (is : List SItem) : d.Writes ρ name vs →
      BodyWritten ρ u is → BodyWritten ρ (d.text ++ u) (.decl name vs :: is)
  | rule (a : AtSrc) (body u : Str) (name : CssIdent) (ps : List CV) (inner is : List SItem) : a.Writes ρ name ps →
      BodyWritten ρ body inner → (body = [] ∨ inner ≠ []) → BodyWritten ρ u is →
      BodyWritten ρ (a.text ++ c! "{" ++ body ++ c! "}" ++ u) (.rule name ps inner :: is)

/-- The texts of declarations. -/
def DeclsWritten (ρ : Env) : List DeclSrc → List SItem → Prop
  | [], [] => True
  | d :: ds, .decl name vs :: is => d.Writes ρ name vs ∧ DeclsWritten ρ ds is
  | _, _ => False

/-- The text of a sheet, or of the contents of an at-rule. -/
inductive WrittenAs (ρ : Env) : Str → List SItem → Prop
  | nil (w : Str) : Blank w → WrittenAs ρ w []
  | decls (ds : List DeclSrc) (ns is : List SItem) (u : Str) : ds ≠ [] → DeclsWritten ρ ds ns →
      ¬ StartsLikeDecl u → (∀ i ∈ is.head?, ¬ IsDecl i) → WrittenAs ρ u is →
      WrittenAs ρ ((ds.map DeclSrc.text).flatten ++ u) (ns ++ is)
  | block (l : List SelSrc) (body u : Str) (qs : List CV) (inner is : List SItem) : l ≠ [] → (∀ s ∈ l, s.Ok) →
      l.map (fun s => Str.trim s.sel) = writtenSelectors ρ qs → BodyWritten ρ body inner → WrittenAs ρ u is →
      WrittenAs ρ (selsText l ++ c! "{" ++ body ++ c! "}" ++ u) (.block qs inner :: is)
  | rule (a : AtSrc) (body u : Str) (name : CssIdent) (ps : List CV) (inner is : List SItem) : a.Writes ρ name ps →
      WrittenAs ρ body inner → WrittenAs ρ u is →
      WrittenAs ρ (a.text ++ c! "{" ++ body ++ c! "}" ++ u) (.rule name ps inner :: is)

end Spec
