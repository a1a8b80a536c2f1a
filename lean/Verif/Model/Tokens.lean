import Verif.Base

/-!
# Rust token trees and component values

`proc_macro2::TokenTree` and the data types of
`packages/stylist-macros/src/inline/{css_ident.rs,component_value/*.rs}`. Spans are
dropped. Groups without delimiter, which only arise when a `macro_rules!` macro passes a
fragment on, are left out. `'` of a lifetime is a punctuation character here, as in
`proc_macro2`.
-/

/-- `proc_macro2::Delimiter`, without `None`. -/
inductive Delim where
  | brace
  | bracket
  | paren
deriving DecidableEq, Repr

/-- `proc_macro2::TokenTree`. An identifier has its name and whether it is written
`r#name`; a punctuation character has its spacing; a literal has its source text and, if it
is a string literal, its value. -/
inductive Tree where
  | ident (name : Str) (raw : Bool)
  | punct (c : Char) (joint : Bool)
  | lit (text : Str) (str : Option Str)
  | group (d : Delim) (content : List Tree)

/-- A Rust expression (`syn::Expr`, or the `TokenStream` of an argument) is its tokens. -/
abbrev RExpr := List Tree

/-- `IdentPart` (`inline/css_ident.rs` 10-14). -/
inductive IdentPart where
  | dash (joint : Bool)
  | ident (name : Str) (raw : Bool)
deriving DecidableEq, Repr

/-- `CssIdent` (`inline/css_ident.rs` 16-19). -/
abbrev CssIdent := List IdentPart

/-- `PreservedToken` (`inline/component_value/preserved_token.rs` 6-11). -/
inductive PTok where
  | punct (c : Char) (joint : Bool)
  | lit (text : Str) (str : Option Str)
  | ident (i : CssIdent)
deriving DecidableEq, Repr

/-- `CssIdent::to_output_string` (`inline/css_ident.rs` 47-55); `unraw` drops `r#`. -/
def CssIdent.text (i : CssIdent) : Str :=
  i.flatMap (fun p => match p with
    | .dash _ => ['-']
    | .ident n _ => n)

/-- `PreservedToken::to_output_string` (`preserved_token.rs` 38-44). -/
def PTok.text : PTok → Str
  | .ident i => CssIdent.text i
  | .lit t _ => t
  | .punct c _ => [c]

/-- `ComponentValue` (`inline/component_value/mod.rs` 31-37) with its payloads
`FunctionToken`, `SimpleBlock` and `InterpolatedExpression` inlined. `joint` is the spacing
of the `$`, which the code drops. -/
inductive CV where
  | func (name : CssIdent) (args : List CV)
  | tok (t : PTok)
  | block (d : Delim) (contents : List CV)
  | expr (joint : Bool) (e : RExpr)
