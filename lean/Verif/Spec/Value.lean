import Verif.Spec.Macro
import Verif.Spec.Browser

/-!
# Values given to the macros

When a value stays in the place it is put in.
-/

namespace Spec

/-- A value that can be put in any place outside of strings: it is whole, not empty, and
neither begins with `*` nor ends with `/`, so that it does not make a comment with the text
around it. -/
def ClosedValue (v : Str) : Prop := Whole v ∧ v ≠ [] ∧ v.head? ≠ some '*' ∧ v.getLast? ≠ some '/'

instance (v : Str) : Decidable (ClosedValue v) := by unfold ClosedValue; infer_instance

/-- A value that can be put inside of a string: without quotes, backslashes and line breaks. -/
def StringText (v : Str) : Prop := ∀ c ∈ v, c ≠ '"' ∧ c ≠ '\'' ∧ c ≠ '\\' ∧ c ≠ '\n'

instance (v : Str) : Decidable (StringText v) := by unfold StringText; infer_instance

/-- The names of the arguments that are used outside of strings, and of those that are used
inside of strings. -/
structure Names where
  outside : List Str
  inside : List Str

/-- The argument `name` may be used at `q`: not after a backslash or in a comment. -/
def Names.fits (N : Names) (name : Str) : At → Bool
  | .out _ => decide (name ∈ N.outside)
  | .str _ _ => decide (name ∈ N.inside)
  | _ => false

/-- Go over the pieces of a text in which nothing ends and no comment begins. -/
def runPieces (N : Names) : At → List Piece → Option At
  | q, [] => some q
  | q, .run s :: ps => (runText q s).bind (fun q' => runPieces N q' ps)
  | q, .escape :: ps => (runText q (c! "${")).bind (fun q' => runPieces N q' ps)
  | q, .hole _ name _ :: ps => if N.fits name q then runPieces N q ps else none

/-- A text that is whole, whatever values are put in, if they are closed outside of strings
and plain text inside of strings. -/
def WholeTemplate (N : Names) (s : Str) : Prop :=
  Str.trim s = s ∧ ∃ ps, Pieces s ps ∧ NoTwoRuns ps ∧ runPieces N (.out 0) ps = some (.out 0)

mutual
/-- All texts of a part of a sheet are whole, whatever such values are put in. Values are
not put in keys. -/
def WholeTemplateIn (N : Names) : RBC → Prop
  | .attr k v => (Whole k ∧ ':' ∉ k) ∧ WholeTemplate N v.flatten
  | .rule c b => WholeTemplate N c.flatten ∧ WholeTemplateAll N b
  | .block c b => (∀ s ∈ c, WholeTemplate N s.flatten ∧ s.flatten ≠ []) ∧ WholeTemplateAll N b
/-- The same for a list of parts. -/
def WholeTemplateAll (N : Names) : List RBC → Prop
  | [] => True
  | x :: xs => WholeTemplateIn N x ∧ WholeTemplateAll N xs
end

/-- All texts of a sheet are whole, whatever such values are put in. -/
def WholeTemplateSheet (N : Names) (s : Sheet) : Prop := WholeTemplateAll N (s.map ScopeContent.toRBC)

/-- The declarations `ds` are the declarations `ds0` with values put in: as many, in the same
order, with the same keys and as many conditions, and the values are replaced. -/
def ReplacedDecls (σ : Str → Option Str) : List Decl → List Decl → Prop
  | [], [] => True
  | d0 :: ds0, d :: ds =>
    (d.key = d0.key ∧ Replaced σ d0.value d.value ∧ d.path.length = d0.path.length) ∧ ReplacedDecls σ ds0 ds
  | _, _ => False

end Spec
