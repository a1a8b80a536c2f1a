import Verif.Model.Ast

/-!
# Nesting

How deep the braces of css are nested.
-/

namespace Spec

mutual
/-- The braces that are open at the deepest place of a content. Declarations outside of
blocks, in a block without selectors, are not in braces. -/
def bracesRBC : RBC → Nat
  | .attr _ _ => 0
  | .rule _ content => 1 + bracesRBCs content
  | .block [] content => bracesRBCs content
  | .block _ content => 1 + bracesRBCs content
/-- The same for a list. -/
def bracesRBCs : List RBC → Nat
  | [] => 0
  | x :: xs => max (bracesRBC x) (bracesRBCs xs)
end

/-- The braces that are open at the deepest place of a sheet. -/
def nesting (s : Sheet) : Nat := bracesRBCs (s.map ScopeContent.toRBC)

end Spec
