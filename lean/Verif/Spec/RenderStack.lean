import Verif.Model.Ast

/-!
# How deep a sheet is nested

For C109. Every part counts: blocks, also those without a selector, at-rules and declarations.
-/

namespace Spec

mutual
/-- The number of parts inside of each other. -/
def levelsRBC : RBC → Nat
  | .attr _ _ => 1
  | .rule _ content => 1 + levelsRBCs content
  | .block _ content => 1 + levelsRBCs content
/-- The same for the deepest part of a list. -/
def levelsRBCs : List RBC → Nat
  | [] => 0
  | x :: xs => max (levelsRBC x) (levelsRBCs xs)
end

/-- The levels of a sheet: 2 for `a { b: c; }`. -/
def levels (s : Sheet) : Nat := levelsRBCs (s.map ScopeContent.toRBC)

end Spec
