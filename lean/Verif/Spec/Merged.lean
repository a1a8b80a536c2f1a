import Verif.Model.Ast
import Verif.Spec.Macro

/-!
# The css of a macro in pieces

A selector, a value and a condition are each a list of pieces of text. A macro that is given
a string literal keeps as few pieces as possible.
-/

namespace Spec

/-- All pieces as one, and no piece at all if there is no text. -/
def merged (pieces : List Str) : List Str :=
  if pieces.flatten = [] then [] else [pieces.flatten]

mutual
/-- A tree with its selectors, values and conditions merged. -/
def mergedRBC : RBC → RBC
  | .attr k v => .attr k (merged v)
  | .rule c b => .rule (merged c) (mergedRBCs b)
  | .block c b => .block (c.map merged) (mergedRBCs b)
/-- Of a list. -/
def mergedRBCs : List RBC → List RBC
  | [] => []
  | x :: xs => mergedRBC x :: mergedRBCs xs
end

/-- A sheet with its selectors, values and conditions merged. -/
def mergedSheet : Sheet → Sheet
  | [] => []
  | .rule c b :: xs => .rule (merged c) (mergedRBCs b) :: mergedSheet xs
  | .block c b :: xs => .block (c.map merged) (mergedRBCs b) :: mergedSheet xs

mutual
/-- There is an at-rule. -/
def hasRuleRBC : RBC → Bool
  | .attr _ _ => false
  | .rule _ _ => true
  | .block _ b => hasRuleRBCs b
/-- In a list. -/
def hasRuleRBCs : List RBC → Bool
  | [] => false
  | x :: xs => hasRuleRBC x || hasRuleRBCs xs
end

/-- There is an at-rule, at the top or in a block. -/
def hasRule : Sheet → Bool
  | [] => false
  | .rule _ _ :: _ => true
  | .block _ b :: xs => hasRuleRBCs b || hasRule xs

end Spec
