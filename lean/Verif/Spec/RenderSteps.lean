import Verif.Model.Ast

/-!
# The size of a sheet with its fragments

For C110: the characters of a sheet, and one for each declaration, block, at-rule, selector and
fragment of a text.
-/

namespace Spec

/-- The size of a text: its characters and its fragments. -/
def fragmentsSize (l : List Str) : Nat := l.flatten.length + l.length

mutual
/-- The size of a part of a sheet. -/
def weightIn : RBC → Nat
  | .attr k v => 1 + k.length + fragmentsSize v
  | .rule c b => 1 + fragmentsSize c + weightInAll b
  | .block c b => 1 + (c.map (fun s => 1 + fragmentsSize s)).sum + weightInAll b
/-- The size of several parts. -/
def weightInAll : List RBC → Nat
  | [] => 0
  | x :: xs => weightIn x + weightInAll xs
end

/-- The size of a sheet. -/
def weightOfSheet (s : Sheet) : Nat := weightInAll (s.map ScopeContent.toRBC)

end Spec
