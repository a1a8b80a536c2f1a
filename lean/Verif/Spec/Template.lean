import Verif.Model.Ast

/-!
# Texts with holes for the class name
-/

namespace Template

/-- A text in which `none` stands for the class. -/
abbrev Tpl := List (Option Char)

/-- The text for a class name: a dot and the name in every hole. -/
def fill (c : Str) (t : Tpl) : Str := t.flatMap (fun x => match x with | none => '.' :: c | some a => [a])

mutual
/-- The texts of all selectors and at-rule conditions in a piece of a sheet, as written in
the source. -/
def headersIn : RBC → List Str
  | .attr _ _ => []
  | .rule c b => c.flatten :: headersInAll b
  | .block c b => c.map List.flatten ++ headersInAll b
/-- … in a list of them. -/
def headersInAll : List RBC → List Str
  | [] => []
  | x :: xs => headersIn x ++ headersInAll xs
end

/-- The texts of all selectors and at-rule conditions in a sheet. -/
def headers (s : Sheet) : List Str := headersInAll (s.map ScopeContent.toRBC)

end Template
