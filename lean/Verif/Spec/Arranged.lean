import Verif.Spec.Written

/-!
# The arrangement of css

Which declarations, at-rules and blocks are written inside of which, without their texts.
-/

namespace Spec

/-- A declaration, an at-rule (an animation or another one) or a block, with what is inside. -/
inductive Shape where
  | decl
  | rule (animation : Bool) (inside : List Shape)
  | block (inside : List Shape)

mutual
/-- The arrangement of a part of a sheet. -/
def shapeOf : RBC → Shape
  | .attr _ _ => .decl
  | .rule c b => .rule (decide (c! "@keyframes" <+: c.flatten)) (shapesOf b)
  | .block _ b => .block (shapesOf b)
/-- The same for a list. -/
def shapesOf : List RBC → List Shape
  | [] => []
  | x :: xs => shapeOf x :: shapesOf xs
end

/-- The arrangement of a sheet. -/
def arrangement (s : Sheet) : List Shape := shapesOf (s.map ScopeContent.toRBC)

mutual
/-- The arrangement of the contents of a block in inline css. -/
def bodyShape : SItem → Shape
  | .decl _ _ => .decl
  | .rule _ _ b => .rule false (bodyShapes b)
  | .block _ b => .block (bodyShapes b)
/-- The same for a list. -/
def bodyShapes : List SItem → List Shape
  | [] => []
  | x :: xs => bodyShape x :: bodyShapes xs
end

/-- The first item is a declaration. -/
def startsWithDecl : List SItem → Bool
  | .decl _ _ :: _ => true
  | _ => false

/-- A declaration in front of a list whose first block it belongs to. -/
def intoFirst : List Shape → List Shape
  | .block a :: l => .block (.decl :: a) :: l
  | l => l

mutual
/-- The arrangement of an item of inline css outside of blocks. -/
def itemShape : SItem → Shape
  | .decl _ _ => .block [.decl]
  | .rule _ _ b => .rule false (itemShapes b)
  | .block _ b => .block (bodyShapes b)
/-- The arrangement of inline css: declarations that follow each other outside of blocks are as
in one block. -/
def itemShapes : List SItem → List Shape
  | [] => []
  | x :: xs => if startsWithDecl [x] && startsWithDecl xs then intoFirst (itemShapes xs) else itemShape x :: itemShapes xs
end

end Spec
