import Verif.Spec.Browser

/-! # Declarations that stand in blocks -/

namespace Spec

mutual
/-- A declaration stands in a block, or outside of the blocks if `inside` is set. -/
def declInBlock (inside : Bool) : RBC → Bool
  | .attr _ _ => inside
  | .rule _ b => declInBlockAny inside b
  | .block _ b => declInBlockAny true b
/-- The same for a list of pieces. -/
def declInBlockAny (inside : Bool) : List RBC → Bool
  | [] => false
  | x :: xs => declInBlock inside x || declInBlockAny inside xs
end

/-- The sheet has a declaration in a block, that is one under a selector or one that stands
alone. The others stand in at-rules only, such as those of an animation. -/
def hasBlockDecl (s : Sheet) : Bool := declInBlockAny false (s.map ScopeContent.toRBC)

end Spec
