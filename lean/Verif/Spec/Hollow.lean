import Verif.Spec.Layout

/-!
# Animations without declarations

For C16: clean sheets but for animations in which nothing is declared.
-/

namespace Spec

/-- What may stand in a sheet: blocks (also without a selector), conditional at-rules
around them, and `@keyframes`, which may have no frames or only frames without declarations. -/
inductive SoundScope : RBC → Prop
  | block (sels : List Selector) (content : List RBC) : (∀ s ∈ sels, CleanSel s.flatten) →
      (∀ x ∈ content, CleanItem x) → SoundScope (.block sels content)
  | rule (cond : List Str) (content : List RBC) : CleanAt conditionalNames cond.flatten →
      (∀ x ∈ content, SoundScope x) → SoundScope (.rule cond content)
  | keyframes (cond : List Str) (frames : List RBC) : CleanAt [c! "@keyframes"] cond.flatten →
      (∀ x ∈ frames, CleanFrameRule x) → SoundScope (.rule cond frames)

/-- Clean sheets, but for animations without declarations. -/
def SoundSheet (s : Sheet) : Prop := ∀ x ∈ s, SoundScope x.toRBC

/-- There is an animation in which nothing is declared, at the top or in at-rules. -/
inductive EmptyAnimation : RBC → Prop
  | here (cond : List Str) (frames : List RBC) : CleanAt [c! "@keyframes"] cond.flatten →
      (∀ fc content, .rule fc content ∈ frames → content = []) → EmptyAnimation (.rule cond frames)
  | inside (cond : List Str) (content : List RBC) (x : RBC) : CleanAt conditionalNames cond.flatten →
      x ∈ content → EmptyAnimation x → EmptyAnimation (.rule cond content)

mutual
/-- No selector is white space only; the frames of animations have no at-rules inside and no
comments between the steps. -/
def PlainIn : RBC → Prop
  | .attr _ _ => True
  | .rule cond content => (c! "@keyframes " <+: cond.flatten → ∀ x ∈ content, CleanFrameRule x) ∧ PlainAll content
  | .block sels content => (∀ s ∈ sels, s.flatten ≠ []) ∧ PlainAll content
/-- The same for a list. -/
def PlainAll : List RBC → Prop
  | [] => True
  | x :: xs => PlainIn x ∧ PlainAll xs
end

/-- The same for a sheet. -/
def PlainSheet (s : Sheet) : Prop := PlainAll (s.map ScopeContent.toRBC)

end Spec
