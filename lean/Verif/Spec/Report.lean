import Verif.Spec.Layout
import Verif.Model.Manager

/-!
# Places in a text
-/

namespace Spec

/-- `front` is the part of its line that stands before a place, `lines` are the whole lines
before that one. -/
structure LineOf (lines front : Str) : Prop where
  same : '\n' ∉ front
  whole : lines = [] ∨ ∃ l, lines = l ++ ['\n']

/-- No white space and no comment stands here. -/
def NoBlank (r : Str) : Prop := ∀ w t, r = w ++ t → Blank w → w = []

/-- No whole block and no whole at-rule stands here. -/
def NoItem (r : Str) : Prop := ∀ v t x, r = v ++ t → Layout v [x] → ∃ content, x = .block [] content

/-- What is written for one place: a number, the number of the line, the name of what is being
read, the line, and a caret below the place. A character that takes more than one byte moves
the caret by as many columns. -/
def caretEntry (idx line : Nat) (what front r : Str) : Str :=
  Manager.decimal idx ++ c! ": at line " ++ Manager.decimal line ++ c! ", in " ++ what ++ c! ":\n" ++
    Str.trimEnd (front ++ r.takeWhile (· != '\n')) ++ c! "\n" ++
    List.replicate (front.map Char.utf8Size).sum ' ' ++ c! "^\n\n"

end Spec
