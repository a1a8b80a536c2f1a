import Verif.Proofs.Depth
import Verif.Props.Layout

/-!
# The stack of the css parser

C95: how much stack the parser needs depends on how deep css is nested, and on nothing else.
-/

namespace Depth

open Spec

/-- **C95.** On any stack, the parser gives its result or exhausts the stack: a smaller stack
never changes what is read. -/
theorem C95_result (n : Nat) (css : Str) : parse n css = none ∨ parse n css = some (Css.parse css) :=
  DepthP.parse_ok n css

/-- **C95.** Any text, also one that is rejected, is read on a stack with room for one call
more than there are opening braces, however long it is. -/
theorem C95_enough (n : Nat) (css : Str) (h : css.count '{' < n) : parse n css = some (Css.parse css) := by
  rcases DepthP.parse_ok n css with e | e
  · have := DepthP.sheet_count n css (DepthP.parse_out.1 e)
    omega
  · exact e

/-- **C95.** The stack is exhausted exactly by css that is nested deeper than there is room:
css whose braces are open `d` at a time needs room for `d + 1` calls, whatever else it
contains. -/
theorem C95_exact (n : Nat) (hn : 0 < n) (css : Str) (s : Sheet) (h : Css.parse css = some s) :
    parse n css = some (some s) ↔ nesting s < n := by
  have key := DepthP.parse_exact hn h
  rcases DepthP.parse_ok n css with e | e
  · have := key.1 e
    rw [e]
    constructor
    · intro h; cases h
    · intro h; omega
  · rw [e, h]
    have : ¬ n ≤ nesting s := fun h => by rw [key.2 h] at e; cases e
    simp only [true_iff]
    omega

-- three blocks after each other, with many declarations, need as much as one; an animation in
-- an at-rule needs more
set_option maxRecDepth 16000 in
example :
    Css.parse (c! "a{b:c;d:e;f:g}h{i:\"{{{{\"}/*{{{*/j{k:l}") =
      some [.block [[c! "a"]] [.attr (c! "b") [c! "c"], .attr (c! "d") [c! "e"], .attr (c! "f") [c! "g"]],
        .block [[c! "h"]] [.attr (c! "i") [c! "\"{{{{\""]], .block [[c! "j"]] [.attr (c! "k") [c! "l"]]] ∧
    (parse 1 (c! "a{b:c;d:e;f:g}h{i:\"{{{{\"}/*{{{*/j{k:l}") = none) ∧
    (parse 2 (c! "a{b:c;d:e;f:g}h{i:\"{{{{\"}/*{{{*/j{k:l}")).isSome = true ∧
    (parse 3 (c! "@media a{@keyframes b{from{c:d}}}") = none) ∧
    (parse 4 (c! "@media a{@keyframes b{from{c:d}}}")).isSome = true := by decide +kernel

-- rejected css
example : (parse 2 (c! "@media a{b{c:d") = none) ∧ parse 3 (c! "@media a{b{c:d") = some none := by decide +kernel

/-- `n` times `@media a{`, and all of them closed. -/
def nested : Nat → Str
  | 0 => []
  | n + 1 => c! "@media a{" ++ nested n ++ c! "}"

/-- Its sheet. -/
def nestedSheet : Nat → Sheet
  | 0 => []
  | n + 1 => [.rule [c! "@media ", c! "a"] ((nestedSheet n).map ScopeContent.toRBC)]

theorem nested_layout : ∀ n, Layout (nested n) (nestedSheet n)
  | 0 => .nil [] .nil
  | n + 1 => by
    have := Layout.rule ⟨[], c! "@media", c! "a"⟩ (nested n) [] _ [] ⟨.nil, by decide, by decide, by decide, by decide⟩
      (nested_layout n) (.nil [] .nil)
    simpa [AtSrc.text, AtSrc.value, nested, nestedSheet, show Str.trim ['a'] = ['a'] by decide] using this

theorem nested_nesting : ∀ n, nesting (nestedSheet n) = n
  | 0 => rfl
  | n + 1 => by
    have := nested_nesting n
    unfold nesting at this ⊢
    simp only [nestedSheet, List.map_cons, List.map_nil, ScopeContent.toRBC, bracesRBCs, bracesRBC, this]
    omega

/-- **C95.** No stack is enough for all css: for any room there is a valid text of ten
characters for each call that aborts the program. A user cannot catch this; `parse` gives no
error. -/
theorem C95_limit_unbounded (n : Nat) (hn : 0 < n) :
    ∃ css s, css.length = 10 * n ∧ Css.parse css = some s ∧ parse n css = none := by
  have hp := C59_layout_partial _ _ (nested_layout n)
  refine ⟨nested n, nestedSheet n, ?_, hp, (DepthP.parse_exact hn hp).2 (by rw [nested_nesting]; exact Nat.le_refl _)⟩
  clear hn hp
  induction n with
  | zero => rfl
  | succ n ih => simp [nested, ih]; omega

end Depth
