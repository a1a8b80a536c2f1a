import Verif.Proofs.StepsRec

/-!
# The work of the css parser

C84: css of any shape is read in a number of steps that is polynomial in its length, however
deep its blocks are nested and wherever it is broken.
-/

namespace Steps

/-- **C84.** The parser with a counter is the parser: it gives the same result for every
text. -/
theorem C84_result (css : Str) : (parse css).1 = Css.parse css := parse_res css

/-- **C84.** Reading a text, with or without success, takes at most a constant times the cube
of its length: no nesting and no error makes the parser go back again and again. -/
theorem C84_polynomial (css : Str) :
    (parse css).2 ≤ 2000000 * ((css.length + 1) * (css.length + 1) * (css.length + 1)) := parse_steps css

/-- A text that is nested `n` times, and not closed: `@media a{@media a{…`. -/
private def deep : Nat → Str
  | 0 => c! "b{c:d"
  | n + 1 => c! "@media a{" ++ deep n

/-- The same text, closed. -/
private def closed (n : Nat) : Str := deep n ++ c! "}" ++ List.replicate n '}'

-- nested at-rules, closed or cut off: one more level adds about as much as the level before it
set_option maxRecDepth 16000 in
example : (parse (closed 3)).1.isSome = true ∧ (parse (deep 3)).1 = none ∧
    (parse (closed 1)).2 = 1354 ∧ (parse (closed 2)).2 = 1938 ∧ (parse (closed 3)).2 = 2532 := by decide +kernel

end Steps
