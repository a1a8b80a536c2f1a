import Verif.Proofs.LiteralErrors
import Verif.Props.Macros

/-!
# C90: the compile error of a macro with a string literal says what is wrong
-/

namespace Literal

open Output Spec

/-- **C90.** A call of a macro with a string literal ends with an error exactly if there is a
mistake in it, and the error is the one for the first mistake: in the first token, in the css
(with the report of C85), in the list of arguments from left to right (with the token or name
at which it is), in the texts of the css from left to right, or an argument that no text
mentions (with its name). -/
theorem C90_error_iff (order : Args → Args) (ts : List Tree) (err : LErr) :
    macroFnE order ts = .error err ↔ CallWrong order ts err := macroFnE_error order ts err

/-- **C90**: otherwise there is code, and it is the code that C39, C40 and C43 are about. The
order in which a `HashMap` is read does not matter. -/
theorem C90_code_iff (order : Args → Args) (hord : ∀ args a, a ∈ order args ↔ a ∈ args) (isExpr : RExpr → Bool)
    (text s : Str) (rest : List Tree) (code : CSheet) :
    macroFnE order (.lit text (some s) :: rest) = .ok code ↔
      Macro.expand isExpr (.lit text (some s) :: rest) = some code := by
  rw [Macros.expand_literal, macroFnE_ok order hord]

/-- **C90**: an argument that is reported as not used is an argument of the call, and no text
of the css mentions it. -/
theorem C90_unused (order : Args → Args) (hord : ∀ args a, a ∈ order args ↔ a ∈ args) (text s : Str) (rest : List Tree)
    (name : Str) (h : macroFnE order (.lit text (some s) :: rest) = .error (.unused name)) :
    ∃ sheet args e, Css.parse s = some sheet ∧ ArgTokens rest args ∧ (name, e) ∈ args ∧
      ∀ x ∈ texts sheet, ¬ Mentions x name := by
  have noargs : ∀ {known ts} {e : LErr}, ArgsWrong known ts e → e ≠ .unused name := by
    intro known ts e h
    induction h with
    | ident => simp
    | equals => simp
    | duplicate => simp
    | more _ _ _ _ _ _ _ _ _ _ _ ih => exact ih
  have := (C90_error_iff order _ _).1 h
  generalize hts : (Tree.lit text (some s) :: rest) = ts at this
  generalize he : LErr.unused name = err at this
  cases this with
  | noArgument => cases he
  | notString => cases he
  | css => cases he
  | comma => cases he
  | args _ _ _ _ _ _ h2 => exact absurd he.symm (noargs h2)
  | text _ _ _ _ _ _ _ _ _ _ _ _ _ _ h6 => cases h6 <;> cases he
  | unused _ _ _ sheet args b a c h1 h2 h3 h4 h5 h6 h7 =>
    cases hts
    cases he
    exact ⟨sheet, args, a.2, h1, h2, (hord args a).1 (by rw [h5]; simp), h7⟩

/-- One order. -/
private def same : Args → Args := fun a => a

/-- Non-vacuity: mistakes of every kind. `x`, `x = y` and so on are the arguments. -/
example :
    let lit := fun s => Tree.lit [] (some s)
    let x := Tree.ident (c! "x") false
    let y := Tree.ident (c! "y") false
    let eq := Tree.punct '=' false
    let co := Tree.punct ',' false
    macroFnE same [] = .error .noArgument ∧ macroFnE same [x] = .error (.notString x) ∧
    macroFnE same [lit (c! "a: ${x};"), eq] = .error (.comma eq) ∧
    macroFnE same [lit (c! "a: ${x};"), co, x, eq, y, co, eq] = .error (.ident eq) ∧
    macroFnE same [lit (c! "a: ${x};"), co, x, eq, y, co, y] = .error (.equals (c! "y")) ∧
    macroFnE same [lit (c! "a: ${x};"), co, x, eq, y, co, x, eq, eq, co, eq] = .error (.duplicate (c! "x")) ∧
    macroFnE same [lit (c! "a: ${x}; b: ${y} ${z}; c: ${u};"), co, x, eq, y, co, y, eq, x] =
      .error (.missing (c! "${y} ${z}")) ∧
    macroFnE same [lit (c! "a: ${x}; b: \"$1\" c; d: ${z};"), co, x, eq, y] = .error (.text (c! "\"$1\" c")) ∧
    macroFnE same [lit (c! "a: ${x};"), co, x, eq, y, co, y, eq, y] = .error (.unused (c! "y")) := by
  refine ⟨rfl, rfl, ?_, ?_, ?_, ?_, ?_, ?_, ?_⟩ <;> with_unfolding_all rfl

/-- Not so good: the error for a name that is not an argument shows the whole text, not the
name. Calls that lack different arguments give the same error. -/
theorem C90_limit_missing : ∀ order : Args → Args,
    macroFnE order [.lit [] (some (c! "a: ${x} ${y};")), .punct ',' false, .ident (c! "x") false, .punct '=' false] =
      .error (.missing (c! "${x} ${y}")) ∧
    macroFnE order [.lit [] (some (c! "a: ${x} ${y};")), .punct ',' false, .ident (c! "y") false, .punct '=' false] =
      .error (.missing (c! "${x} ${y}")) := by
  intro order
  constructor <;> with_unfolding_all rfl

/-- Not so good: a comma ends an argument, also one inside of `<>`. For `"a: ${x};", x =
f::<A, B>()` the error is that there is no `=` after `B`. -/
theorem C90_limit_generic : ∀ order : Args → Args,
    macroFnE order [.lit [] (some (c! "a: ${x};")), .punct ',' false, .ident (c! "x") false, .punct '=' false,
      .ident (c! "f") false, .punct ':' true, .punct ':' false, .punct '<' false, .ident (c! "A") false, .punct ',' false,
      .ident (c! "B") false, .punct '>' false, .group .paren []] = .error (.equals (c! "B")) := by
  intro order
  with_unfolding_all rfl

/-- Not so good: only the first mistake is reported, unlike with inline css (C88). -/
theorem C90_limit_first : ∀ order : Args → Args,
    macroFnE order [.lit [] (some (c! "a: ${x}; b: ${y};")), .punct ',' false, .ident (c! "z") false, .punct '=' false] =
      .error (.missing (c! "${x}")) := by
  intro order
  with_unfolding_all rfl

end Literal
