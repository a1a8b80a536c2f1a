import Verif.Proofs.AcceptedBody

/-!
# Exactly the css that is accepted

C103: the grammar of `Spec/Accepted` and the parser agree on every text.
-/

open Spec Css

/-! ## C103 -/

/-- **C103.** A text is accepted, and read as a sheet, if and only if the grammar says so. -/
theorem C103_accepted (css : Str) (s : Sheet) : parse css = some s ↔ Accepted css s := AcceptedP.parse_iff

/-- A text is rejected if and only if the grammar has no sheet for it. -/
theorem C103_rejected (css : Str) : parse css = none ↔ ∀ s, ¬ Accepted css s := by
  constructor
  · intro h s hs
    rw [(C103_accepted css s).2 hs] at h
    cases h
  · intro h
    cases hp : parse css with
    | none => rfl
    | some s => exact absurd ((C103_accepted css s).1 hp) (h s)

/-- The grammar is not ambiguous: a text is not read in two ways. -/
theorem C103_one_reading (css : Str) (s s' : Sheet) (h : Accepted css s) (h' : Accepted css s') : s = s' := by
  rw [← C103_accepted] at h h'
  rw [h] at h'
  exact Option.some.inj h'

/-- All forms in one text. In `.a` the comment stands in for the semicolon. -/
example : Accepted (c! " margin: 0; .a, .b:hover { top: 0 /* x */ left: ${l}; @media print { top: 1px } }
@supports (a: b) { color: red; } @keyframes k { 0%, 50% { top: 0 } }")
    [.block [] [.attr (c! "margin") [c! "0"]],
     .block [[c! ".a"], [c! ".b:hover"]] [.attr (c! "top") [c! "0"], .attr (c! "left") [c! "${l}"],
       .rule [c! "@media ", c! "print"] [.attr (c! "top") [c! "1px"]]],
     .rule [c! "@supports ", c! "(a: b)"] [.block [] [.attr (c! "color") [c! "red"]]],
     .rule [c! "@keyframes ", c! "k"] [.rule [c! "0%, 50%"] [.attr (c! "top") [c! "0"]]]] := by
  rw [← C103_accepted]
  decide +kernel

/-- Texts that are not of the grammar: a block that is not closed, a brace too many, a rule of
another name, a value that is missing. -/
example : (∀ s, ¬ Accepted (c! ".a { top: 0;") s) ∧ (∀ s, ¬ Accepted (c! ".a { top: 0; }}") s) ∧
    (∀ s, ¬ Accepted (c! "@page x { top: 0; }") s) ∧ ∀ s, ¬ Accepted (c! "top: ;") s := by
  refine ⟨?_, ?_, ?_, ?_⟩ <;> rw [← C103_rejected] <;> decide +kernel

/-- The steps of the grammar can be taken by hand: two declarations in a row. -/
example : DeclsAt (c! " a : b ; c:d;") [(c! "a", [c! "b"]), (c! "c", [c! "d"])] [] := by
  rw [← AcceptedP.decls_iff]
  decide +kernel
