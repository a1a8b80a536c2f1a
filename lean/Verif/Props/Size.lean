import Verif.Model.Parser
import Verif.Proofs.Size
import Verif.Proofs.Ladder
import Verif.Props.Parser

/-!
# How long the generated text can be

`Spec/Size.lean` says what the size of a sheet is.
-/

open Spec Css

/-- **C106.** The text of a sheet has at most `n²` headers and at most `(k + 30) n³` characters, when
the sheet has size `n` and the class is `k` characters long. -/
theorem C106_length (s : Sheet) (cls : Option Str) (hcls : ∀ c ∈ cls, ':' ∉ c) :
    ∃ evs obs, s.toStyleStr cls = layout 0 evs ∧ readEvents [] evs = some (obs, []) ∧
      seenDecls obs = decls cls s ∧
      headerLines evs ≤ sizeOfSheet s ^ 2 ∧
      (s.toStyleStr cls).length ≤ ((cls.getD []).length + 30) * sizeOfSheet s ^ 3 := by
  obtain ⟨evs, obs, h1, h2, h3, h4, h5⟩ := SizeP.sheet_size s cls hcls
  refine ⟨evs, obs, h1, h2, h3, ?_, ?_⟩
  · rw [Nat.pow_two]; exact h4
  · rw [Nat.pow_succ, Nat.pow_two]; exact h5

/-- **C106** for a css text: what is printed for a text of `n` characters has at most `(k + 30) n³`. -/
theorem C106_css (css : Str) (s : Sheet) (cls : Option Str) (hcls : ∀ c ∈ cls, ':' ∉ c) (h : parse css = some s) :
    (s.toStyleStr cls).length ≤ ((cls.getD []).length + 30) * css.length ^ 3 := by
  obtain ⟨_, _, _, _, _, _, h1⟩ := C106_length s cls hcls
  refine Nat.le_trans h1 (Nat.mul_le_mul_left _ ?_)
  exact Nat.pow_le_pow_left (SizeP.parsed_size (C12_every_character css s h)) 3

/-- A text that parses, a class without a colon, and the size of the sheet. -/
example : (parse (c! "p{a:b;@media x{c:d}}")).map (fun s => (sizeOfSheet s, (s.toStyleStr (some (c! "c"))).length)) =
    some (18, 63) ∧ ':' ∉ (c! "c") := by decide +kernel

/-- **C106** is of the right order: at-rules inside each other, each with a declaration, in a block. The
sheets grow by 12 with every at-rule, and their texts with its third power. -/
theorem C106_cubic (cls : Option Str) (d : Nat) :
    sizeOfSheet [.block [[c! "p"]] (ladder d)] = 12 * d + 6 ∧
      2 * (d + 1) ^ 3 ≤ 3 * (Sheet.toStyleStr [.block [[c! "p"]] (ladder d)] cls).length + 2 * (d + 1) := by
  obtain ⟨h1, h2⟩ := LadderP.sheet_ladder cls d
  refine ⟨h1, ?_⟩
  rw [Nat.pow_succ, Nat.pow_two]
  exact h2

/-- The second of these sheets is that of a css text. -/
example : parse (c! "p{a:b;@media x{a:b;@media x{a:b;}}}") = some [.block [[c! "p"]] (ladder 2)] := by decide +kernel

/-- Its headers: every at-rule repeats all those around it. -/
example : Sheet.toStyleStr [.block [[c! "p"]] (ladder 1)] none =
    c! "p {\n    a: b;\n}\n@media x {\n    p {\n        a: b;\n    }\n}\n" := by decide +kernel
