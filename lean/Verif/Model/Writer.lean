import Verif.Model.Markup

/-!
# Static markup, for a writer that may fail

Models `StyleData::write_static_markup` (`packages/stylist/src/manager/ssr.rs` 46-63) call by
call of `fmt::Write::write_str`. `Model/Markup` has the text for a writer that never fails.
-/

namespace Manager

/-- `W: fmt::Write` (`manager/ssr.rs` 48-50): what `write_str` does to a writer in some state, and
whether it returns `Ok`. A writer may have taken a part of the text when it fails, or take
nothing and return `Ok`. Simplification: `write_fmt` is the one of the standard library. -/
structure Writer (σ : Type) where
  writeStr : σ → Str → σ × Bool

/-- `write!` with the given literal parts and arguments (`core::fmt::write`): they are written one
after the other, up to the first error. -/
def Writer.writeAll {σ : Type} (w : Writer σ) : List Str → σ → σ × Bool
  | [], st => (st, true)
  | s :: ss, st =>
    match w.writeStr st s with
    | (st, true) => w.writeAll ss st
    | (st, false) => (st, false)

/-- The loop of `write_static_markup` (`manager/ssr.rs` 51-61): three `write!`, each with `?`. -/
def Writer.markup {σ : Type} (w : Writer σ) (esc : Str → Str) : List Entry → σ → σ × Bool
  | [], st => (st, true)
  | e :: es, st =>
    match w.writeAll [c! "<style data-style=\"", e.id, c! "\">"] st with
    | (st, false) => (st, false)
    | (st, true) =>
      match w.writeAll [esc e.text] st with
      | (st, false) => (st, false)
      | (st, true) =>
        match w.writeAll [c! "</style>"] st with
        | (st, false) => (st, false)
        | (st, true) => w.markup esc es st

end Manager
