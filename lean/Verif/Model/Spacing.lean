/-!
# The spacing iterator

Models `packages/stylist-macros/src/spacing_iterator.rs`. The underlying iterator is a
list; the spacer is an `FnMut`: a function with a state of its own.
-/

namespace Spacing

/-- A spacer `FnMut(&I, &I) -> Option<I>`. -/
abbrev Spacer (σ α : Type) := σ → α → α → Option α × σ

/-- `SpacingState` (`spacing_iterator.rs` 27-34). -/
inductive State (α : Type) where
  | notStarted
  | atItemSpaced (item spacing next : α)
  | atItem (item next : α)
  | atSpacing (spacing next : α)
  | atEnd (item : α)
  | done

/-- `Spacing` (`spacing_iterator.rs` 81-85): what the iterator still has, the state and the
spacer. -/
structure Iter (σ α : Type) where
  it : List α
  state : State α
  spacer : σ

variable {σ α : Type} (f : Spacer σ α)

/-- `spaced_with` (`spacing_iterator.rs` 12-22). -/
def spacedWith (it : List α) (s : σ) : Iter σ α := ⟨it, .notStarted, s⟩

/-- `Iterator::next` of a list. -/
def pop : List α → Option α × List α
  | [] => (none, [])
  | x :: xs => (some x, xs)

/-- `maybe_spaced` (`spacing_iterator.rs` 37-53). -/
def maybeSpaced (item : α) (next : Option α) (s : σ) : State α × σ :=
  match next with
  | none => (.atEnd item, s)
  | some next =>
    match f s item next with
    | (none, s) => (.atItem item next, s)
    | (some spacing, s) => (.atItemSpaced item spacing next, s)

/-- `advance` (`spacing_iterator.rs` 55-78) for states other than `NotStarted`, which
`maybe_spaced` never returns. -/
def advanceStarted (st : State α) (it : List α) (s : σ) : Option α × Iter σ α :=
  match st with
  | .notStarted => (none, ⟨it, .done, s⟩)
  | .done => (none, ⟨it, .done, s⟩)
  | .atEnd item => (some item, ⟨it, .done, s⟩)
  | .atSpacing spacing next =>
    let (n, it) := pop it
    let (st, s) := maybeSpaced f next n s
    (some spacing, ⟨it, st, s⟩)
  | .atItem item next =>
    let (n, it) := pop it
    let (st, s) := maybeSpaced f next n s
    (some item, ⟨it, st, s⟩)
  | .atItemSpaced item spacing next => (some item, ⟨it, .atSpacing spacing next, s⟩)

/-- `advance` (`spacing_iterator.rs` 55-78), as called by `Iterator::next` (94-100). -/
def next (i : Iter σ α) : Option α × Iter σ α :=
  match i.state with
  | .notStarted =>
    match pop i.it with
    | (none, it) => (none, ⟨it, .done, i.spacer⟩)
    | (some item, it) =>
      let (n, it) := pop it
      let (st, s) := maybeSpaced f item n i.spacer
      advanceStarted f st it s
  | st => advanceStarted f st i.it i.spacer

/-- `collect`, up to a number of calls of `next`. -/
def collect : Nat → Iter σ α → List α
  | 0, _ => []
  | n + 1, i =>
    match next f i with
    | (none, _) => []
    | (some x, i) => x :: collect n i

/-- `it.spaced_with(spacer).collect()`; twice as many calls as there are items suffice. -/
def spaced (it : List α) (s : σ) : List α := collect f (2 * it.length) (spacedWith it s)

end Spacing
