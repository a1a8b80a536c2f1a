import Verif.Model.Threads

/-!
# What a thread asks for

Read off from the finished calls of one thread and their results only.
-/

namespace Manager

/-- The manager of a thread that writes to given style data: its prefix, the `StyleManager` values
that refer to it, and the styles the thread got from it, each once, in the order in which it got
them first. -/
structure Asked where
  pref : Str
  values : List Nat
  keys : List Key

/-- What is known after one more call of the thread, about the manager that writes to the style
data `l`. -/
def heard (l : Nat) (a : Option Asked) (e : Done) : Option Asked :=
  match e.op, e.out with
  | .newMgr pref _ _ writer, .mgr h => if writer = some l then some ⟨pref, [h], []⟩ else a
  | .cloneMgr mh, .mgr h => a.map fun a => if mh ∈ a.values then { a with values := a.values ++ [h] } else a
  | .create mh kind src _, .style _ =>
    a.map fun a =>
      match src.sheet? with
      | none => a
      | some ast =>
        if mh ∈ a.values ∧ kind.key a.pref ast ∉ a.keys then { a with keys := a.keys ++ [kind.key a.pref ast] } else a
  | _, _ => a

/-- The styles that a thread got from the manager that writes to `l`, from its calls. -/
def keysAsked (l : Nat) (calls : List Done) : List Key :=
  ((calls.foldl (heard l) none).map Asked.keys).getD []

/-- The call made the manager that writes to the style data `l`. -/
def Done.MakesFor (l : Nat) (e : Done) : Prop :=
  ∃ pref cont append h, e.op = .newMgr pref cont append (some l) ∧ e.out = .mgr h

/-- The call neither unregisters a style nor loads style data. -/
def Done.Plain (e : Done) : Prop := (∀ h, e.op ≠ .unregister h) ∧ ∀ mh data, e.op ≠ .load mh data

/-- The entry of a style whose class has the `n`-th value of `get_entropy`. -/
def entryNo (env : Env) (key : Key) (n : Nat) : Entry :=
  { key
    id := makeId key (env.entropy n)
    text := key.ast.toStyleStr (if key.isGlobal then none else some (makeId key (env.entropy n))) }

end Manager
