import Verif.Model.Context
import Verif.Spec.Manager

/-!
# Words used in the properties of providers and of the default manager
-/

namespace Context

open Manager

/-- The managers that the providers were last rendered with after one more event, in order of
mounting; `none` for an unmounted one. -/
def givenAfter (a : App) (g : List (Option Nat)) : Event → List (Option Nat)
  | .mount mh _ => g ++ [a.st.mgrOf mh]
  | .rerender j mh => g.set j (a.st.mgrOf mh)
  | .unmount j => g.set j none
  | _ => g

/-- The managers that the providers were last rendered with, at the end of a history. -/
def given (env : Env) (o : Bool) : List Event → App → List (Option Nat) → List (Option Nat)
  | [], _, g => g
  | e :: es, a, g =>
    match event env o a e with
    | some a' => given env o es a' (givenAfter a g e)
    | none => g

/-- A property of every event of a history: the state before and the event. -/
def AlongEvents (env : Env) (o : Bool) (P : App → Event → Prop) : List Event → App → Prop
  | [], _ => True
  | e :: es, a => P a e ∧ ∀ a', event env o a e = some a' → AlongEvents env o P es a'

/-- Somebody calls `unregister` on a style of manager `i` with key `k`. -/
def Unregs (i : Nat) (k : Key) (a : App) (e : Event) : Prop := ∃ op, e = .other op ∧ Unregisters op a.st i k

/-- The default manager has been made, and is manager `i`. -/
def App.isDefault (a : App) (i : Nat) : Prop := ∃ mh, a.dflt = some mh ∧ a.st.mgrOf mh = some i

/-- The manager that counts at a place: the one that the provider was last rendered with, or
the default manager. `g`: what the providers were rendered with (`given`). -/
def ManagerAt (a : App) (g : List (Option Nat)) : Place → Nat → Prop
  | .below j, i => g[j]? = some (some i)
  | .outside, i => a.isDefault i

/-- A component at place `w` uses css, by `use_style` or by `css!`, and gets the class `cls`;
`a'` is the state after that. -/
def Gives (env : Env) (a : App) (w : Place) (src : Source) (fault : Bool) (a' : App) (cls : Str) : Prop :=
  (∃ st, useStyle env a w src fault = some (a', st) ∧ a'.st.className st = some cls) ∨
  classes env a w src fault = some (a', cls)

end Context
