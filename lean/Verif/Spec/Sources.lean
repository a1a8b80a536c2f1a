import Verif.Model.Sources
import Verif.Spec.Context

/-!
# Words used in the properties of style sources
-/

namespace Sources

open Manager
open Context (Place)

/-- What is known from a history alone: the managers that the providers were last rendered
with, and for each source the css that was written and the manager that counted where and when
it was written; no manager for a source that was made outside of styled components. -/
structure Known where
  given : List (Option Nat)
  written : List (Option (Sheet × Option Nat))

/-- The manager that counts at a place, see `Context.ManagerAt`. -/
def managerAt (a : Context.App) (g : List (Option Nat)) : Place → Option Nat
  | .below j => g[j]?.join
  | .outside => a.dflt.bind a.st.mgrOf

/-- One more event; `a` is the state before and `a'` the state after it. -/
def Known.after (n : Known) (a a' : App) : Event → Known
  | .app e => { n with given := Context.givenAfter a.base n.given e }
  | .css w sheet => { n with written := n.written ++ [some (sheet, managerAt a'.base n.given w)] }
  | .plain sheet => { n with written := n.written ++ [some (sheet, none)] }
  | .clone k => { n with written := n.written ++ [n.written[k]?.join] }
  | .drop k => { n with written := n.written.set k none }
  | .classes k _ => { n with written := n.written.set k none }
  | .useStyle _ k _ => { n with written := n.written.set k none }
  | .style _ _ k _ => { n with written := n.written.set k none }

/-- What is known at the end of a history. -/
def known (env : Env) (o : Bool) : List Event → App → Known → Known
  | [], _, n => n
  | e :: es, a, n =>
    match event env o a e with
    | some a' => known env o es a' (n.after a a' e)
    | none => n

/-- What is known about a history from the start. -/
def knownOf (env : Env) (o : Bool) (d : Dom) (es : List Event) : Known := known env o es (App.init d) ⟨[], []⟩

/-- Somebody else than source `k` has a handle of manager `i`. -/
def App.elsewhere (a : App) (k i : Nat) : Prop :=
  ∃ h, a.base.st.mgrOf h = some i ∧ ∀ x, a.src k = some x → x.mgr ≠ some h

end Sources
