import Verif.Model.Yew
import Verif.Spec.Manager

/-!
# Words used in the properties of Yew components
-/

namespace Yew

open Manager

/-- What the user last passed to a `Global`: the manager in the context and the css. -/
abbrev Props := Option Nat × Sheet

/-- The props of the mounted components after one more event, in order of mounting;
`none` for an unmounted one. -/
def propsAfter (a : App) (ps : List (Option Props)) : Event → List (Option Props)
  | .mount mh css _ _ => ps ++ [some (a.st.mgrOf mh, css)]
  | .update j mh css _ _ => ps.set j (some (a.st.mgrOf mh, css))
  | .unmount j => ps.set j none
  | .other _ => ps

/-- The props of the mounted components at the end of a history. -/
def props (env : Env) (o : Order) : List Event → App → List (Option Props) → List (Option Props)
  | [], _, ps => ps
  | e :: es, a, ps =>
    match event env o a e with
    | some a' => props env o es a' (propsAfter a ps e)
    | none => ps

/-- What identifies the global style with this css in a manager. -/
def globalKey (m : Mgr) (css : Sheet) : Key := { isGlobal := true, pref := m.pref, ast := css }

/-- The operation asks manager `i` for the style with key `k`: it creates it, or loads
style data with it. -/
def Makes (op : Op) (s : St) (i : Nat) (k : Key) : Prop :=
  (∃ mh kind src fault m ast, op = .create mh kind src fault ∧ s.mgrOf mh = some i ∧ s.mgrs[i]? = some m ∧
    src.sheet? = some ast ∧ kind.key m.pref ast = k) ∨
  (∃ mh data e, op = .load mh data ∧ s.mgrOf mh = some i ∧ e ∈ data ∧ e.key = k)

/-- A property of every event of a history: the state before and the event. -/
def AlongEvents (env : Env) (o : Order) (P : App → Event → Prop) : List Event → App → Prop
  | [], _ => True
  | e :: es, a => P a e ∧ ∀ a', event env o a e = some a' → AlongEvents env o P es a'

/-- The event is not a request for the style by somebody who is no `Global` component. -/
def OnlyGlobals (i : Nat) (k : Key) (a : App) (e : Event) : Prop :=
  ∀ op, e = .other op → ¬ Makes op a.st i k

/-- The component keeps the style with key `k` of manager `i`. -/
def Uses (a : App) (c : Comp) (i : Nat) (k : Key) : Prop :=
  a.st.mgrOf c.mh = some i ∧ ∃ m, a.st.mgrs[i]? = some m ∧ globalKey m c.css = k

/-- The event unregisters the style with key `k` of manager `i`: a `Global` with it goes
or gets other props, or somebody else calls `unregister`. -/
def Closes (i : Nat) (k : Key) (a : App) : Event → Prop
  | .mount _ _ _ _ => False
  | .update j mh css tag _ => ∃ c, a.comps[j]? = some (some c) ∧ Uses a c i k ∧
      ¬ (a.st.mgrOf mh = some i ∧ css = c.css ∧ tag = c.tag)
  | .unmount j => ∃ c, a.comps[j]? = some (some c) ∧ Uses a c i k
  | .other op => Unregisters op a.st i k

/-- In a history of renders, nobody unregisters the style with key `k` of manager `i`. -/
def NeverUnregistered (env : Env) (i : Nat) (k : Key) : List Act → St → Prop
  | [], _ => True
  | a :: as, s => (∀ op, a = .other op → ¬ Unregisters op s i k) ∧ NeverUnregistered env i k as (act env s a)

end Yew
