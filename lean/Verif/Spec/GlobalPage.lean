import Verif.Spec.Yew
import Verif.Spec.Page

/-!
# Words used for the page of an application of `Global` components
-/

namespace Yew

open Manager

/-- A mounted `Global`: its number, counting from the first one that was mounted, and what
it was last given: the manager in the context, the css and the rest of the source. -/
structure Shown where
  comp : Nat
  mgr : Option Nat
  css : Sheet
  tag : Nat
deriving DecidableEq

/-- The mounted components after one more event. A new one comes last, one that is given
something else becomes the last one, one that is given the same stays where it is. -/
def shownAfter (a : App) (l : List Shown) : Event → List Shown
  | .mount mh css tag _ => l ++ [⟨a.comps.length, a.st.mgrOf mh, css, tag⟩]
  | .update j mh css tag _ =>
    if ⟨j, a.st.mgrOf mh, css, tag⟩ ∈ l then l
    else l.filter (fun e => decide (e.comp ≠ j)) ++ [⟨j, a.st.mgrOf mh, css, tag⟩]
  | .unmount j => l.filter (fun e => decide (e.comp ≠ j))
  | .other _ => l

/-- The mounted components at the end of a history. -/
def shown (env : Env) (o : Order) : List Event → App → List Shown → List Shown
  | [], _, l => l
  | e :: es, a, l =>
    match event env o a e with
    | some a' => shown env o es a' (shownAfter a l e)
    | none => l

/-- The event gives no component the css that a mounted component under the same manager
has, unless the component is given what it has. -/
def NewCss (a : App) (l : List Shown) : Event → Prop
  | .mount mh css _ _ => ∀ e ∈ l, ¬ (e.mgr = a.st.mgrOf mh ∧ e.css = css)
  | .update j mh css tag _ =>
    ⟨j, a.st.mgrOf mh, css, tag⟩ ∈ l ∨ ∀ e ∈ l, ¬ (e.mgr = a.st.mgrOf mh ∧ e.css = css)
  | _ => True

instance (a : App) (l : List Shown) (e : Event) : Decidable (NewCss a l e) := by
  cases e <;> unfold NewCss <;> infer_instance

/-- So does every event of the history: mounted components have different css. -/
def Different (env : Env) (o : Order) : List Event → App → List Shown → Prop
  | [], _, _ => True
  | e :: es, a, l => NewCss a l e ∧ ∀ a', event env o a e = some a' → Different env o es a' (shownAfter a l e)

instance instDecidableDifferent (env : Env) (o : Order) : ∀ es a l, Decidable (Different env o es a l)
  | [], _, _ => isTrue trivial
  | e :: es, a, l =>
    match h : event env o a e with
    | none => decidable_of_iff (NewCss a l e) (by simp [Different, h])
    | some a' =>
      have := instDecidableDifferent env o es a' (shownAfter a l e)
      decidable_of_iff (NewCss a l e ∧ Different env o es a' (shownAfter a l e)) (by simp [Different, h])

/-- Nobody but `Global` components makes or loads styles. -/
def OnlyGlobalStyles (es : List Event) : Prop :=
  ∀ e ∈ es, (∀ mh kind src fault, e ≠ .other (.create mh kind src fault)) ∧ ∀ mh data, e ≠ .other (.load mh data)

/-- The manager of the component puts its elements into container `i`. -/
def Shown.within (e : Shown) (s : St) (i : Nat) : Bool :=
  e.mgr.any fun k => (s.mgrs[k]?).any fun m => decide (m.container = some i)

/-- The texts of the style elements among some nodes. -/
def styleTexts (cs : List Child) : List Str :=
  cs.filterMap fun
    | .style _ text => some text
    | .other _ => none

end Yew
