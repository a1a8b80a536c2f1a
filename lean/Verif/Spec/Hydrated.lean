import Verif.Spec.Page
import Verif.Spec.Cascade

/-!
# Pages that come from a server
-/

namespace Manager

open Spec

/-- No style with this id has been dropped. -/
def Remains (s : St) (id : Str) : Prop :=
  ∀ (p : Nat) (c : Content), s.heap[p]? = some c → c.id = id → s.Alive p

/-- A style element: its `data-style` attribute and its text. -/
def Child.pair? : Child → Option (Str × Str)
  | .style id text => some (id, text)
  | .other _ => none

open Classical in
/-- The style elements of the original page in container `i` that are still there: those of
styles that have been dropped are not. -/
noncomputable def remaining (d : Dom) (s : St) (i : Nat) : List Child :=
  (d.childrenOf i).filter (fun x => decide (∃ id, x.styleId? = some id ∧ Remains s id))

open Classical in
/-- Styles that the server created and that have not been dropped by the client. -/
noncomputable def undropped (s : St) (cs : List Content) : List Content :=
  cs.filter (fun c => decide (Remains s c.id))

end Manager
