import Verif.Spec.Manager
import Verif.Spec.Browser

/-!
# All style elements of a page
-/

namespace Manager

open Spec

open Classical in
/-- The styles that are alive and have their elements in container `i`, in the order in
which they were created. -/
noncomputable def living (s : St) (i : Nat) : List Content :=
  (List.range s.heap.length).filterMap fun p =>
    (s.heap[p]?).filter fun c => decide (s.Alive p ∧ Mounts s c i)

/-- What a browser reads from the style elements among some nodes, one after the other.
`none` if one of them cannot be read. -/
def pageReads : List Child → Option (List Decl)
  | [] => some []
  | .other _ :: cs => pageReads cs
  | .style _ text :: cs =>
    match browserReads text, pageReads cs with
    | some ds, some es => some (ds ++ es)
    | _, _ => none

/-- The declarations of a style: those of its sheet, under its class unless it is for the
whole page. -/
def Content.decls (c : Content) : List Decl :=
  Spec.decls (if c.key.isGlobal then none else some c.id) c.key.ast

end Manager
