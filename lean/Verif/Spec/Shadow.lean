import Verif.Spec.Page

/-!
# Containers outside the document: shadow roots and frames
-/

namespace Manager

open Spec

/-- Container `i` is a node the document does not reach by `query_selector`: a shadow root,
or the head of an `<iframe>`. -/
def Outside (d : Dom) (i : Nat) : Prop := ∃ ct, d[i]? = some ct ∧ ct.attached = false

open Classical in
/-- The styles that one operation makes for container `i`: they did not exist before it,
they are alive after it, and their elements belong into container `i`. -/
noncomputable def made (env : Env) (i : Nat) (op : Op) (s : St) : List Content :=
  ((step env op s).1.heap.zipIdx.filter fun x =>
    decide (s.heap.length ≤ x.2 ∧ (step env op s).1.Alive x.2 ∧ Mounts (step env op s).1 x.1 i)).map Prod.fst

/-- The styles that a history makes for container `i`, in the order of their creation. -/
noncomputable def everMade (env : Env) (i : Nat) : List Op → St → List Content
  | [], _ => []
  | op :: ops, s => made env i op s ++ everMade env i ops (step env op s).1

end Manager
