import Verif.Spec.FirstUses

/-!
# Words used for what an application keeps in memory
-/

namespace Manager

/-- The styles that an operation asks for or brings with it: the manager, and what identifies the
style in it (kind, prefix and css). -/
def requested (s : St) (op : Op) : List (Nat × Key) :=
  match op with
  | .load mh data =>
    match s.mgrOf mh with
    | some i => data.map fun e => (i, e.key)
    | none => []
  | op => (asks s op).toList

/-- The same for a history. -/
def requests (env : Env) : List Op → St → List (Nat × Key)
  | [], _ => []
  | op :: ops, s => requested s op ++ requests env ops (step env op s).1

/-- The number of `Style` and `GlobalStyle` values that the program has. -/
def St.held (s : St) : Nat := (s.handles.filter Option.isSome).length

end Manager
