import Verif.Model.Builder

/-!
# What a builder was told

The last call of each kind, and what is taken if there was none.
-/

namespace Manager

/-- The prefix that a call sets. -/
def BuilderCall.pref? : BuilderCall → Option Str
  | .pref v => some v
  | _ => none

/-- The container that a call sets. -/
def BuilderCall.container? : BuilderCall → Option Nat
  | .container n => some n
  | _ => none

/-- The end of the container that a call sets. -/
def BuilderCall.append? : BuilderCall → Option Bool
  | .append v => some v
  | _ => none

/-- The writer that a call sets. -/
def BuilderCall.writer? : BuilderCall → Option Nat
  | .writer w => some w
  | _ => none

/-- The last prefix that was told, or `stylist`. -/
def toldPrefix (calls : List BuilderCall) : Str := ((calls.filterMap BuilderCall.pref?).getLast?).getD (c! "stylist")

/-- The last container that was told. -/
def toldContainer (calls : List BuilderCall) : Option Nat := (calls.filterMap BuilderCall.container?).getLast?

/-- Whether to append: as told last, or yes. -/
def toldAppend (calls : List BuilderCall) : Bool := ((calls.filterMap BuilderCall.append?).getLast?).getD true

/-- The last writer that was told. -/
def toldWriter (calls : List BuilderCall) : Option Nat := (calls.filterMap BuilderCall.writer?).getLast?

/-- The container that a manager uses: the last one that was told, or the head of the document in a
browser, and elsewhere none. -/
def usedContainer (env : Env) (calls : List BuilderCall) : Option Nat :=
  match toldContainer calls with
  | some k => some k
  | none => if env.wasm then env.head else none

end Manager
