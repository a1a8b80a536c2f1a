import Verif.Spec.Page

/-!
# Words used for applications that only make styles
-/

namespace Manager

/-- The style that the operation asks for: the manager, and what identifies the style in
it (kind, prefix and css). `none` if it asks for none, also if the css is rejected. -/
def asks (s : St) : Op → Option (Nat × Key)
  | .create mh kind src _ =>
    match s.mgrOf mh, src.sheet? with
    | some i, some ast => (s.mgrs[i]?).map fun m => (i, kind.key m.pref ast)
    | _, _ => none
  | _ => none

/-- One more use, if it is the first of its style. -/
def addUse (l : List (Nat × Key)) : Option (Nat × Key) → List (Nat × Key)
  | none => l
  | some u => if u ∈ l then l else l ++ [u]

/-- The styles that a history asks for, each once, in the order of the first requests. -/
def firstUses (env : Env) : List Op → St → List (Nat × Key) → List (Nat × Key)
  | [], _, l => l
  | op :: ops, s, l => firstUses env ops (step env op s).1 (addUse l (asks s op))

/-- The operation neither unregisters nor loads styles, and if it asks for one it gets it. -/
def Smooth (env : Env) (s : St) (op : Op) : Prop :=
  (∀ h, op ≠ .unregister h) ∧ (∀ mh data, op ≠ .load mh data) ∧
    ((asks s op).isSome = true → ∃ h, (step env op s).2 = .style h)

/-- The class of the `n`-th style of the process, counting from 0. -/
def classNo (env : Env) (n : Nat) (u : Nat × Key) : Str := makeId u.2 (env.entropy n)

/-- Its text: that of the css, under the class unless the style is global. -/
def textNo (env : Env) (n : Nat) (u : Nat × Key) : Str :=
  u.2.ast.toStyleStr (if u.2.isGlobal then none else some (classNo env n u))

/-- The manager of the style puts its elements into container `i`. -/
def usesContainer (s : St) (i : Nat) (u : Nat × Key) : Bool :=
  (s.mgrs[u.1]?).any fun m => decide (m.container = some i)

end Manager
