import Verif.Model.Locks

/-!
# Words used for threads with their locks
-/

namespace Locks

open Manager

/-- The mutexes of the program. -/
inductive Mutex where
  /-- That of the parse cache. -/
  | cache
  /-- That of one `StaticReader` and `StaticWriter`. -/
  | data (l : Nat)

/-- The thread has the mutex. -/
def Sys.Owns (x : Sys) (t : Nat) : Mutex → Prop
  | .cache => x.cs.lock = some t
  | .data l => x.lock l = some t

/-- The thread is inside of a call. -/
def Sys.Inside (x : Sys) (t : Nat) : Prop := x.pc t ≠ .idle

/-- The thread can go on: its next step is not just waiting. -/
def Sys.CanMove (env : Env) (x : Sys) (t : Nat) : Prop := ∀ op, x.step env (t, op) ≠ x

/-- Only calls that have begun go on: no thread begins a new call and none is given a step
while it has to wait. -/
def OnlyFinishing (env : Env) : Sys → List (Nat × Op) → Prop
  | _, [] => True
  | x, c :: cs => x.Inside c.1 ∧ x.CanMove env c.1 ∧ OnlyFinishing env (x.step env c) cs

/-- The call that a thread is in. -/
def Phase.call : Phase → Option Op
  | .idle => none
  | .source mh kind css fault => some (.create mh kind (.text css) fault)
  | .made mh kind src fault _ => some (.create mh kind src fault)
  | .check p | .checked p | .locked p _ | .pushed p _ => some p.op

/-- The calls that thread `t` begins in a schedule, in order: those after which it is inside of
a call, or has finished one. -/
def begun (env : Env) (t : Nat) : Sys → List (Nat × Op) → List Op
  | _, [] => []
  | x, c :: cs =>
    (if c.1 = t ∧ (x.pc t).call = none ∧
        (((x.step env c).pc t).call ≠ none ∨ (x.step env c).done.length ≠ x.done.length) then [c.2] else []) ++
      begun env t (x.step env c) cs

end Locks
