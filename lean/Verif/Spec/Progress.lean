import Verif.Model.Cache

/-!
# Words used for calls of `str::parse::<Sheet>()` in several threads
-/

namespace Cache

/-- The thread is inside of a call. -/
def State.Inside (st : State) (t : Nat) : Prop := st.pc t ≠ .idle

/-- The thread can go on: its next step is not just waiting. -/
def State.CanMove (st : State) (t : Nat) : Prop := ∀ arg, (st.step ⟨t, arg⟩).pc t ≠ st.pc t

/-- The argument of the call that a thread is in. -/
def Pc.arg : Pc → Option Str
  | .idle => none
  | .wantLock s | .locked s | .missed s | .parsed s _ | .returning s _ => some s

/-- How often a thread is given a step. -/
def turns (t : Nat) (cs : List Choice) : Nat := (cs.filter fun c => c.t = t).length

/-- The arguments of the calls that are begun. -/
def begun : State → List Choice → List Str
  | _, [] => []
  | st, c :: cs => (if st.pc c.t = .idle then [c.arg] else []) ++ begun (st.step c) cs

/-- The number of steps that are more than just waiting. -/
def moved : State → List Choice → Nat
  | _, [] => 0
  | st, c :: cs => (if (st.step c).pc c.t = st.pc c.t then 0 else 1) + moved (st.step c) cs

/-- Only calls that have begun go on: no thread begins a new call and none is given a step
while it has to wait. -/
def OnlyFinishing : State → List Choice → Prop
  | _, [] => True
  | st, c :: cs => st.Inside c.t ∧ st.CanMove c.t ∧ OnlyFinishing (st.step c) cs

end Cache
