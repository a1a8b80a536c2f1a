import Verif.Model.Threads
import Verif.Model.Cache

/-!
# Threads, their locks and the parse cache together

`Model/Threads` makes two steps of a creation, and parses without the cache. Here a thread stops
at every place where it meets other threads: at each step of `Sheet::from_str` (`Model/Cache`),
when the css is parsed and when a debug build parses the generated text, at the counter, and
before, inside of and after the mutex of the style data. What a thread does in between touches
only what belongs to it.

The style data behind a mutex are in `data`, and `dead` says whether it is poisoned. The fields
`entries` and `poisoned` of the logs in `st` are not what the program has but history variables,
kept by `finish`: the entries of the creations that are finished, and whether one of them
panicked. What is read comes from `data` and `dead`.
-/

namespace Locks

open Manager

/-- Where a thread is. -/
inductive Phase where
  | idle
  /-- In `TryInto<StyleSource>` (`style_src.rs` 82-118), which calls `Sheet::from_str`. -/
  | source (mh : Nat) (kind : Kind) (css : Str) (fault : Bool)
  /-- The sheet is there, or the error; before `get_or_register_style` (`style.rs` 83-162). -/
  | made (mh : Nat) (kind : Kind) (src : Source) (fault : Bool) (sheet : Option Sheet)
  /-- In the `parse` of debug builds (`manager/mod.rs` 173-176). -/
  | check (p : Pending)
  /-- Before `self.style_data()` (`manager/mod.rs` 188). -/
  | checked (p : Pending)
  /-- Has the mutex, before the push (`manager/mod.rs` 190). -/
  | locked (p : Pending) (l : Nat)
  /-- Has pushed, before `reg.register` (`manager/mod.rs` 197). -/
  | pushed (p : Pending) (l : Nat)

/-- All threads. -/
structure Sys where
  /-- What belongs to single threads, the counter and the page. -/
  st : St
  /-- The thread each manager was made in. -/
  owner : Nat → Nat
  /-- The parse cache, its mutex, and where the threads are in `from_str`. -/
  cs : Cache.State
  /-- Who has the mutex of the style data. -/
  lock : Nat → Option Nat
  /-- The style data behind the mutex. -/
  data : Nat → List Entry
  /-- The mutex is poisoned. -/
  dead : Nat → Bool
  pc : Nat → Phase
  /-- For the properties: the calls finished so far. -/
  done : List Done

/-- No thread has done anything. -/
def Sys.init (d : Dom) : Sys :=
  { st := St.init d, owner := fun _ => 0, cs := Cache.State.init, lock := fun _ => none, data := fun _ => [],
    dead := fun _ => false, pc := fun _ => .idle, done := [] }

/-- Thread `t` goes to `ph`. -/
def Sys.goto (x : Sys) (t : Nat) (ph : Phase) : Sys := { x with pc := fun u => if u = t then ph else x.pc u }

/-- Thread `t` returns from `op` with `out`. -/
def Sys.ret (x : Sys) (t : Nat) (op : Op) (out : Out) : Sys :=
  { x.goto t .idle with done := x.done ++ [⟨t, op, out⟩] }

/-- A function on numbers with a new value at `l`. -/
def upd {α : Type} (f : Nat → α) (l : Nat) (a : α) : Nat → α := fun k => if k = l then a else f k

/-- The id of the new style (`manager/mod.rs` 163-166). -/
def newId (env : Env) (p : Pending) : Str := makeId p.key (env.entropy p.n)

/-- Its text (`manager/mod.rs` 169). -/
def newText (env : Env) (p : Pending) : Str :=
  p.key.ast.toStyleStr (if p.key.isGlobal then none else some (newId env p))

/-- The entry that is pushed (`manager/mod.rs` 190-194). -/
def newEntry (env : Env) (p : Pending) : Entry := { key := p.key, id := newId env p, text := newText env p }

/-- The style data that manager `i` writes to (`manager/ssr.rs` 83-89). -/
def logOf (s : St) (i : Nat) : Option Nat := (s.mgrs[i]?).bind Mgr.log

/-- What is left of `get_or_register_style` after the check: `mount` and `register`
(`manager/mod.rs` 178-207), in an environment in which nothing is checked. -/
def finish (env : Env) (p : Pending) (s : St) : St × Out := p.finish { env with debugParser := false } s

/-- The result that `from_str` has just returned. -/
def lastResult (cs : Cache.State) : Option Sheet := (cs.log.getLast?).bind Prod.snd

/-- A call begins. Reading style data (`manager/ssr.rs` 20-25, 83-89) locks, copies and unlocks
without meeting anyone in between: one step, for which the mutex has to be free. -/
def Sys.begin (env : Env) (t : Nat) (op : Op) (x : Sys) : Sys :=
  let whole : Sys :=
    let r := step env op x.st
    { x with
      st := r.1
      owner := match op with
        | .newMgr _ _ _ _ => fun j => if j = x.st.mgrs.length then t else x.owner j
        | _ => x.owner
      done := x.done ++ [⟨t, op, r.2⟩] }
  match op with
  | .create mh kind src fault =>
    match x.st.mgrOf mh with
    | none => whole
    | some _ =>
      match src with
      | .text css => x.goto t (.source mh kind css fault)
      | .sheet s => x.goto t (.made mh kind src fault (some s))
  | .readData l =>
    match x.st.logs[l]? with
    | none => whole
    | some log =>
      if log.readerTaken then whole
      else
        match x.lock l with
        | some _ => x
        | none =>
          { x with
            st := { x.st with logs := x.st.logs.set l { log with readerTaken := true } }
            done := x.done ++ [⟨t, op, .data (if x.dead l then [] else x.data l)⟩] }
  | .styleData mh =>
    match x.st.mgrOf mh with
    | none => whole
    | some i =>
      match logOf x.st i with
      | none => whole
      | some l =>
        match x.lock l with
        | some _ => x
        | none => { x with done := x.done ++ [⟨t, op, if x.dead l then .panic else .data (x.data l)⟩] }
  | _ => whole

/-- One step of thread `choice.1`. If it is in no call, it calls `choice.2`, unless that uses a
manager or a style of another thread. -/
def Sys.step (env : Env) (choice : Nat × Op) (x : Sys) : Sys :=
  let t := choice.1
  match x.pc t with
  | .idle => if (choice.2.boundTo x.st).all (fun i => x.owner i = t) then x.begin env t choice.2 else x
  | .source mh kind css fault =>
    let cs := x.cs.step ⟨t, css⟩
    match cs.pc t with
    | .idle => { x.goto t (.made mh kind (.text css) fault (lastResult cs)) with cs }
    | _ => { x with cs }
  | .made mh kind src fault none => x.ret t (.create mh kind src fault) (.err .parse)
  | .made mh kind src fault (some ast) =>
    match lookup mh kind (.sheet ast) fault x.st with
    | none =>
      let r := create env mh kind (.sheet ast) fault x.st
      { x.ret t (.create mh kind src fault) r.2 with st := r.1 }
    | some p =>
      -- `CTR.fetch_add(1, Ordering::SeqCst)` (`utils.rs` 15).
      let p := { p with src }
      { x.goto t (if env.debugParser then .check p else .checked p) with st := { x.st with ctr := x.st.ctr + 1 } }
  | .check p =>
    let cs := x.cs.step ⟨t, newText env p⟩
    match cs.pc t with
    | .idle =>
      match lastResult cs with
      | some _ => { x.goto t (.checked p) with cs }
      | none => { x.ret t p.op .panic with cs }
    | _ => { x with cs }
  | .checked p =>
    match logOf x.st p.i with
    | some l =>
      match x.lock l with
      | some _ => x
      | none =>
        if x.dead l then x.ret t p.op .panic
        else { x.goto t (.locked p l) with lock := upd x.lock l (some t) }
    | none =>
      let r := finish env p x.st
      { x.ret t p.op r.2 with st := r.1 }
  | .locked p l => { x.goto t (.pushed p l) with data := upd x.data l (x.data l ++ [newEntry env p]) }
  | .pushed p l =>
    let r := finish env p x.st
    { x.ret t p.op r.2 with
      st := r.1
      lock := upd x.lock l none
      -- The guard of a thread that panics poisons the mutex.
      dead := upd x.dead l (x.dead l || r.2 == .panic) }

/-- A schedule. -/
def Sys.run (env : Env) : List (Nat × Op) → Sys → Sys
  | [], x => x
  | c :: cs, x => Sys.run env cs (x.step env c)

end Locks
