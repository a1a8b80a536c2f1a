import Verif.Model.Manager

/-!
# Managers in several threads

Models what `packages/stylist/src` does when several threads of a server use it. A
`StyleManager` is an `Rc` (`manager/mod.rs` 123-125), and so are a `Style` and a
`GlobalStyle` (`style.rs` 75-78, `global_style.rs` 12-15): none of them can leave the
thread it was made in. Threads share the counter of `get_next_style_id` (`utils.rs` 9-17)
and the style data behind a `StaticWriter` and a `StaticReader` (`manager/ssr.rs` 13-44);
those two can be moved to other threads.

An operation that touches shared data at most once is one step. `get_or_register_style`
touches it twice when the style is new: the counter is advanced (`manager/mod.rs` 163-166),
and then the entry is pushed and the style registered while the mutex is held
(`manager/mod.rs` 188-201). These are two steps, between which other threads may run.

Simplifications: the borrow of the registry, which lasts over both steps, is shown for the
second one only, as no other thread can see it; the parse cache, which threads share as
well, is modelled in `Cache` and is transparent (C17).
-/

namespace Manager

/-- `get_or_register_style` from the id on (`manager/mod.rs` 168-207), with the registry
borrowed; `ent` is what `get_entropy` returned. -/
def createRest (env : Env) (fault : Bool) (i : Nat) (key : Key) (ent : Str) (s : St) : St × Res Nat :=
  match s.mgrs[i]? with
  | none => (s, .panic)
  | some m =>
    let id := makeId key ent
    let text := key.ast.toStyleStr (if key.isGlobal then none else some id)
    if env.debugParser && (Css.parse text).isNone then (s, .panic)
    else
      let c : Content := { id, key, text, mgr := i, origin := .created }
      let p := s.heap.length
      let s := { s with heap := s.heap ++ [c] }
      match m.log with
      | some l =>
        match s.logs[l]? with
        | none => (s, .panic)
        | some log =>
          if log.poisoned then (s, .panic)
          else
            let s := { s with logs := s.logs.set l { log with entries := log.entries ++ [{ key, id, text }] } }
            match register i key p s with
            | (s, .ok ()) => (s, .ok p)
            | (s, _) => ({ s with logs := s.logs.modify l (fun log => { log with poisoned := true }) }, .panic)
      | none =>
        match mount env fault m c s.dom with
        | none => (s.release env p, .err .web)
        | some d =>
          match register i key p { s with dom := d } with
          | (s, .ok ()) => (s, .ok p)
          | (s, _) => (s, .panic)

/-- A thread inside of `get_or_register_style` (`manager/mod.rs` 155-208): the call, what
was looked up, and the value of the counter it got. -/
structure Pending where
  mh : Nat
  kind : Kind
  src : Source
  fault : Bool
  i : Nat
  key : Key
  n : Nat

/-- The call that is in progress. -/
def Pending.op (p : Pending) : Op := .create p.mh p.kind p.src p.fault

/-- A finished call: thread, operation and result. -/
structure Done where
  t : Nat
  op : Op
  out : Out

/-- All threads: the values of the process, the thread each manager was made in, the calls
in progress, and, for the properties, the calls made and the calls finished so far, in
order. -/
structure Threads where
  st : St
  owner : Nat → Nat
  pc : Nat → Option Pending
  calls : List (Nat × Op)
  done : List Done

/-- No thread has done anything. -/
def Threads.init (d : Dom) : Threads :=
  { st := St.init d, owner := fun _ => 0, pc := fun _ => none, calls := [], done := [] }

/-- The manager whose thread has to make the call: the one of the manager or style that is
used. A writer or reader may be used in any thread. -/
def Op.boundTo (s : St) : Op → Option Nat
  | .cloneMgr mh | .dropMgr mh | .create mh _ _ _ | .load mh _ | .styleData mh => s.mgrOf mh
  | .clone h | .drop h | .unregister h => (s.contentOf h).bind (fun p => (s.heap[p]?).map Content.mgr)
  | .renderStatic | .newMgr _ _ _ _ | .readData _ | .page _ _ => none

/-- The part of `Style::…` / `GlobalStyle::new_with_manager` before the counter
(`style.rs` 83-162, `global_style.rs` 20-63, `manager/mod.rs` 155-161): `none` if the call
ends there, because of an error or because the style is registered. -/
def lookup (mh : Nat) (kind : Kind) (src : Source) (fault : Bool) (s : St) : Option Pending :=
  match s.mgrOf mh with
  | none => none
  | some i =>
    match s.mgrs[i]? with
    | none => none
    | some m =>
      match src.sheet? with
      | none => none
      | some ast =>
        match regGet m.reg (kind.key m.pref ast) with
        | some _ => none
        | none => some { mh, kind, src, fault, i, key := kind.key m.pref ast, n := s.ctr }

/-- Thread `t` calls `op`. -/
def Threads.call (env : Env) (t : Nat) (op : Op) (c : Threads) : Threads :=
  let whole : Threads :=
    let r := step env op c.st
    { st := r.1
      owner := match op with
        | .newMgr _ _ _ _ => fun j => if j = c.st.mgrs.length then t else c.owner j
        | _ => c.owner
      pc := c.pc
      calls := c.calls ++ [(t, op)]
      done := c.done ++ [⟨t, op, r.2⟩] }
  match op with
  | .create mh kind src fault =>
    match lookup mh kind src fault c.st with
    | none => whole
    | some p =>
      -- `CTR.fetch_add(1, Ordering::SeqCst)` (`utils.rs` 15).
      { c with
        st := { c.st with ctr := c.st.ctr + 1 }
        pc := fun u => if u = t then some p else c.pc u
        calls := c.calls ++ [(t, op)] }
  | _ => whole

/-- The rest of the creation of a style, up to the handle (`manager/mod.rs` 168-207,
`style.rs` 83-162, `global_style.rs` 20-63). -/
def Pending.finish (env : Env) (p : Pending) (s : St) : St × Out :=
  match withBorrow p.i (createRest env p.fault p.i p.key (env.entropy p.n)) s with
  | (s, .ok q) => ({ s with handles := s.handles ++ [some q] }, .style s.handles.length)
  | (s, .err e) => (s, .err e)
  | (s, .panic) => (s, .panic)

/-- Thread `t` finishes the creation of a style. -/
def Threads.finish (env : Env) (t : Nat) (p : Pending) (c : Threads) : Threads :=
  let r := p.finish env c.st
  { c with
    st := r.1
    pc := fun u => if u = t then none else c.pc u
    done := c.done ++ [⟨t, p.op, r.2⟩] }

/-- A choice of the scheduler: thread `t` goes on. If it is in no call, it calls `op`,
unless `op` uses a manager or style of another thread. -/
def Threads.step (env : Env) (choice : Nat × Op) (c : Threads) : Threads :=
  match c.pc choice.1 with
  | some p => c.finish env choice.1 p
  | none =>
    if (choice.2.boundTo c.st).all (fun i => c.owner i = choice.1) then c.call env choice.1 choice.2 else c

/-- A schedule. -/
def Threads.run (env : Env) : List (Nat × Op) → Threads → Threads
  | [], c => c
  | x :: xs, c => Threads.run env xs (c.step env x)

end Manager
