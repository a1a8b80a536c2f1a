import Verif.Model.Manager

/-!
# Yew components that use styles

Model of `packages/stylist/src/yew/global.rs` and `packages/stylist/src/yew/hooks/use_style.rs`
on top of the operations of `Model/Manager.lean`.

Yew itself is not part of the repository. What is assumed about it (DESIGN.md): a hook is
called on every render of its component; `use_context` gives a clone of the manager of the
nearest provider; `use_memo` keeps the dependencies and the value of the last computation,
computes a new value exactly if the dependencies are not equal, and drops what it keeps
when it is replaced or the component is unmounted. In which order a replacement happens is
left open (`Order`).
-/

namespace Yew

open Manager

/-- What `use_memo` leaves open: whether what it holds is dropped before a new value is
computed, and whether the dependencies are dropped before the value. -/
structure Order where
  dropFirst : Bool
  depsFirst : Bool
deriving Repr, DecidableEq

/-- What the `use_memo` of a mounted `Global` holds: its dependencies, which are a clone
of the manager (`mh`) and the `StyleSource` (`css` and `tag`), and the guard with the
`GlobalStyle` (`h`).
/repo/packages/stylist/src/yew/global.rs 44-57; a `StyleSource` is a sheet, optionally a
manager of its own and, with the feature `debug_style_locations`, a location
(/repo/packages/stylist/src/style_src.rs 23-30). `GlobalStyle` only uses the sheet; the
rest only matters for equality and is represented by `tag`. -/
structure Comp where
  mh : Nat
  css : Sheet
  tag : Nat
  h : Nat
deriving Repr, DecidableEq

/-- Managers, styles and page, and the `Global` components in order of mounting; `none`
for an unmounted one. -/
structure App where
  st : St
  comps : List (Option Comp)
deriving DecidableEq

/-- Nothing has happened yet. -/
def App.init (d : Dom) : App := { st := St.init d, comps := [] }

/-- Dropping the guard: `unregister`, then the `GlobalStyle` goes.
/repo/packages/stylist/src/yew/global.rs 44-52 -/
def dropGuard (c : Comp) : List Op := [.unregister c.h, .drop c.h]

/-- Dropping what `use_memo` holds. -/
def dropMemo (o : Order) (c : Comp) : List Op :=
  if o.depsFirst then .dropMgr c.mh :: dropGuard c else dropGuard c ++ [.dropMgr c.mh]

/-- The dependencies are equal: the same manager (`Rc::ptr_eq`,
/repo/packages/stylist/src/manager/mod.rs 58-62) and equal sources. -/
def sameDeps (s : St) (mh : Nat) (css : Sheet) (tag : Nat) (c : Comp) : Bool :=
  s.mgrOf c.mh = s.mgrOf mh ∧ c.css = css ∧ c.tag = tag

/-- One render of `Global`: the manager comes from the context that handle `mh` stands
for; `old` is what the memo holds. `none` if the component panics (`expect_display`) or
`mh` is no manager. `fault`: the browser refuses to mount (see `Op.create`).
/repo/packages/stylist/src/yew/global.rs 39-60 -/
def render (env : Env) (o : Order) (mh : Nat) (css : Sheet) (tag : Nat) (fault : Bool) (old : Option Comp) (s : St) :
    Option (St × Comp) :=
  match step env (.cloneMgr mh) s with
  | (s1, .mgr mh') =>
    match old with
    | none =>
      match step env (.create mh' .global (.sheet css) fault) s1 with
      | (s2, .style h) => some (s2, { mh := mh', css, tag, h })
      | _ => none
    | some c =>
      if sameDeps s1 mh' css tag c then
        some ((step env (.dropMgr mh') s1).1, c)
      else
        let s2 := if o.dropFirst then run env (dropMemo o c) s1 else s1
        match step env (.create mh' .global (.sheet css) fault) s2 with
        | (s3, .style h) =>
          some (if o.dropFirst then s3 else run env (dropMemo o c) s3, { mh := mh', css, tag, h })
        | _ => none
  | _ => none

/-- What can happen to an application. `other`: any operation on managers, styles or the
page by code that is not a `Global` component. -/
inductive Event where
  | mount (mh : Nat) (css : Sheet) (tag : Nat) (fault : Bool)
  | update (j : Nat) (mh : Nat) (css : Sheet) (tag : Nat) (fault : Bool)
  | unmount (j : Nat)
  | other (op : Op)
deriving DecidableEq

/-- The operation works on a handle that a component keeps for itself. -/
def App.private (a : App) : Op → Bool
  | .cloneMgr mh | .dropMgr mh | .create mh _ _ _ | .load mh _ | .styleData mh =>
    a.comps.any (fun o => o.any (fun c => c.mh = mh))
  | .clone h | .drop h | .unregister h => a.comps.any (fun o => o.any (fun c => c.h = h))
  | _ => false

/-- One event. `none` if it is impossible (a component that is not mounted, a handle that
belongs to a component) or panics.
/repo/packages/stylist/src/yew/global.rs 39-60 -/
def event (env : Env) (o : Order) (a : App) : Event → Option App
  | .mount mh css tag fault =>
    if a.private (.cloneMgr mh) then none
    else (render env o mh css tag fault none a.st).map fun (s, c) => { st := s, comps := a.comps ++ [some c] }
  | .update j mh css tag fault =>
    if a.private (.cloneMgr mh) then none
    else match a.comps[j]? with
      | some (some old) =>
        (render env o mh css tag fault (some old) a.st).map fun (s, c) => { st := s, comps := a.comps.set j (some c) }
      | _ => none
  | .unmount j =>
    match a.comps[j]? with
    | some (some c) => some { st := run env (dropMemo o c) a.st, comps := a.comps.set j none }
    | _ => none
  | .other op => if a.private op then none else some { a with st := (step env op a.st).1 }

/-- A history of events. -/
def events (env : Env) (o : Order) : List Event → App → Option App
  | [], a => some a
  | e :: es, a => (event env o a e).bind (events env o es)

/-- `use_style`: a clone of the manager in the context, a new style, and the clone goes.
`Out.style h` is the `Style` it returns; anything else is a panic (`expect_display`).
/repo/packages/stylist/src/yew/hooks/use_style.rs 25-34 -/
def useStyle (env : Env) (mh : Nat) (src : Source) (fault : Bool) (s : St) : St × Out :=
  match step env (.cloneMgr mh) s with
  | (s1, .mgr mh') =>
    let r := step env (.create mh' .scoped src fault) s1
    ((step env (.dropMgr mh') r.1).1, r.2)
  | r => r

/-- What components that use `use_style` do: a render calls it; anything else, such as
dropping the `Style` of an earlier render, is an operation. -/
inductive Act where
  | useStyle (mh : Nat) (src : Source) (fault : Bool)
  | other (op : Op)
deriving DecidableEq

/-- One of these.
/repo/packages/stylist/src/yew/hooks/use_style.rs 25-34 -/
def act (env : Env) (s : St) : Act → St
  | .useStyle mh src fault => (useStyle env mh src fault s).1
  | .other op => (step env op s).1

/-- A history of these. -/
def acts (env : Env) : List Act → St → St
  | [], s => s
  | a :: as, s => acts env as (act env s a)

end Yew
