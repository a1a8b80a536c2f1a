import Verif.Model.Manager

/-!
# Providers, the default manager and style sources

Model of `packages/stylist/src/yew/provider.rs`, of the conversions in
`packages/stylist/src/yew/mod.rs` and `packages/stylist/src/style_src.rs`, of
`StyleManager::default` (`packages/stylist/src/manager/mod.rs` 289-297) and of the code that
`#[styled_component]` adds (`packages/stylist-macros/src/styled_component_impl.rs` 46-66), on
top of the operations of `Model/Manager.lean`.

What is assumed about Yew (DESIGN.md): `use_context` gives a clone of the manager that the
nearest `ContextProvider` was last rendered with, or nothing; a `ContextProvider` keeps a clone
of it while it is mounted; `use_memo` is as described in `Model/Yew.lean`;
`use_transitive_state!((), …)` gives nothing on a client that does not hydrate, and the value
sent by the server on every render of a component that was hydrated.
-/

namespace Context

open Manager

/-- A mounted `ManagerProvider`: the style data it was hydrated with, the clone of the
manager that `use_memo` keeps as its dependency, and the clone kept by the
`ContextProvider` inside. /repo/packages/stylist/src/yew/provider.rs 40-72 -/
structure Prov where
  data : Option (List Entry)
  memo : Nat
  ctx : Nat
deriving Repr, DecidableEq

/-- Managers, styles and page; the thread-local default manager, once it has been made; the
providers in order of mounting, `none` for an unmounted one. -/
structure App where
  st : St
  dflt : Option Nat
  provs : List (Option Prov)
deriving DecidableEq

/-- Nothing has happened yet. -/
def App.init (d : Dom) : App := { st := St.init d, dflt := none, provs := [] }

/-- A clone of a manager. -/
def cloneMgr (env : Env) (a : App) (mh : Nat) : Option (App × Nat) :=
  match step env (.cloneMgr mh) a.st with
  | (s, .mgr mh') => some ({ a with st := s }, mh')
  | _ => none

/-- `StyleManager::default()`: made with the first use, by a builder with the default settings
(/repo/packages/stylist/src/manager/mod.rs 46-57, 289-297). `none` is a panic
(`expect_display`). -/
def defaultMgr (env : Env) (a : App) : Option (App × Nat) :=
  match a.dflt with
  | some mh => cloneMgr env a mh
  | none =>
    match step env (.newMgr (c! "stylist") none true none) a.st with
    | (s, .mgr mh) => cloneMgr env { a with st := s, dflt := some mh } mh
    | _ => none

/-- Where a component is: below provider `j`, which is the nearest one, or below no
provider. -/
inductive Place where
  | below (j : Nat)
  | outside
deriving Repr, DecidableEq

/-- `use_context::<StyleManager>().unwrap_or_default()`, as in
/repo/packages/stylist/src/yew/hooks/use_style.rs 30 and
/repo/packages/stylist-macros/src/styled_component_impl.rs 61. `outside` is also what a
`StyleSource` without a manager does (/repo/packages/stylist/src/style_src.rs 53). -/
def contextMgr (env : Env) (a : App) : Place → Option (App × Nat)
  | .below j =>
    match a.provs[j]? with
    | some (some p) => cloneMgr env a p.ctx
    | _ => none
  | .outside => defaultMgr env a

/-- `use_style(css)`, and `StyleSource::into_style` for a source whose manager is that of the
place: a style with the prefix of the manager; the clone of the manager goes. `none` is a panic
(`expect_display`). `fault`: see `Op.create`.
/repo/packages/stylist/src/yew/hooks/use_style.rs 24-34,
/repo/packages/stylist/src/style_src.rs 50-55 -/
def useStyle (env : Env) (a : App) (w : Place) (src : Source) (fault : Bool) : Option (App × Nat) :=
  match contextMgr env a w with
  | none => none
  | some (a, mh) =>
    match step env (.create mh .scoped src fault) a.st with
    | (s, .style h) => some ({ a with st := (step env (.dropMgr mh) s).1 }, h)
    | _ => none

/-- `Classes::from(css!(…))`, where the `css!` of `#[styled_component]` puts the manager of the
context into the source, and the plain `css!` none: the style is made, its class is taken, and
the `Style` is dropped.
/repo/packages/stylist/src/yew/mod.rs 118-134,
/repo/packages/stylist-macros/src/styled_component_impl.rs 46-66 -/
def classes (env : Env) (a : App) (w : Place) (src : Source) (fault : Bool) : Option (App × Str) :=
  match useStyle env a w src fault with
  | none => none
  | some (a, h) =>
    match a.st.className h with
    | none => none
    | some cls => some ({ a with st := (step env (.drop h) a.st).1 }, cls)

/-- The style data of a provider is loaded. `none` is a panic.
/repo/packages/stylist/src/yew/provider.rs 58-62 -/
def load (env : Env) (a : App) (mh : Nat) : Option (List Entry) → Option App
  | none => some a
  | some data =>
    match step env (.load mh data) a.st with
    | (s, .unit) => some { a with st := s }
    | _ => none

/-- The first render of a `ManagerProvider` with the manager behind `mh`: the data is loaded
before there are children. /repo/packages/stylist/src/yew/provider.rs 40-72 -/
def mount (env : Env) (a : App) (mh : Nat) (data : Option (List Entry)) : Option App :=
  match cloneMgr env a mh with
  | none => none
  | some (a, memo) =>
    match load env a memo data with
    | none => none
    | some a =>
      match cloneMgr env a mh with
      | none => none
      | some (a, ctx) => some { a with provs := a.provs ++ [some { data, memo, ctx }] }

/-- Drop a clone of a manager. -/
def dropMgr (env : Env) (a : App) (mh : Nat) : App := { a with st := (step env (.dropMgr mh) a.st).1 }

/-- A later render with the manager behind `mh`. The data is loaded again exactly if this is
another manager (`use_memo`); `dropFirst`: the old dependency of the memo goes before that.
/repo/packages/stylist/src/yew/provider.rs 40-72 -/
def rerender (env : Env) (dropFirst : Bool) (a : App) (j : Nat) (mh : Nat) : Option App :=
  match a.provs[j]? with
  | some (some p) =>
    match cloneMgr env a mh with
    | none => none
    | some (a, memo) =>
      if a.st.mgrOf memo = a.st.mgrOf p.memo then some (dropMgr env a memo)
      else
        match load env (if dropFirst then dropMgr env a p.memo else a) memo p.data with
        | none => none
        | some a =>
          match cloneMgr env (if dropFirst then a else dropMgr env a p.memo) mh with
          | none => none
          | some (a, ctx) =>
            some (dropMgr env { a with provs := a.provs.set j (some { data := p.data, memo, ctx }) } p.ctx)
  | _ => none

/-- The provider goes, and with it what it keeps. -/
def unmount (env : Env) (a : App) (j : Nat) : Option App :=
  match a.provs[j]? with
  | some (some p) =>
    some (dropMgr env (dropMgr env { a with provs := a.provs.set j none } p.memo) p.ctx)
  | _ => none

/-- On a server, the value that `use_transitive_state!` sends: a copy of what the manager has
recorded. /repo/packages/stylist/src/yew/provider.rs 47-53 -/
def collect (env : Env) (a : App) (j : Nat) : Option (List Entry) :=
  match a.provs[j]? with
  | some (some p) =>
    match (step env (.styleData p.memo) a.st).2 with
    | .data es => some es
    | _ => none
  | _ => none

/-- What can happen to an application. `other`: any operation on managers, styles or the page
by other code. -/
inductive Event where
  | mount (mh : Nat) (data : Option (List Entry))
  | rerender (j : Nat) (mh : Nat)
  | unmount (j : Nat)
  | default
  | useStyle (w : Place) (src : Source) (fault : Bool)
  | classes (w : Place) (src : Source) (fault : Bool)
  | other (op : Op)
deriving DecidableEq

/-- The manager handles that belong to the library: the default manager and those of the
providers. Nobody else can drop them. -/
def App.own (a : App) : List Nat :=
  a.dflt.toList ++ (a.provs.map (fun o => match o with | some p => [p.memo, p.ctx] | none => [])).flatten

/-- One event; `none` if it is impossible or panics. -/
def event (env : Env) (dropFirst : Bool) (a : App) : Event → Option App
  | .mount mh data => mount env a mh data
  | .rerender j mh => rerender env dropFirst a j mh
  | .unmount j => unmount env a j
  | .default => (defaultMgr env a).map Prod.fst
  | .useStyle w src fault => (useStyle env a w src fault).map Prod.fst
  | .classes w src fault => (classes env a w src fault).map Prod.fst
  | .other op =>
    if a.own.any (fun mh => op = .dropMgr mh) then none else some { a with st := (step env op a.st).1 }

/-- A history of events. -/
def events (env : Env) (dropFirst : Bool) : List Event → App → Option App
  | [], a => some a
  | e :: es, a => (event env dropFirst a e).bind (events env dropFirst es)

end Context
