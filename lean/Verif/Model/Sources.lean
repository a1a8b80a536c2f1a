import Verif.Model.Context

/-!
# Style sources as values

Model of `StyleSource` (`packages/stylist/src/style_src.rs`): a sheet and optionally a manager,
which is a handle that the source keeps. Sources can be cloned, passed on, compared, and used
later and somewhere else, on top of `Model/Context.lean`. (`Context.classes` is `css!` used at
once where it is written.)

The field `location` (feature `debug_style_locations`) is in `Model/Classes.lean`.
-/

namespace Sources

open Manager
open Context (Place)

/-- A `StyleSource`: `mgr` is the handle it keeps.
/repo/packages/stylist/src/style_src.rs 23-30 -/
structure Src where
  sheet : Sheet
  mgr : Option Nat
deriving DecidableEq

/-- An application, and the sources that exist in order of creation; `none` for one that was
dropped or used up. -/
structure App where
  base : Context.App
  srcs : List (Option Src)
deriving DecidableEq

/-- Nothing has happened yet. -/
def App.init (d : Dom) : App := { base := Context.App.init d, srcs := [] }

/-- Source `k`. -/
def App.src (a : App) (k : Nat) : Option Src := a.srcs[k]?.join

/-- Source `k` is gone. -/
def App.gone (a : App) (k : Nat) : App := { a with srcs := a.srcs.set k none }

/-- A new source. -/
def App.push (a : App) (x : Src) : App := { a with srcs := a.srcs ++ [some x] }

/-- The handle that a source keeps goes. -/
def dropHandle (env : Env) (s : St) : Option Nat → St
  | none => s
  | some mh => (step env (.dropMgr mh) s).1

/-- `css!` in a styled component at place `w`: the sheet, and a clone of the manager of the
context. `none` is a panic (no default manager can be made).
/repo/packages/stylist-macros/src/styled_component_impl.rs 46-66,
/repo/packages/stylist/src/style_src.rs 57-62 -/
def css (env : Env) (a : App) (w : Place) (sheet : Sheet) : Option App :=
  match Context.contextMgr env a.base w with
  | none => none
  | some (b, mh) => some ({ a with base := b }.push { sheet, mgr := some mh })

/-- A clone of source `k` (`derive(Clone)`, /repo/packages/stylist/src/style_src.rs 23). -/
def clone (env : Env) (a : App) (k : Nat) : Option App :=
  match a.src k with
  | none => none
  | some { sheet, mgr := none } => some (a.push { sheet, mgr := none })
  | some { sheet, mgr := some mh } =>
    match Context.cloneMgr env a.base mh with
    | none => none
    | some (b, mh') => some ({ a with base := b }.push { sheet, mgr := some mh' })

/-- Source `k` is dropped. -/
def drop (env : Env) (a : App) (k : Nat) : Option App :=
  match a.src k with
  | none => none
  | some x => some ({ a with base := { a.base with st := dropHandle env a.base.st x.mgr } }.gone k)

/-- `Classes::from(source)`: a style with the manager of the source, or the default manager; its
class is taken and the `Style` dropped. The manager goes when the style has been made. `none` is
a panic (`expect_display`). `fault`: see `Op.create`.
/repo/packages/stylist/src/yew/mod.rs 123-134, /repo/packages/stylist/src/style_src.rs 50-55,
/repo/packages/stylist/src/style.rs 140-162 -/
def classes (env : Env) (a : App) (k : Nat) (fault : Bool) : Option (App × Str) :=
  match a.src k with
  | none => none
  | some { sheet, mgr := none } =>
    match Context.classes env a.base .outside (.sheet sheet) fault with
    | none => none
    | some (b, cls) => some ({ a with base := b }.gone k, cls)
  | some { sheet, mgr := some mh } =>
    match step env (.create mh .scoped (.sheet sheet) fault) a.base.st with
    | (s, .style h) =>
      match (step env (.dropMgr mh) s).1.className h with
      | none => none
      | some cls =>
        some ({ a with base := { a.base with st := (step env (.drop h) (step env (.dropMgr mh) s).1).1 } }.gone k, cls)
    | _ => none

/-- `use_style(source)` at place `w`: the manager is that of the place; the sheet is taken out
of the source, whose own manager is dropped before the style is made.
/repo/packages/stylist/src/yew/hooks/use_style.rs 24-34, /repo/packages/stylist/src/style.rs 80-162 -/
def useStyle (env : Env) (a : App) (w : Place) (k : Nat) (fault : Bool) : Option (App × Nat) :=
  match a.src k with
  | none => none
  | some x =>
    match Context.contextMgr env a.base w with
    | none => none
    | some (b, mh) =>
      match step env (.create mh .scoped (.sheet x.sheet) fault) (dropHandle env b.st x.mgr) with
      | (s, .style h) => some ({ a with base := { b with st := (step env (.dropMgr mh) s).1 } }.gone k, h)
      | _ => none

/-- `Style::new_with_manager(source, manager)`, `GlobalStyle::new_with_manager` and the other
constructors: again the source's own manager is dropped.
/repo/packages/stylist/src/style.rs 80-162, /repo/packages/stylist/src/global_style.rs 42-62 -/
def style (env : Env) (a : App) (mh : Nat) (kind : Kind) (k : Nat) (fault : Bool) : Option (App × Out) :=
  match a.src k with
  | none => none
  | some x =>
    match step env (.create mh kind (.sheet x.sheet) fault) (dropHandle env a.base.st x.mgr) with
    | (s, out) => some ({ a with base := { a.base with st := s } }.gone k, out)

/-- `==` on sources: equal sheets and the same manager or none
(`derive(PartialEq)`, /repo/packages/stylist/src/style_src.rs 23;
/repo/packages/stylist/src/manager/mod.rs 58-62). -/
def same (a : App) (x y : Src) : Bool :=
  x.sheet = y.sheet &&
  match x.mgr, y.mgr with
  | none, none => true
  | some h, some h' => a.base.st.mgrOf h = a.base.st.mgrOf h'
  | _, _ => false

/-- What can happen. `app`: everything of `Model/Context.lean`. `plain`: a source without a
manager, by `css!` outside of styled components, from a sheet or from a string
(/repo/packages/stylist/src/style_src.rs 64-132). -/
inductive Event where
  | app (e : Context.Event)
  | css (w : Place) (sheet : Sheet)
  | plain (sheet : Sheet)
  | clone (k : Nat)
  | drop (k : Nat)
  | classes (k : Nat) (fault : Bool)
  | useStyle (w : Place) (k : Nat) (fault : Bool)
  | style (mh : Nat) (kind : Kind) (k : Nat) (fault : Bool)
deriving DecidableEq

/-- One event; `none` if it is impossible or panics. Nobody else can drop the handle that a
source keeps, or make a style with it. -/
def event (env : Env) (o : Bool) (a : App) : Event → Option App
  | .app e =>
    if a.srcs.any (fun x => x.any (fun x => x.mgr.any (fun mh => e = .other (.dropMgr mh)))) then none
    else (Context.event env o a.base e).map (fun b => { a with base := b })
  | .css w sheet => css env a w sheet
  | .plain sheet => some (a.push { sheet, mgr := none })
  | .clone k => clone env a k
  | .drop k => drop env a k
  | .classes k fault => (classes env a k fault).map Prod.fst
  | .useStyle w k fault => (useStyle env a w k fault).map Prod.fst
  | .style mh kind k fault => (style env a mh kind k fault).map Prod.fst

/-- A history of events. -/
def events (env : Env) (o : Bool) : List Event → App → Option App
  | [], a => some a
  | e :: es, a => (event env o a e).bind (events env o es)

end Sources
