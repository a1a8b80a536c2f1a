import Verif.Model.Report
import Verif.Model.Sources

/-!
# What errors and panics say

The functions of `Model/Manager.lean` and `Model/Context.lean` that can fail, once more, with
the texts of the errors and the messages of the panics:
`packages/stylist-core/src/error.rs`, and the places that call `expect_display`. A panic
unwinds, so the state after it is given, too: managers that a call holds are dropped.
-/

namespace Panic

open Manager (Env St Mgr Key Content Entry Source Kind makeId regGet regInsert mount)
open Context (Place)

/-- `Error` (`stylist-core/src/error.rs` 21-45). The value that JavaScript threw is left out of
`web`; it is not displayed. -/
inductive Error where
  | parse (reason : Str) (source : List (Str × Report.Kind))
  | web
  | readFailed
deriving DecidableEq

/-- `Display for Error` (the attributes `#[error(..)]`, `stylist-core/src/error.rs` 26, 36, 43). -/
def Error.display : Error → Str
  | .parse reason _ => c! "Failed to Parse CSS, due to:\n" ++ reason
  | .web => c! "Failed to Interact with Web API. Are you running in Browser?"
  | .readFailed => c! "Failed to read from manager. Did the renderer panic?"

/-- A value, an error, or a panic with its message. -/
inductive Res (α : Type) where
  | ok (a : α)
  | err (e : Error)
  | panic (msg : Str)
deriving DecidableEq

/-- `ResultDisplay::unwrap_display` (`stylist-core/src/error.rs` 64-69). -/
def unwrapDisplay {α : Type} : Res α → Res α
  | .ok a => .ok a
  | .err e => .panic e.display
  | .panic m => .panic m

/-- `ResultDisplay::expect_display` (`stylist-core/src/error.rs` 71-76). -/
def expectDisplay {α : Type} (msg : Str) : Res α → Res α
  | .ok a => .ok a
  | .err e => .panic (msg ++ c! ": " ++ e.display)
  | .panic m => .panic m

/-- `Parser::parse` (`stylist-core/src/parser.rs` 526-545) with the error it makes; the cache in
front of it (`stylist-core/src/ast/sheet.rs` 93-112) is transparent (C17). -/
def parse (css : Str) : Res Sheet :=
  match Report.sheet css with
  | .ok s => .ok s
  | .error es => .err (.parse (Report.entries css 0 es) es)

/-- `TryInto<StyleSource>` (`stylist/src/style_src.rs` 65-132). -/
def tryInto : Source → Res Sheet
  | .sheet s => .ok s
  | .text css => parse css

/-- `IntoPropValue<StyleSource>` for `String`, `&str` and `Cow<str>`
(`stylist/src/yew/mod.rs` 162-181), as used by `<Global css="..." />`. -/
def intoPropValue (css : Str) : Res Sheet := expectDisplay (c! "couldn't parse style string") (parse css)

/-- `Manager.withBorrow` (`stylist/src/manager/mod.rs` 157) with the message of `RefCell`. -/
def withBorrow {α : Type} (i : Nat) (f : St → St × Res α) (s : St) : St × Res α :=
  match s.mgrs[i]? with
  | none => (s, .panic [])
  | some m =>
    if m.borrowed then (s, .panic (c! "RefCell already borrowed"))
    else
      let r := f (s.modMgr i (fun m => { m with borrowed := true }))
      (r.1.modMgr i (fun m => { m with borrowed := false }), r.2)

/-- `StyleRegistry::register` (`stylist/src/manager/registry.rs` 13-17). -/
def register (i : Nat) (key : Key) (p : Nat) (s : St) : St × Res Unit :=
  match s.mgrs[i]? with
  | none => (s, .panic [])
  | some m =>
    (s.modMgr i (fun m => { m with reg := regInsert m.reg key p }),
      match regGet m.reg key with
      | none => .ok ()
      | some _ => .panic (c! "A Style with this StyleKey has already been created."))

/-- The body of `get_or_register_style` (`stylist/src/manager/mod.rs` 159-207) with the registry
borrowed; `style_data` (`stylist/src/manager/ssr.rs` 83-90) locks the log. -/
def createBody (env : Env) (fault : Bool) (i : Nat) (key : Key) (s : St) : St × Res Nat :=
  match s.mgrs[i]? with
  | none => (s, .panic [])
  | some m =>
    match regGet m.reg key with
    | some p => (s, .ok p)
    | none =>
      let id := makeId key (env.entropy s.ctr)
      let s := { s with ctr := s.ctr + 1 }
      let text := key.ast.toStyleStr (if key.isGlobal then none else some id)
      let checked := if env.debugParser then
          expectDisplay (c! "debug: Stylist failed to parse the style with interpolated values") (parse text)
        else .ok []
      match checked with
      | .panic msg => (s, .panic msg)
      | .err e => (s, .err e)
      | .ok _ =>
        let c : Content := { id, key, text, mgr := i, origin := .created }
        let p := s.heap.length
        let s := { s with heap := s.heap ++ [c] }
        match m.log with
        | some l =>
          match s.logs[l]? with
          | none => (s, .panic [])
          | some log =>
            if log.poisoned then (s, .panic (c! "failed to lock style data: PoisonError { .. }"))
            else
              let s := { s with logs := s.logs.set l { log with entries := log.entries ++ [{ key, id, text }] } }
              match register i key p s with
              | (s, .ok ()) => (s, .ok p)
              | (s, .err e) => (s, .err e)
              | (s, .panic msg) =>
                ({ s with logs := s.logs.modify l (fun log => { log with poisoned := true }) }, .panic msg)
        | none =>
          match mount env fault m c s.dom with
          | none => (s.release env p, .err .web)
          | some d =>
            match register i key p { s with dom := d } with
            | (s, .ok ()) => (s, .ok p)
            | (s, .err e) => (s, .err e)
            | (s, .panic msg) => (s, .panic msg)

/-- `StyleManager::get_or_register_style` (`stylist/src/manager/mod.rs` 155-208). -/
def getOrRegister (env : Env) (fault : Bool) (i : Nat) (key : Key) (s : St) : St × Res Nat :=
  withBorrow i (createBody env fault i key) s

/-- `Style::create_with_manager`, `Style::new_with_manager` (`stylist/src/style.rs` 83-162) and
`GlobalStyle::new_with_manager` (`stylist/src/global_style.rs` 20-63) with the manager behind
`mh`. -/
def create (env : Env) (mh : Nat) (kind : Kind) (src : Source) (fault : Bool) (s : St) : St × Res Nat :=
  match s.mgrOf mh with
  | none => (s, .panic [])
  | some i =>
    match s.mgrs[i]? with
    | none => (s, .panic [])
    | some m =>
      match tryInto src with
      | .panic msg => (s, .panic msg)
      | .err e => (s, .err e)
      | .ok ast =>
        match getOrRegister env fault i (kind.key m.pref ast) s with
        | (s, .ok p) => ({ s with handles := s.handles ++ [some p] }, .ok s.handles.length)
        | (s, .err e) => (s, .err e)
        | (s, .panic msg) => (s, .panic msg)

/-- `StyleManagerBuilder::build` (`stylist/src/manager/mod.rs` 96-106): the only error is that of
`doc_head` (`stylist/src/arch.rs` 15-18). -/
def build (env : Env) (pref : Str) (container : Option Nat) (append : Bool) (writer : Option Nat) (s : St) :
    St × Res Nat :=
  match Manager.newMgr env pref container append writer s with
  | (s, .mgr mh) => (s, .ok mh)
  | (s, .err _) => (s, .err .web)
  | (s, _) => (s, .panic [])

/-! ## Yew -/

/-- An application (`Model/Context.lean`), and whether making the default manager has
panicked: `once_cell::unsync::Lazy` does not try twice. -/
structure App where
  base : Context.App
  poisoned : Bool
deriving DecidableEq

/-- A clone of a manager. -/
def cloneMgr (env : Env) (a : App) (mh : Nat) : App × Res Nat :=
  match Context.cloneMgr env a.base mh with
  | some (b, mh') => ({ a with base := b }, .ok mh')
  | none => (a, .panic [])

/-- `StyleManager::default()` (`stylist/src/manager/mod.rs` 46-57, 289-297). -/
def defaultMgr (env : Env) (a : App) : App × Res Nat :=
  match a.base.dflt with
  | some mh => cloneMgr env a mh
  | none =>
    if a.poisoned then (a, .panic (c! "Lazy instance has previously been poisoned"))
    else
      match build env (c! "stylist") none true none a.base.st with
      | (s, r) =>
        match expectDisplay (c! "Failed to create default manager.") r with
        | .ok mh => cloneMgr env { a with base := { a.base with st := s, dflt := some mh } } mh
        | .err e => ({ a with base := { a.base with st := s } }, .err e)
        | .panic msg => ({ base := { a.base with st := s }, poisoned := true }, .panic msg)

/-- `use_context::<StyleManager>().unwrap_or_default()`
(`stylist/src/yew/hooks/use_style.rs` 30, `stylist/src/yew/global.rs` 42,
`stylist-macros/src/styled_component_impl.rs` 62). -/
def contextMgr (env : Env) (a : App) : Place → App × Res Nat
  | .below j =>
    match a.base.provs[j]? with
    | some (some p) => cloneMgr env a p.ctx
    | _ => (a, .panic [])
  | .outside => defaultMgr env a

/-- A style is made with the manager of a place, or there is a panic with `what` in front of the
error; the clone of the manager is dropped in both cases. -/
def styleAt (env : Env) (a : App) (w : Place) (kind : Kind) (src : Source) (fault : Bool) (what : Str) :
    App × Res Nat :=
  match contextMgr env a w with
  | (a, .ok mh) =>
    match create env mh kind src fault a.base.st with
    | (s, r) => ({ a with base := { a.base with st := (Manager.step env (.dropMgr mh) s).1 } }, expectDisplay what r)
  | r => r

/-- `use_style` (`stylist/src/yew/hooks/use_style.rs` 24-34). -/
def useStyle (env : Env) (a : App) (w : Place) (src : Source) (fault : Bool) : App × Res Nat :=
  styleAt env a w .scoped src fault (c! "failed to create style")

/-- `StyleSource::into_style` (`stylist/src/style_src.rs` 50-55) for a source with the manager of
the place, as made by `css!` in a styled component, or with none (`.outside`). -/
def intoStyle (env : Env) (a : App) (w : Place) (sheet : Sheet) (fault : Bool) : App × Res Nat :=
  styleAt env a w .scoped (.sheet sheet) fault (c! "Failed to create style")

/-- The first render of `Global` (`stylist/src/yew/global.rs` 39-60); the manager is kept by
`use_memo` in the code, and dropped here. -/
def global (env : Env) (a : App) (w : Place) (sheet : Sheet) (fault : Bool) : App × Res Nat :=
  styleAt env a w .global (.sheet sheet) fault (c! "Failed to create style.")

/-- `<Global css="..." />` with a string: the prop is made first. -/
def globalText (env : Env) (a : App) (w : Place) (css : Str) (fault : Bool) : App × Res Nat :=
  match intoPropValue css with
  | .ok sheet => global env a w sheet fault
  | .err e => (a, .err e)
  | .panic msg => (a, .panic msg)

end Panic
