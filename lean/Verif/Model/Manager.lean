import Verif.Model.Render
import Verif.Model.Parser
import Verif.Model.Dom

/-!
# Managers, styles and the registry

Models `packages/stylist/src/manager/{mod,key,registry,content,ssr}.rs`,
`packages/stylist/src/{style,global_style,style_src,utils}.rs` as a state machine. A
state holds everything a process (or a browser page) has: managers, contents, the
handles the user holds, static writers and the page. One operation of the public API
is one step.

Simplifications, for all definitions here:

* `Rc` pointers are indices into lists that only grow. The strong count of an `Rc` is
  not stored but derived from the references that exist (`St.refs`); `Drop` runs in
  the operation that removes the last reference.
* A `HashMap` is an association list. Where the code iterates over one (dropping a
  registry) the order is that of the list.
* `RefCell` borrows are the flag `Mgr.borrowed`; a panic unwinds and releases them.
* A panic is an outcome, not the end: the state after it is the state the unwound
  operation leaves behind.
-/

namespace Manager

/-- `StyleKey` (`manager/key.rs` 14-19). -/
structure Key where
  isGlobal : Bool
  pref : Str
  ast : Sheet
deriving DecidableEq, Repr

/-- Ghost information about a content, read by no function of the model: was it created
by `get_or_register_style` or inserted by `load_style_data`? -/
inductive Origin where
  | created
  | hydrated
deriving DecidableEq, Repr

/-- `StyleContent` (`manager/content.rs` 6-13); `mgr` is the weak reference. `origin`
is not in the code. -/
structure Content where
  id : Str
  key : Key
  text : Str
  mgr : Nat
  origin : Origin
deriving DecidableEq, Repr

/-- `StyleDataContent` (`manager/mod.rs` 307-313). -/
structure Entry where
  key : Key
  id : Str
  text : Str
deriving DecidableEq, Repr

/-- The `Arc<Mutex<StyleData>>` shared by a `StaticWriter` and a `StaticReader`
(`manager/ssr.rs` 13-44), whether the mutex is poisoned, and whether the writer and the
reader (neither is `Clone`) have been consumed. -/
structure Log where
  entries : List Entry
  poisoned : Bool
  writerTaken : Bool
  readerTaken : Bool
deriving DecidableEq, Repr

/-- `StyleManagerBuilder` behind the `Rc` of a `StyleManager` (`manager/mod.rs` 33-44,
121-125). `reg` is `StyleRegistry` (`manager/registry.rs` 6-10). -/
structure Mgr where
  pref : Str
  container : Option Nat
  append : Bool
  log : Option Nat
  reg : List (Key × Nat)
  borrowed : Bool
deriving DecidableEq, Repr

/-- Everything there is. `handles` are the `Style` and `GlobalStyle` values ever held by
the user (`none`: dropped), `mgrHandles` the `StyleManager` values, `ctr` counts the
calls of `get_entropy`. -/
structure St where
  ctr : Nat
  dom : Dom
  logs : List Log
  mgrs : List Mgr
  mgrHandles : List (Option Nat)
  heap : List Content
  handles : List (Option Nat)
deriving DecidableEq, Repr

/-- What the model is parametric in: the target (`cfg(target_arch = "wasm32")`), the
feature `debug_parser` with debug assertions, the results of `get_entropy`
(`utils.rs` 19-26) in the order of the calls, the `<head>` of the document, and which
node (if any) `query_selector` finds for an id that is not a CSS identifier, so that the
selector text means something else or nothing. -/
structure Env where
  wasm : Bool
  debugParser : Bool
  entropy : Nat → Str
  head : Option Nat
  oddQuery : Str → List Child → Option Nat

/-- The last `fuel` digits of the decimal representation. -/
def decimalAux : Nat → Nat → Str
  | 0, _ => []
  | fuel + 1, n =>
    if n < 10 then [Char.ofNat (48 + n)] else decimalAux fuel (n / 10) ++ [Char.ofNat (48 + n % 10)]

/-- The decimal representation, as printed by `format!("{}", n)` for a `u64`. -/
def decimal (n : Nat) : Str := decimalAux (n + 1) n

/-- `get_next_style_id` (`utils.rs` 9-17): the `n`-th result of an `AtomicU64` counter,
which wraps. -/
def counterEntropy (n : Nat) : Str := c! "style-" ++ decimal (n % 2 ^ 64)

/-- `StyleId::new_scoped` / `new_global` (`manager/key.rs` 41-48), chosen as in
`get_or_register_style` (`manager/mod.rs` 163-166). -/
def makeId (key : Key) (entropy : Str) : Str :=
  if key.isGlobal then key.pref ++ c! "-global-" ++ entropy else key.pref ++ c! "-" ++ entropy

/-- `StyleRegistry::get` (`manager/registry.rs` 23-25). -/
def regGet (reg : List (Key × Nat)) (key : Key) : Option Nat :=
  (reg.find? (fun e => e.1 = key)).map Prod.snd

/-- `StyleRegistry::unregister` (`manager/registry.rs` 19-21). -/
def regRemove (reg : List (Key × Nat)) (key : Key) : List (Key × Nat) :=
  reg.filter (fun e => e.1 ≠ key)

/-- `HashMap::insert` of a key (`manager/registry.rs` 14, `manager/mod.rs` 386). -/
def regInsert (reg : List (Key × Nat)) (key : Key) (p : Nat) : List (Key × Nat) :=
  regRemove reg key ++ [(key, p)]

/-! ## The page -/

/-- `document.query_selector("style[data-style={id}]")` (`manager/mod.rs` 255). -/
def query (env : Env) (id : Str) (d : Dom) : Option Nat :=
  if cssIdent id then d.inDoc.findIdx? (fun c => c.styleId? = some id)
  else env.oddQuery id d.inDoc

/-- `StyleManager::unmount` (`manager/mod.rs` 249-264; 275-280 off the browser). Its
errors are ignored by its only caller (`manager/content.rs` 46). -/
def unmount (env : Env) (id : Str) (d : Dom) : Dom :=
  if env.wasm then
    match query env id d with
    | some n => d.removeAt n
    | none => d
  else d

/-- `StyleManager::mount` (`manager/mod.rs` 222-245; 267-272 off the browser). `none`
is an error. `fault` says that the browser refuses (no document, or one of the calls
throws). -/
def mount (env : Env) (fault : Bool) (m : Mgr) (c : Content) (d : Dom) : Option Dom :=
  if env.wasm then
    if fault then none
    else
      match m.container with
      | none => none
      | some i =>
        let el := Child.style c.id c.text
        if m.append then some (d.appendChild i el)
        else
          match d.firstChild i with
          | some first => d.insertBefore first el first
          | none => some (d.appendChild i el)
  else some d

/-! ## References -/

/-- The strong count of content `p`: handles and registry entries. -/
def St.refs (s : St) (p : Nat) : Nat :=
  s.handles.count (some p) + (s.mgrs.map (fun m => (m.reg.map Prod.snd).count p)).sum

/-- `Drop for StyleContent` (`manager/content.rs` 43-48), run when a reference to `p`
has just been removed and none is left. -/
def St.release (env : Env) (p : Nat) (s : St) : St :=
  if s.refs p = 0 then
    match s.heap[p]? with
    | some c => { s with dom := unmount env c.id s.dom }
    | none => s
  else s

/-- Change manager `i`. -/
def St.modMgr (s : St) (i : Nat) (f : Mgr → Mgr) : St :=
  { s with mgrs := s.mgrs.modify i f }

/-- `Error` (`stylist-core/src/error.rs` 21-45), without the details. -/
inductive Err where
  | parse
  | web
  | readFailed
deriving DecidableEq, Repr

/-- Results of a fallible function. -/
inductive Res (α : Type) where
  | ok (a : α)
  | err (e : Err)
  | panic
deriving DecidableEq, Repr

/-- `registry.borrow_mut()` around a piece of code (`manager/mod.rs` 157, 211, 372): a
panic if it is already borrowed; the borrow ends with the code, also by unwinding. -/
def withBorrow {α : Type} (i : Nat) (f : St → St × Res α) (s : St) : St × Res α :=
  match s.mgrs[i]? with
  | none => (s, .panic)
  | some m =>
    if m.borrowed then (s, .panic)
    else
      let r := f (s.modMgr i (fun m => { m with borrowed := true }))
      (r.1.modMgr i (fun m => { m with borrowed := false }), r.2)

/-- `StyleRegistry::register` (`manager/registry.rs` 13-17) of content `p` with key
`key`: a panic if the key was there. -/
def register (i : Nat) (key : Key) (p : Nat) (s : St) : St × Res Unit :=
  match s.mgrs[i]? with
  | none => (s, .panic)
  | some m =>
    (s.modMgr i (fun m => { m with reg := regInsert m.reg key p }),
      match regGet m.reg key with
      | none => .ok ()
      | some _ => .panic)

/-- The body of `get_or_register_style` (`manager/mod.rs` 159-207) with the registry
borrowed. Returns the content. -/
def createBody (env : Env) (fault : Bool) (i : Nat) (key : Key) (s : St) : St × Res Nat :=
  match s.mgrs[i]? with
  | none => (s, .panic)
  | some m =>
    match regGet m.reg key with
    | some p => (s, .ok p)
    | none =>
      let id := makeId key (env.entropy s.ctr)
      let s := { s with ctr := s.ctr + 1 }
      let text := key.ast.toStyleStr (if key.isGlobal then none else some id)
      if env.debugParser && (Css.parse text).isNone then (s, .panic)
      else
        let c : Content := { id, key, text, mgr := i, origin := .created }
        let p := s.heap.length
        let s := { s with heap := s.heap ++ [c] }
        match m.log with
        | some l =>
          match s.logs[l]? with
          | none => (s, .panic)
          | some log =>
            if log.poisoned then (s, .panic)
            else
              let s := { s with logs := s.logs.set l { log with entries := log.entries ++ [{ key, id, text }] } }
              match register i key p s with
              | (s, .ok ()) => (s, .ok p)
              | (s, _) =>
                -- The mutex guard is dropped while panicking.
                ({ s with logs := s.logs.modify l (fun log => { log with poisoned := true }) }, .panic)
        | none =>
          match mount env fault m c s.dom with
          | none => (s.release env p, .err .web)
          | some d =>
            match register i key p { s with dom := d } with
            | (s, .ok ()) => (s, .ok p)
            | (s, _) => (s, .panic)

/-- `StyleManager::get_or_register_style` (`manager/mod.rs` 155-208). -/
def getOrRegister (env : Env) (fault : Bool) (i : Nat) (key : Key) (s : St) : St × Res Nat :=
  withBorrow i (createBody env fault i key) s

/-- `StyleManager::unregister_style` (`manager/mod.rs` 210-212): the removed content is
dropped while the registry is still borrowed. -/
def unregisterStyle (env : Env) (i : Nat) (key : Key) (s : St) : St × Res Unit :=
  withBorrow i (fun s =>
    match s.mgrs[i]? with
    | none => (s, .panic)
    | some m =>
      let s := s.modMgr i (fun m => { m with reg := regRemove m.reg key })
      match regGet m.reg key with
      | some p => (s.release env p, .ok ())
      | none => (s, .ok ())) s

/-- The loop of `load_style_data` (`manager/mod.rs` 374-397). -/
def loadBody (i : Nat) : List Entry → St → St × Res Unit
  | [], s => (s, .ok ())
  | e :: es, s =>
    match s.mgrs[i]? with
    | none => (s, .panic)
    | some m =>
      match regGet m.reg e.key with
      | some p =>
        match s.heap[p]? with
        | none => (s, .panic)
        | some c => if c.id = e.id then loadBody i es s else (s, .panic)
      | none =>
        let c : Content :=
          { id := e.id, key := e.key, text := e.key.ast.toStyleStr (some e.id), mgr := i,
            origin := .hydrated }
        let p := s.heap.length
        let s := { s with heap := s.heap ++ [c] }
        loadBody i es (s.modMgr i (fun m => { m with reg := regInsert m.reg e.key p }))

/-- `StyleManager::load_style_data` (`manager/mod.rs` 371-398). -/
def loadStyleData (i : Nat) (data : List Entry) (s : St) : St × Res Unit :=
  withBorrow i (loadBody i data) s

/-! ## Operations of the public API -/

/-- What a style is created from (`style_src.rs` 65-133). -/
inductive Source where
  | sheet (s : Sheet)
  | text (css : Str)
deriving DecidableEq, Repr

/-- `TryInto<StyleSource>` followed by `into_sheet` (`style_src.rs` 46-48, 65-133);
`none` is a parse error. The parse cache is transparent (C17). -/
def Source.sheet? : Source → Option Sheet
  | .sheet s => some s
  | .text css => Css.parse css

/-- `Style` with a prefix of its own, `Style` with the prefix of the manager, or
`GlobalStyle`. -/
inductive Kind where
  | withPrefix (pref : Str)
  | scoped
  | global
deriving DecidableEq, Repr

/-- The key built by `Style::create_with_manager`, `Style::new_with_manager`
(`style.rs` 83-101, 142-162) and `GlobalStyle::new_with_manager`
(`global_style.rs` 20-34). -/
def Kind.key (k : Kind) (mgrPref : Str) (ast : Sheet) : Key :=
  match k with
  | .withPrefix pref => { isGlobal := false, pref, ast }
  | .scoped => { isGlobal := false, pref := mgrPref, ast }
  | .global => { isGlobal := true, pref := mgrPref, ast }

/-- The operations. Handles, managers and writers are referred to by number. -/
inductive Op where
  /-- `render_static()` (`manager/ssr.rs` 35-44). -/
  | renderStatic
  /-- `StyleManagerBuilder::…::build()` (`manager/mod.rs` 64-107, `manager/ssr.rs`
  71-74). -/
  | newMgr (pref : Str) (container : Option Nat) (append : Bool) (writer : Option Nat)
  /-- `StyleManager::clone`. -/
  | cloneMgr (mh : Nat)
  /-- `drop(StyleManager)`. -/
  | dropMgr (mh : Nat)
  /-- `Style::…` / `GlobalStyle::new_with_manager`. -/
  | create (mh : Nat) (kind : Kind) (src : Source) (fault : Bool)
  /-- `Style::clone` / `GlobalStyle::clone`. -/
  | clone (h : Nat)
  /-- `drop(Style)`. -/
  | drop (h : Nat)
  /-- `Style::unregister` / `GlobalStyle::unregister`. -/
  | unregister (h : Nat)
  /-- `StyleManager::load_style_data`. -/
  | load (mh : Nat) (data : List Entry)
  /-- `StaticReader::read_style_data`. -/
  | readData (l : Nat)
  /-- `StyleManager::style_data` and a copy of it, as taken by `ManagerProvider`
  (`manager/ssr.rs` 83-90, `yew/provider.rs` 47-53). -/
  | styleData (mh : Nat)
  /-- Someone else changes the children of a container, leaving style elements alone. -/
  | page (i : Nat) (children : List Child)
deriving DecidableEq, Repr

/-- What an operation returns. `invalid`: the program has no such value any more (the
borrow checker rules this out). -/
inductive Out where
  | unit
  | mgr (mh : Nat)
  | style (h : Nat)
  | writer (l : Nat)
  | data (es : List Entry)
  | err (e : Err)
  | panic
  | invalid
deriving DecidableEq, Repr

/-- The manager behind a manager handle. -/
def St.mgrOf (s : St) (mh : Nat) : Option Nat := (s.mgrHandles[mh]?).join

/-- The content behind a style handle. -/
def St.contentOf (s : St) (h : Nat) : Option Nat := (s.handles[h]?).join

/-- `Weak::upgrade` succeeds (`manager/mod.rs` 115-119). -/
def St.mgrAlive (s : St) (i : Nat) : Bool := s.mgrHandles.elem (some i)

/-- Drop the references of a registry one after the other. -/
def releaseAll (env : Env) : List Nat → St → St
  | [], s => s
  | p :: ps, s => releaseAll env ps (s.release env p)

/-- The writer, if any, has not been given to a manager yet. -/
def St.writerFree (s : St) : Option Nat → Bool
  | none => true
  | some l => (s.logs[l]?).any (fun log => !log.writerTaken)

/-- The writer is moved into a builder (`manager/ssr.rs` 71-74). -/
def St.takeWriter (s : St) : Option Nat → List Log
  | none => s.logs
  | some l => s.logs.modify l (fun log => { log with writerTaken := true })

/-- `StyleManagerBuilder::build` (`manager/mod.rs` 96-106), with `doc_head`
(`arch.rs` 15-18) as the default container in a browser. -/
def newMgr (env : Env) (pref : Str) (container : Option Nat) (append : Bool) (writer : Option Nat)
    (s : St) : St × Out :=
  if s.writerFree writer && container.all (fun i => decide (i < s.dom.length)) then
    let head := env.head.filter (fun i => decide (i < s.dom.length))
    let container := if env.wasm then container.or head else container
    if env.wasm && container.isNone then ({ s with logs := s.takeWriter writer }, .err .web)
    else
      ({ s with
          logs := s.takeWriter writer
          mgrs := s.mgrs ++ [{ pref, container, append, log := writer, reg := [], borrowed := false }]
          mgrHandles := s.mgrHandles ++ [some s.mgrs.length] },
        .mgr s.mgrHandles.length)
  else (s, .invalid)

/-- Creating a style (`style.rs` 83-162, `global_style.rs` 20-63): parse, register, and
hand out a handle. -/
def create (env : Env) (mh : Nat) (kind : Kind) (src : Source) (fault : Bool) (s : St) : St × Out :=
  match s.mgrOf mh with
  | none => (s, .invalid)
  | some i =>
    match s.mgrs[i]? with
    | none => (s, .invalid)
    | some m =>
      match src.sheet? with
      | none => (s, .err .parse)
      | some ast =>
        match getOrRegister env fault i (kind.key m.pref ast) s with
        | (s, .ok p) => ({ s with handles := s.handles ++ [some p] }, .style s.handles.length)
        | (s, .err e) => (s, .err e)
        | (s, .panic) => (s, .panic)

/-- One operation. -/
def step (env : Env) (op : Op) (s : St) : St × Out :=
  match op with
  | .renderStatic =>
    ({ s with logs := s.logs ++ [{ entries := [], poisoned := false, writerTaken := false, readerTaken := false }] },
      .writer s.logs.length)
  | .newMgr pref container append writer => newMgr env pref container append writer s
  | .cloneMgr mh =>
    match s.mgrOf mh with
    | none => (s, .invalid)
    | some i => ({ s with mgrHandles := s.mgrHandles ++ [some i] }, .mgr s.mgrHandles.length)
  | .dropMgr mh =>
    match s.mgrOf mh with
    | none => (s, .invalid)
    | some i =>
      let s := { s with mgrHandles := s.mgrHandles.set mh none }
      if s.mgrAlive i then (s, .unit)
      else
        match s.mgrs[i]? with
        | none => (s, .unit)
        | some m => (releaseAll env (m.reg.map Prod.snd) (s.modMgr i (fun m => { m with reg := [] })), .unit)
  | .create mh kind src fault => create env mh kind src fault s
  | .clone h =>
    match s.contentOf h with
    | none => (s, .invalid)
    | some p => ({ s with handles := s.handles ++ [some p] }, .style s.handles.length)
  | .drop h =>
    match s.contentOf h with
    | none => (s, .invalid)
    | some p => (({ s with handles := s.handles.set h none } : St).release env p, .unit)
  | .unregister h =>
    match s.contentOf h with
    | none => (s, .invalid)
    | some p =>
      match s.heap[p]? with
      | none => (s, .invalid)
      | some c =>
        -- `StyleContent::unregister` (`manager/content.rs` 36-40).
        if s.mgrAlive c.mgr then
          match unregisterStyle env c.mgr c.key s with
          | (s, .ok ()) => (s, .unit)
          | (s, .err e) => (s, .err e)
          | (s, .panic) => (s, .panic)
        else (s, .unit)
  | .load mh data =>
    match s.mgrOf mh with
    | none => (s, .invalid)
    | some i =>
      match loadStyleData i data s with
      | (s, .ok ()) => (s, .unit)
      | (s, .err e) => (s, .err e)
      | (s, .panic) => (s, .panic)
  | .readData l =>
    match s.logs[l]? with
    | none => (s, .invalid)
    | some log =>
      if log.readerTaken then (s, .invalid)
      else
        ({ s with logs := s.logs.set l { log with readerTaken := true } },
          .data (if log.poisoned then [] else log.entries))
  | .styleData mh =>
    match s.mgrOf mh with
    | none => (s, .invalid)
    | some i =>
      match (s.mgrs[i]?).bind Mgr.log with
      | none => (s, .data [])
      | some l =>
        match s.logs[l]? with
        | none => (s, .invalid)
        | some log => (s, if log.poisoned then .panic else .data log.entries)
  | .page i children =>
    if (s.dom.childrenOf i).filter Child.isStyle = children.filter Child.isStyle then
      ({ s with dom := s.dom.setChildren i children }, .unit)
    else (s, .invalid)

/-- A history of operations. -/
def run (env : Env) : List Op → St → St
  | [], s => s
  | op :: ops, s => run env ops (step env op s).1

/-- A fresh process with the page as the server sent it. -/
def St.init (d : Dom) : St :=
  { ctr := 0, dom := d, logs := [], mgrs := [], mgrHandles := [], heap := [], handles := [] }

/-! ## What the user sees -/

/-- `get_class_name` / `id` (`style.rs` 179-181, 224-226, `global_style.rs` 96-98). -/
def St.className (s : St) (h : Nat) : Option Str :=
  (s.contentOf h).bind (fun p => (s.heap[p]?).map Content.id)

/-- `get_style_str` (`style.rs` 201-203, `global_style.rs` 83-85). -/
def St.styleText (s : St) (h : Nat) : Option Str :=
  (s.contentOf h).bind (fun p => (s.heap[p]?).map Content.text)

end Manager
