import Verif.Model.Manager

/-!
# Reference counts

`Model/Manager` derives from the references that exist when a style or a manager goes. The
code does not look for references: it counts them. Here the same functions are modelled with
the counts, as the code has them: `Rc<StyleContent>`, `Rc<StyleKey>`, `Rc` and `Weak` of a
manager and the `Arc` of style data (`packages/stylist/src/manager/{mod,content,registry,ssr}.rs`,
`packages/stylist/src/{style,global_style}.rs`), with the clones that live in local variables.
Whether a style or a manager goes, and whether an upgrade succeeds, is read off the counts only.

Simplifications: those of `Model/Manager`, except for the first one. The flag of the `RefCell`
is left out (C27: it is never found set). Boxes are numbered as in `Model/Manager`; the key of
a style has the number of the style. Counts are functions, 0 for boxes that do not exist yet.
The `Rc` of a key that `load_style_data` makes for a style that exists already is gone at the
end of the same iteration and is left out.
-/

namespace Counts

open Manager

/-- The values (`st`, where `handles`, `mgrHandles` and the registries say who owns which
reference) and the counts of the boxes: strong counts of `Rc<StyleContent>` (`style.rs` 75-78,
`manager/registry.rs` 9), of `Rc<StyleKey>` (`manager/content.rs` 9, `manager/registry.rs` 9),
strong and weak counts of `Rc<StyleManagerBuilder>` (`manager/mod.rs` 109-125; as in the
standard library all strong references together own one weak one), and strong counts of
`Arc<Mutex<StyleData>>` (`manager/ssr.rs` 13-32). `under` says that a count was lowered below
0, that is, that something was dropped twice. -/
structure Mem where
  st : St
  content : Nat → Nat
  key : Nat → Nat
  mgr : Nat → Nat
  weak : Nat → Nat
  log : Nat → Nat
  under : Bool

/-- One more. -/
def inc (f : Nat → Nat) (p : Nat) : Nat → Nat := fun q => if q = p then f q + 1 else f q

/-- One less. -/
def dec (f : Nat → Nat) (p : Nat) : Nat → Nat := fun q => if q = p then f q - 1 else f q

/-- A new box. -/
def new (f : Nat → Nat) (p n : Nat) : Nat → Nat := fun q => if q = p then n else f q

/-- `drop(Rc<StyleKey>)`. -/
def dropKey (p : Nat) (m : Mem) : Mem := { m with key := dec m.key p, under := m.under || m.key p == 0 }

/-- `drop(Weak<StyleManagerBuilder>)`. -/
def dropWeak (i : Nat) (m : Mem) : Mem := { m with weak := dec m.weak i, under := m.under || m.weak i == 0 }

/-- `drop(Arc<Mutex<StyleData>>)`. -/
def dropLog (l : Nat) (m : Mem) : Mem := { m with log := dec m.log l, under := m.under || m.log l == 0 }

/-- `drop(Option<Arc<Mutex<StyleData>>>)`. -/
def dropLog? : Option Nat → Mem → Mem
  | none, m => m
  | some l, m => dropLog l m

/-- `drop(Rc<StyleContent>)`: at the last one `Drop for StyleContent` runs
(`manager/content.rs` 43-48), then the fields are dropped (`manager/content.rs` 7-13). -/
def dropContent (env : Env) (p : Nat) (m : Mem) : Mem :=
  let m := { m with content := dec m.content p, under := m.under || m.content p == 0 }
  if m.content p = 0 then
    match m.st.heap[p]? with
    | some c => dropWeak c.mgr (dropKey p { m with st := { m.st with dom := unmount env c.id m.st.dom } })
    | none => m
  else m

/-- The entries of a registry are dropped (`manager/registry.rs` 8-10). -/
def dropEntries (env : Env) : List (Key × Nat) → Mem → Mem
  | [], m => m
  | e :: es, m => dropEntries env es (dropContent env e.2 (dropKey e.2 m))

/-- `drop(Rc<StyleManagerBuilder>)`: at the last one the fields are dropped
(`manager/mod.rs` 34-44), then the weak reference of the strong ones. -/
def dropManager (env : Env) (i : Nat) (m : Mem) : Mem :=
  let m := { m with mgr := dec m.mgr i, under := m.under || m.mgr i == 0 }
  if m.mgr i = 0 then
    match m.st.mgrs[i]? with
    | some g =>
      dropWeak i (dropLog? g.log (dropEntries env g.reg { m with st := m.st.modMgr i (fun g => { g with reg := [] }) }))
    | none => m
  else m

/-- A piece of code that has a `StyleManager` of its own, which is dropped at the end, also by
unwinding (`style.rs` 130-132, 148; `global_style.rs` 20-34; `manager/content.rs` 36-40). -/
def withManager {α : Type} (env : Env) (i : Nat) (f : Mem → Mem × α) (m : Mem) : Mem × α :=
  let r := f { m with mgr := inc m.mgr i }
  (dropManager env i r.1, r.2)

/-- `StyleRegistry::register` (`manager/registry.rs` 13-17) of a clone, for a key that is not
there: `content.clone()` and `content.key().clone()` go into the map. -/
def register (i : Nat) (key : Key) (p : Nat) (m : Mem) : Mem :=
  { m with
    content := inc m.content p
    key := inc m.key p
    st := m.st.modMgr i (fun g => { g with reg := regInsert g.reg key p }) }

/-- `get_or_register_style` (`manager/mod.rs` 155-208). The result is owned by the caller. -/
def getOrRegister (env : Env) (fault : Bool) (i : Nat) (g : Mgr) (key : Key) (m : Mem) : Mem × Res Nat :=
  -- `self.downgrade()`
  let m := { m with weak := inc m.weak i }
  match regGet g.reg key with
  | some p => (dropWeak i { m with content := inc m.content p }, .ok p)
  | none =>
    let id := makeId key (env.entropy m.st.ctr)
    let m := { m with st := { m.st with ctr := m.st.ctr + 1 } }
    let text := key.ast.toStyleStr (if key.isGlobal then none else some id)
    if env.debugParser && (Css.parse text).isNone then (dropWeak i m, .panic)
    else
      let c : Content := { id, key, text, mgr := i, origin := .created }
      let p := m.st.heap.length
      -- The weak reference moves into the content.
      let m := { m with
        st := { m.st with heap := m.st.heap ++ [c] }
        content := new m.content p 1
        key := new m.key p 1 }
      match g.log with
      | some l =>
        match m.st.logs[l]? with
        | none => (dropContent env p m, .panic)
        | some log =>
          let m := { m with st := { m.st with
            logs := m.st.logs.set l { log with entries := log.entries ++ [{ key, id, text }] } } }
          (register i key p m, .ok p)
      | none =>
        match mount env fault g c m.st.dom with
        | none => (dropContent env p m, .err .web)
        | some d => (register i key p { m with st := { m.st with dom := d } }, .ok p)

/-- `Style::…` / `GlobalStyle::new_with_manager` (`style.rs` 83-162, `global_style.rs` 20-63). -/
def create (env : Env) (mh : Nat) (kind : Kind) (src : Source) (fault : Bool) (m : Mem) : Mem × Out :=
  match m.st.mgrOf mh with
  | none => (m, .invalid)
  | some i =>
    match m.st.mgrs[i]? with
    | none => (m, .invalid)
    | some g =>
      match src.sheet? with
      | none => (m, .err .parse)
      | some ast =>
        match withManager env i (getOrRegister env fault i g (kind.key g.pref ast)) m with
        | (m, .ok p) => ({ m with st := { m.st with handles := m.st.handles ++ [some p] } }, .style m.st.handles.length)
        | (m, .err e) => (m, .err e)
        | (m, .panic) => (m, .panic)

/-- The loop of `load_style_data` (`manager/mod.rs` 374-397). -/
def loadBody (i : Nat) : List Entry → Mem → Mem × Out
  | [], m => (m, .unit)
  | e :: es, m =>
    match m.st.mgrs[i]? with
    | none => (m, .panic)
    | some g =>
      match regGet g.reg e.key with
      | some p =>
        match m.st.heap[p]? with
        | none => (m, .panic)
        | some c => if c.id = e.id then loadBody i es m else (m, .panic)
      | none =>
        let c : Content :=
          { id := e.id, key := e.key, text := e.key.ast.toStyleStr (some e.id), mgr := i, origin := .hydrated }
        let p := m.st.heap.length
        -- `key` is in the map and in the content; the local one is dropped.
        loadBody i es { m with
          st := ({ m.st with heap := m.st.heap ++ [c] } : St).modMgr i (fun g => { g with reg := regInsert g.reg e.key p })
          content := new m.content p 1
          key := new m.key p 2
          weak := inc m.weak i }

/-- `StyleManager::unregister_style` (`manager/mod.rs` 210-212, `manager/registry.rs` 19-21). -/
def unregisterStyle (env : Env) (i : Nat) (key : Key) (m : Mem) : Mem :=
  match (m.st.mgrs[i]?).bind (fun g => regGet g.reg key) with
  | none => m
  | some p =>
    dropContent env p (dropKey p { m with st := m.st.modMgr i (fun g => { g with reg := regRemove g.reg key }) })

/-- One operation of the public API, as in `Manager.step`. -/
def step (env : Env) (op : Op) (m : Mem) : Mem × Out :=
  match op with
  | .renderStatic =>
    -- `manager/ssr.rs` 35-44: a writer and a reader.
    ({ m with
        st := { m.st with
          logs := m.st.logs ++ [{ entries := [], poisoned := false, writerTaken := false, readerTaken := false }] }
        log := new m.log m.st.logs.length 2 },
      .writer m.st.logs.length)
  | .newMgr pref container append writer =>
    -- `manager/mod.rs` 96-106: the builder moves into the box, or is dropped on an error.
    let r := newMgr env pref container append writer m.st
    match r.2 with
    | .mgr _ => ({ m with st := r.1, mgr := new m.mgr m.st.mgrs.length 1, weak := new m.weak m.st.mgrs.length 1 }, r.2)
    | .err _ => (dropLog? writer { m with st := r.1 }, r.2)
    | _ => ({ m with st := r.1 }, r.2)
  | .cloneMgr mh =>
    match m.st.mgrOf mh with
    | none => (m, .invalid)
    | some i =>
      ({ m with st := { m.st with mgrHandles := m.st.mgrHandles ++ [some i] }, mgr := inc m.mgr i },
        .mgr m.st.mgrHandles.length)
  | .dropMgr mh =>
    match m.st.mgrOf mh with
    | none => (m, .invalid)
    | some i => (dropManager env i { m with st := { m.st with mgrHandles := m.st.mgrHandles.set mh none } }, .unit)
  | .create mh kind src fault => create env mh kind src fault m
  | .clone h =>
    match m.st.contentOf h with
    | none => (m, .invalid)
    | some p =>
      ({ m with st := { m.st with handles := m.st.handles ++ [some p] }, content := inc m.content p },
        .style m.st.handles.length)
  | .drop h =>
    match m.st.contentOf h with
    | none => (m, .invalid)
    | some p => (dropContent env p { m with st := { m.st with handles := m.st.handles.set h none } }, .unit)
  | .unregister h =>
    match m.st.contentOf h with
    | none => (m, .invalid)
    | some p =>
      match m.st.heap[p]? with
      | none => (m, .invalid)
      | some c =>
        -- `Weak::upgrade` (`manager/mod.rs` 115-119): succeeds if the strong count is not 0.
        if m.mgr c.mgr ≠ 0 then withManager env c.mgr (fun m => (unregisterStyle env c.mgr c.key m, .unit)) m
        else (m, .unit)
  | .load mh data =>
    match m.st.mgrOf mh with
    | none => (m, .invalid)
    | some i => loadBody i data m
  | .readData l =>
    -- `manager/ssr.rs` 20-25: the reader is consumed.
    let r := Manager.step env op m.st
    match r.2 with
    | .data _ => (dropLog l { m with st := r.1 }, r.2)
    | _ => ({ m with st := r.1 }, r.2)
  | .styleData _ | .page _ _ => ({ m with st := (Manager.step env op m.st).1 }, (Manager.step env op m.st).2)

/-- A history of operations. -/
def run (env : Env) : List Op → Mem → Mem
  | [], m => m
  | op :: ops, m => run env ops (step env op m).1

/-- The results of a history. -/
def outs (env : Env) : List Op → Mem → List Out
  | [], _ => []
  | op :: ops, m => (step env op m).2 :: outs env ops (step env op m).1

/-- A fresh process. -/
def Mem.init (d : Dom) : Mem :=
  { st := St.init d
    content := fun _ => 0
    key := fun _ => 0
    mgr := fun _ => 0
    weak := fun _ => 0
    log := fun _ => 0
    under := false }

end Counts
