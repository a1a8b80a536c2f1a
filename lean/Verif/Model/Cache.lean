import Verif.Model.Parser

/-!
# The parse cache

Models `impl FromStr for Sheet` (`packages/stylist-core/src/ast/sheet.rs` 83-113).
-/

namespace Cache

/-- `CACHED_SHEETS: Mutex<HashMap<String, Sheet>>` (`ast/sheet.rs` 91): an association
list, the newest entry of a key first. -/
abbrev Map := List (Str × Sheet)

/-- `HashMap::get`. -/
def Map.get (m : Map) (s : Str) : Option Sheet := (m.find? (fun e => e.1 = s)).map Prod.snd

/-- `Sheet::from_str` (`ast/sheet.rs` 96-111), run to completion: new cache and result
(`none` is the parse error). -/
def fromStr (m : Map) (s : Str) : Map × Option Sheet :=
  match m.get s with
  | some x => (m, some x)
  | none =>
    match Css.parse s with
    | none => (m, none)
    | some x => ((s, x) :: m, some x)

/-- A sequence of calls, one after the other. -/
def runCalls (m : Map) : List Str → List (Option Sheet)
  | [] => []
  | s :: ss => (fromStr m s).2 :: runCalls (fromStr m s).1 ss

/-! ## Threads -/

/-- Where a thread is inside `from_str`. -/
inductive Pc where
  | idle
  /-- Waiting at `lock()` (100). -/
  | wantLock (s : Str)
  /-- Holds the lock, before `get` (102). -/
  | locked (s : Str)
  /-- Missed the cache, before `Parser::parse` (106). -/
  | missed (s : Str)
  /-- Parsed, before `insert` (108). -/
  | parsed (s : Str) (x : Sheet)
  /-- About to return (103, 106 or 110), which drops the guard. -/
  | returning (s : Str) (r : Option Sheet)
deriving DecidableEq, Repr

/-- All threads, the owner of the mutex, the cache, and the finished calls with their
results. -/
structure State where
  pc : Nat → Pc
  lock : Option Nat
  cache : Map
  log : List (Str × Option Sheet)

/-- Everything idle, nothing cached. -/
def State.init : State := { pc := fun _ => .idle, lock := none, cache := [], log := [] }

/-- Thread `t` moves to `p`. -/
def State.goto (st : State) (t : Nat) (p : Pc) : State :=
  { st with pc := fun u => if u = t then p else st.pc u }

/-- A scheduler choice: thread `t` makes its next step; an idle thread calls
`from_str` on `arg`. -/
structure Choice where
  t : Nat
  arg : Str

/-- One atomic step of `Sheet::from_str` (`ast/sheet.rs` 96-111). -/
def State.step (st : State) (c : Choice) : State :=
  match st.pc c.t with
  | .idle => st.goto c.t (.wantLock c.arg)
  | .wantLock s =>
    match st.lock with
    | some _ => st
    | none => { st.goto c.t (.locked s) with lock := some c.t }
  | .locked s =>
    match st.cache.get s with
    | some x => st.goto c.t (.returning s (some x))
    | none => st.goto c.t (.missed s)
  | .missed s =>
    match Css.parse s with
    | none => st.goto c.t (.returning s none)
    | some x => st.goto c.t (.parsed s x)
  | .parsed s x =>
    { st.goto c.t (.returning s (some x)) with cache := (s, x) :: st.cache }
  | .returning s r =>
    { st.goto c.t .idle with lock := none, log := st.log ++ [(s, r)] }

/-- A whole schedule. -/
def State.run (st : State) : List Choice → State
  | [] => st
  | c :: cs => (st.step c).run cs

end Cache
