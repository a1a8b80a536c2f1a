import Verif.Base

/-!
# Media query hooks

Model of `packages/stylist/src/yew/hooks/use_media_query.rs` as one component that calls
one of the hooks, with the browser around it.

Assumed about Yew (DESIGN.md): `use_state_eq` keeps its value between renders, ignores a
`set` with an equal value and otherwise has the component rendered again; a handle of an
earlier render sets the same state. `use_effect_with` schedules its effect if it is the
first render or the dependencies differ from those of the last scheduled one; before the
effect runs, what the previous one returned is run.
Assumed about the browser: `matches` is the current value; from time to time the browser
compares the current value of each media query list with the value at its creation or at
the last such comparison and, if they differ, calls the listeners for `change`.
-/

namespace Media

/-- Which hook: `use_media_query`, or `use_prepared_media_query` with the value from the
server (if any) and the fallback. -/
inductive Hook where
  | plain
  | prepared (value : Option Bool) (fallback : Bool)
deriving DecidableEq, Repr

/-- The component and the browser. -/
structure St where
  /-- Which queries match at the moment. -/
  media : Str → Bool
  /-- The query of the last render. -/
  query : Option Str
  /-- The value of `use_state_eq`. -/
  state : Bool
  /-- What the hook returned in the last render. -/
  shown : Bool
  /-- The state has changed and Yew will render again. -/
  dirty : Bool
  /-- The dependency of the last scheduled effect. -/
  deps : Option Str
  /-- The effect that is scheduled and has not run. -/
  effect : Option Str
  /-- The query whose list has the listener, and its value when the browser looked last. -/
  listener : Option (Str × Bool)

/-- Before the first render. -/
def St.init (media : Str → Bool) : St :=
  { media, query := none, state := false, shown := false, dirty := false, deps := none, effect := none, listener := none }

/-- `UseStateHandle::set` of `use_state_eq`. -/
def St.set (s : St) (v : Bool) : St := if v = s.state then s else { s with state := v, dirty := true }

/-- The initial value of the state. The Web API is available, otherwise the first hook
panics; the second one is only run without it on the server, where the prepared value is
the fallback.
/repo/packages/stylist/src/yew/hooks/use_media_query.rs 33, 81-89 -/
def Hook.first (k : Hook) (api : Option Bool) : Bool :=
  match k with
  | .plain => api.getD false
  | .prepared value fallback => (value.or api).getD fallback

/-- One render with a query.
/repo/packages/stylist/src/yew/hooks/use_media_query.rs 19-51, 66-112 -/
def render (k : Hook) (q : Str) (s : St) : St :=
  let s := if s.query.isNone then { s with state := k.first (some (s.media q)) } else s
  let s := if s.deps = some q then s else { s with deps := some q, effect := some q }
  { s with query := some q, shown := s.state, dirty := false }

/-- The scheduled effect runs: the old listener goes, the new one comes; the second hook
sets the state before.
/repo/packages/stylist/src/yew/hooks/use_media_query.rs 37-48, 93-109 -/
def runEffect (k : Hook) (s : St) : St :=
  match s.effect with
  | none => s
  | some q =>
    let s := { s with effect := none, listener := none }
    let s := match k with
      | .plain => s
      | .prepared _ _ => s.set (s.media q)
    { s with listener := some (q, s.media q) }

/-- The browser looks whether the list has changed, and calls the listener.
/repo/packages/stylist/src/yew/hooks/use_media_query.rs 41-43, 102-104 -/
def report (s : St) : St :=
  match s.listener with
  | none => s
  | some (q, last) =>
    if s.media q = last then s
    else { s with listener := some (q, s.media q) }.set (s.media q)

/-- What can happen. -/
inductive Event where
  | render (q : Str)
  | effect
  | media (f : Str → Bool)
  | report

/-- One event. -/
def step (k : Hook) (s : St) : Event → St
  | .render q => render k q s
  | .effect => runEffect k s
  | .media f => { s with media := f }
  | .report => report s

/-- A schedule. -/
def run (k : Hook) : List Event → St → St
  | [], s => s
  | e :: es, s => run k es (step k s e)

end Media
