import Verif.Model.Manager

/-!
# The builder of a manager

Models the methods of `StyleManagerBuilder` and the methods of `StyleManager` that tell what it was
built with (`packages/stylist/src/manager/mod.rs` 33-107, 129-153, `manager/ssr.rs` 65-75).
-/

namespace Manager

/-- A call of a method of `StyleManagerBuilder` that sets something. -/
inductive BuilderCall where
  /-- `prefix` (`manager/mod.rs` 71-75). -/
  | pref (value : Str)
  /-- `container` (`manager/mod.rs` 78-82). -/
  | container (node : Nat)
  /-- `append` (`manager/mod.rs` 89-92). -/
  | append (value : Bool)
  /-- `writer` (`manager/ssr.rs` 71-74). -/
  | writer (w : Nat)
deriving DecidableEq, Repr

/-- `StyleManagerBuilder` (`manager/mod.rs` 33-44); its registry is empty until it is built. -/
structure Builder where
  pref : Str
  container : Option Nat
  append : Bool
  log : Option Nat
deriving DecidableEq, Repr

/-- `StyleManagerBuilder::new`, `default`, `StyleManager::builder` (`manager/mod.rs` 46-57, 66-68,
134-136). -/
def Builder.new : Builder := { pref := c! "stylist", container := none, append := true, log := none }

/-- The methods that set something (`manager/mod.rs` 71-92, `manager/ssr.rs` 71-74). A writer that
is replaced by another one is dropped with the call; here it stays usable, which allows more
histories. -/
def Builder.set (b : Builder) : BuilderCall → Builder
  | .pref value => { b with pref := value }
  | .container node => { b with container := some node }
  | .append value => { b with append := value }
  | .writer w => { b with log := some w }

/-- `StyleManager::builder()`, some calls, `build()` (`manager/mod.rs` 95-107), as one operation. Without
calls it is `StyleManager::new()` (129-131). -/
def buildOp (calls : List BuilderCall) : Op :=
  let b := calls.foldl Builder.set Builder.new
  .newMgr b.pref b.container b.append b.log

/-- The same, done (`manager/mod.rs` 95-107). -/
def buildWith (env : Env) (calls : List BuilderCall) (s : St) : St × Out := step env (buildOp calls) s

/-- `StyleManager::prefix` (`manager/mod.rs` 145-147). -/
def St.mgrPrefix (s : St) (mh : Nat) : Option Str := (s.mgrOf mh).bind fun i => (s.mgrs[i]?).map Mgr.pref

/-- `StyleManager::container` (`manager/mod.rs` 150-152). -/
def St.mgrContainer (s : St) (mh : Nat) : Option (Option Nat) :=
  (s.mgrOf mh).bind fun i => (s.mgrs[i]?).map Mgr.container

/-- `PartialEq for StyleManager` (`manager/mod.rs` 58-62): the same `Rc`. -/
def St.mgrEq (s : St) (a b : Nat) : Option Bool :=
  match s.mgrOf a, s.mgrOf b with
  | some i, some j => some (i == j)
  | _, _ => none

end Manager
