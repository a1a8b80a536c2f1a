import Verif.Model.Manager

/-!
# The unit tests of managers, in the model

Tests, not proofs: they compare the model with the results that the repository's own tests
expect of the code (`stylist/src/manager/registry.rs`, `stylist/src/utils.rs`), outside of a
browser.
-/

namespace Tests

open Manager

set_option maxRecDepth 16000

/-- Not in a browser, without `debug_parser`; ids are counted. -/
def env : Env :=
  { wasm := false, debugParser := false, entropy := counterEntropy, head := none, oddQuery := fun _ _ => none }

/-- `sample_scopes` (`registry.rs` 34-36). -/
def sample : Source := .text (c! "color: red;")

/-- The default manager exists. -/
def start : St := run env [.newMgr (c! "stylist") none true none] (St.init [])

/-- `test_duplicate_style` (`registry.rs` 43-59). -/
example : let s := run env [.create 0 .scoped sample false, .create 0 .scoped sample false] start
    (s.styleText 0).isSome ∧ s.styleText 0 = s.styleText 1 := by decide +kernel

/-- `test_duplicate_style_different_prefix` (`registry.rs` 61-69). -/
example : let s := run env [.create 0 (.withPrefix (c! "element-a")) sample false,
      .create 0 (.withPrefix (c! "element-b")) sample false] start
    (s.className 0).isSome ∧ (s.className 1).isSome ∧ s.className 0 ≠ s.className 1 := by decide +kernel

/-- `test_unregister` (`registry.rs` 71-99). -/
example : let key : Key := { isGlobal := false, pref := c! "secret", ast := [.block [] [.attr (c! "color") [c! "red"]]] }
    let s := run env [.create 0 (.withPrefix (c! "secret")) sample false] start
    let s' := run env [.unregister 0] s
    (s.mgrs.map (fun m => (regGet m.reg key).isSome)) = [true] ∧
      (s'.mgrs.map (fun m => (regGet m.reg key).isSome)) = [false] := by decide +kernel

/-- `test_counter` (`utils.rs`): successive ids. -/
example : [counterEntropy 0, counterEntropy 1, counterEntropy 2, counterEntropy 3, counterEntropy 4, counterEntropy 5].Nodup := by
  decide +kernel

end Tests
