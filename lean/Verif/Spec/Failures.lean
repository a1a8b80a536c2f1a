import Verif.Model.Failures

/-!
# Why a style cannot be made
-/

namespace Spec

open Manager (Env St Mgr Source Kind makeId)

/-- The css is refused, with this report (see C85). -/
def Refused (css report : Str) : Prop := ∃ places, Report.parse css = .error (places, report)

/-- The text that would be generated for the next style. -/
def nextText (env : Env) (s : St) (m : Mgr) (kind : Kind) (ast : Sheet) : Str :=
  ast.toStyleStr (if kind = .global then none else some (makeId (kind.key m.pref ast) (env.entropy s.ctr)))

/-- There is no such style yet. -/
def NewStyle (m : Mgr) (kind : Kind) (ast : Sheet) : Prop := kind.key m.pref ast ∉ m.reg.map Prod.fst

/-- Why manager `m` makes no style of `src` in state `s`, and what is said about it.
* `parse`: the css text is refused.
* `debug`: a debug build refuses the text that it generated; `what` is not said then.
* `web`: in a browser, the style is new, and the browser refuses, or the manager prepends to a
  container that is not empty. -/
inductive Failure (env : Env) (s : St) (m : Mgr) (kind : Kind) (fault : Bool) (what : Str) : Source → Str → Prop where
  | parse (css report : Str) : Refused css report →
      Failure env s m kind fault what (.text css) (what ++ c! ": " ++ report)
  | debug (src : Source) (ast : Sheet) (report : Str) : src.sheet? = some ast → NewStyle m kind ast →
      env.debugParser = true → Refused (nextText env s m kind ast) report →
      Failure env s m kind fault what src
        (c! "debug: Stylist failed to parse the style with interpolated values: " ++ report)
  | web (src : Source) (ast : Sheet) : src.sheet? = some ast → NewStyle m kind ast →
      (env.debugParser = true → ∀ report, ¬ Refused (nextText env s m kind ast) report) →
      env.wasm = true → m.log = none →
      (fault = true ∨ (m.append = false ∧ ∃ k, m.container = some k ∧ s.dom.childrenOf k ≠ [])) →
      Failure env s m kind fault what src
        (what ++ c! ": Failed to Interact with Web API. Are you running in Browser?")

end Spec
