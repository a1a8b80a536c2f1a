import Verif.Proofs.Value
import Verif.Props.Macros
import Verif.Props.Browser

/-!
# Values given to the macros

C72.
-/

open Spec Output Storage

namespace Macros

/-! ## C72: values stay in their places -/

/-- **C72, partial.** A macro call with a string literal whose texts are whole around the
places for values. Whenever it is evaluated, and the values of the arguments that are used
outside of strings are closed (strings and brackets closed, no braces and semicolons outside
of them, no comments), and those of arguments used in strings are plain text, a browser reads
the generated text as exactly the declarations of the literal with the values put in: as many,
in the same order, with the same keys and as many conditions.
Missing: other values, for which it is false (`C72_false`). -/
theorem C72_values_stay_partial (isExpr : RExpr → Bool) (t s : Str) (rest : List Tree) (code : CSheet)
    (h : Macro.expand isExpr (.lit t (some s) :: rest) = some code) :
    ∃ sheet args, Css.parse s = some sheet ∧ ArgTokens rest args ∧
      (∀ N : Names, WholeTemplateSheet N sheet → ∀ ρs : List Env,
        (∀ ρ ∈ ρs, ∀ name e, (name, e) ∈ args →
          (name ∈ N.outside → ClosedValue (ρ e)) ∧ (name ∈ N.inside → StringText (ρ e))) →
        ∃ ts, code.evalMany ρs none = some ts ∧ ts.length = ρs.length ∧
          ∀ (i : Nat) ρ, ρs[i]? = some ρ → ∃ t, ts[i]? = some t ∧
            ∀ cls : Option Str, (∀ c ∈ cls, CleanClass c) →
              ∃ ds, browserReads ((eraseSheet t).toStyleStr cls) = some ds ∧ ds = decls cls (eraseSheet t) ∧
                ReplacedDecls (argText args ρ) (decls cls sheet) ds) := by
  obtain ⟨sheet, args, h1, h2, h3⟩ := C39_substitutes isExpr t s rest code h
  refine ⟨sheet, args, h1, h2, fun N hs ρs hρ => ?_⟩
  obtain ⟨ts, h4, h5, h6⟩ := h3 ρs
  refine ⟨ts, h4, h5, fun i ρ hi => ?_⟩
  obtain ⟨t, h7, h8⟩ := h6 i ρ hi
  refine ⟨t, h7, fun cls hcls => ?_⟩
  have hσ : ValueP.Fits N (argText args ρ) := by
    intro n v hv
    obtain ⟨e, he, rfl⟩ := Option.map_eq_some_iff.1 hv
    obtain ⟨l1, l2, rfl, -⟩ := List.lookup_eq_some_iff.1 he
    exact hρ ρ (List.mem_of_getElem? hi) n e (by simp)
  exact ⟨_, C68_browser_reads _ cls hcls (ValueP.whole_sheet hσ hs h8), rfl, ValueP.decls_replaced h8 cls⟩

/-- The tokens of `"color: ${x}; .a:is(${y}) { margin: calc(1px + ${x}) \"${\" / 2; content: \"/${z}*\"; }"`
and the arguments. -/
def valueCall : List Tree :=
  [.lit [] (some (c! "color: ${x}; .a:is(${y}) { margin: calc(1px + ${x}) \"$${\" / 2; content: \"/${z}*\"; }")),
    .punct ',' false, .ident (c! "x") false, .punct '=' false, .ident (c! "p") false,
    .punct ',' false, .ident (c! "y") false, .punct '=' false, .ident (c! "q") false,
    .punct ',' false, .ident (c! "z") false, .punct '=' false, .ident (c! "r") false]

/-- Values with brackets, strings and structural characters inside of them. -/
def valueEnv : RExpr → Str
  | [.ident ['p'] false] => c! "f(1; 2, \"}\")"
  | [.ident ['r'] false] => c! "*}; {[ "
  | _ => c! "[a=';{'], *"

/-- The sheet of the literal. -/
def valueSheet : Sheet :=
  [.block [] [.attr (c! "color") [c! "${x}"]],
    .block [[c! ".a:is(${y})"]] [.attr (c! "margin") [c! "calc(1px + ${x}) \"$${\" / 2"],
      .attr (c! "content") [c! "\"/${z}*\""]]]

/-- Where the arguments are used. -/
def valueNames : Names := ⟨[c! "x", c! "y"], [c! "z"]⟩

set_option maxRecDepth 4000 in
/-- Non-vacuity: the call is accepted, the literal is whole and the values are closed; the
declarations that a browser reads. -/
example : Css.parse (c! "color: ${x}; .a:is(${y}) { margin: calc(1px + ${x}) \"$${\" / 2; content: \"/${z}*\"; }") =
      some valueSheet ∧
    (Macro.expand (fun _ => true) valueCall).isSome = true ∧
    ClosedValue (valueEnv [.ident (c! "p") false]) ∧ ClosedValue (valueEnv [.ident (c! "q") false]) ∧
    StringText (valueEnv [.ident (c! "r") false]) ∧
    (((Macro.expand (fun _ => true) valueCall).bind (fun c => c.evalMany [valueEnv] none)).bind (fun ts =>
      ts.head?.bind (fun t => browserReads ((eraseSheet t).toStyleStr (some (c! "k")))))) = some
      [ ⟨[c! ".k"], c! "color", c! "f(1; 2, \"}\")"⟩,
        ⟨[c! ".k .a:is([a=';{'], *)"], c! "margin", c! "calc(1px + f(1; 2, \"}\")) \"${\" / 2"⟩,
        ⟨[c! ".k .a:is([a=';{'], *)"], c! "content", c! "\"/*}; {[ *\""⟩ ] := by
  refine ⟨by decide +kernel, by decide +kernel, by decide +kernel, by decide +kernel, by decide +kernel, by decide +kernel⟩

example : WholeTemplateSheet valueNames valueSheet := by
  refine ⟨⟨by simp, ⟨⟨by decide, by decide⟩, ?_⟩, trivial⟩, ⟨?_, ⟨⟨by decide, by decide⟩, ?_⟩, ⟨⟨by decide, by decide⟩, ?_⟩, trivial⟩,
    trivial⟩
  · exact ⟨by decide, [.hole [] (c! "x") []], ⟨by simp [Piece.Ok, Spaces, ArgName]; decide, by decide⟩, trivial, by decide⟩
  · intro s hs
    simp only [List.mem_cons, List.not_mem_nil, or_false] at hs
    subst hs
    exact ⟨⟨by decide, [.run (c! ".a:is("), .hole [] (c! "y") [], .run (c! ")")],
      ⟨by simp [Piece.Ok, Spaces, ArgName]; decide, by decide⟩, trivial, by decide⟩, by decide⟩
  · exact ⟨by decide, [.run (c! "calc(1px + "), .hole [] (c! "x") [], .run (c! ") \""), .escape, .run (c! "\" / 2")],
      ⟨by simp [Piece.Ok, Spaces, ArgName]; decide, by decide⟩, trivial, by decide +kernel⟩
  · exact ⟨by decide, [.run (c! "\"/"), .hole [] (c! "z") [], .run (c! "*\"")],
      ⟨by simp [Piece.Ok, Spaces, ArgName]; decide, by decide⟩, trivial, by decide +kernel⟩

/-- **C72 is false** for other values, also with the check of debug builds: the value
`red; top: 0` adds a declaration, and `red; } * { top: 0` adds one that is not scoped. -/
theorem C72_false : ∃ (t1 t2 : Sheet),
    (((Macro.expand (fun _ => true) demoCall).bind (fun c =>
      c.evalMany [fun _ => c! "red; top: 0", fun _ => c! "red; } * { top: 0"] none)).map (List.map eraseSheet)) = some [t1, t2] ∧
    (∃ s1, Manager.step { Manager.demoEnv with debugParser := true } (.create 0 .scoped (.sheet t1) false)
      (Manager.run Manager.demoEnv (Manager.demoOps.take 1) (Manager.St.init Manager.demoPage)) = (s1, .style 0)) ∧
    (∃ s2, Manager.step { Manager.demoEnv with debugParser := true } (.create 0 .scoped (.sheet t2) false)
      (Manager.run Manager.demoEnv (Manager.demoOps.take 1) (Manager.St.init Manager.demoPage)) = (s2, .style 0)) ∧
    browserReads (t1.toStyleStr (some (c! "k"))) =
      some [⟨[c! ".k"], c! "color", c! "red"⟩, ⟨[c! ".k"], c! "top", c! "0"⟩] ∧
    browserReads (t2.toStyleStr (some (c! "k"))) =
      some [⟨[c! ".k"], c! "color", c! "red"⟩, ⟨[c! "*"], c! "top", c! "0"⟩] := by
  refine ⟨[.block [] [.attr (c! "color") [c! "red; top: 0"]]], [.block [] [.attr (c! "color") [c! "red; } * { top: 0"]]],
    by decide +kernel, ⟨_, Prod.ext rfl ?_⟩, ⟨_, Prod.ext rfl ?_⟩, ?_, ?_⟩ <;> decide +kernel

end Macros

namespace Manager

/-- What debug builds check: in any history, the text of a style that is made by a manager
(not loaded) can be parsed. Otherwise the creation panics. -/
theorem C72_debug_check (env : Env) (hd : env.debugParser = true) (d : Dom) (ops : List Op) (s : St)
    (hs : s = run env ops (St.init d)) (c : Content) (hc : c ∈ s.heap) (ho : c.origin = .created) :
    ∃ sh, Css.parse c.text = some sh := by
  have key : ∀ (ops : List Op) (s : St), Inv s → (∀ c ∈ s.heap, c.origin = .created → ∃ sh, Css.parse c.text = some sh) →
      ∀ c ∈ (run env ops s).heap, c.origin = .created → ∃ sh, Css.parse c.text = some sh := by
    intro ops
    induction ops with
    | nil => intro s _ h; exact h
    | cons op ops ih =>
      intro s hi h
      rw [run]
      refine ih _ (inv_step env op hi) ?_
      have same : ∀ c0 : Content, (env.debugParser = true → Css.parse c0.text ≠ none) →
          ∀ c ∈ s.heap ++ [c0], c.origin = .created → ∃ sh, Css.parse c.text = some sh := by
        intro c0 h0 c hc ho
        rcases List.mem_append.1 hc with hc | hc
        · exact h c hc ho
        · simp only [List.mem_cons, List.not_mem_nil, or_false] at hc
          subst hc
          exact Option.ne_none_iff_exists'.1 (h0 hd)
      have htr := step_tr env hi op
      generalize (step env op s).1 = s', (step env op s).2 = out at htr
      cases htr with
      | createStatic mh kind src fault _ i m0 ast l log c hm hm0 hsrc hg hc hdbg => exact same c hdbg
      | createFail mh kind src fault _ i m0 ast c hm hm0 hsrc hg hc hdbg => exact same c hdbg
      | createMount mh kind src fault _ i m0 ast c d hm hm0 hsrc hg hc hdbg => exact same c hdbg
      | dropMgrLast => rw [(releaseAll_fields env _ _).1]; exact h
      | drop => rw [(release_fields env _ _).1]; exact h
      | unregister => rw [(release_fields env _ _).1]; exact h
      | load mh i data _ _ r _ h' hr _ =>
        obtain ⟨es', -, h3⟩ := hr.newContents
        rw [h3]
        intro c hc ho
        rcases List.mem_append.1 hc with hc | hc
        · exact h c hc ho
        · obtain ⟨e, -, rfl⟩ := List.mem_map.1 hc
          cases ho
      | _ => exact h
  exact key ops _ (Inv.init d) (by simp [St.init]) c (hs ▸ hc) ho

/-- Non-vacuity: the value `red; }` is found by the check, a plain one is not. -/
example : (step { demoEnv with debugParser := true }
      (.create 0 .scoped (.sheet [.block [] [.attr (c! "color") [c! "red; }"]]]) false)
      (run demoEnv (demoOps.take 1) (St.init demoPage))).2 = .panic ∧
    (step { demoEnv with debugParser := true } (.create 0 .scoped (.sheet demoRed) false)
      (run demoEnv (demoOps.take 1) (St.init demoPage))).2 = .style 0 := by
  constructor <;> decide +kernel

end Manager
