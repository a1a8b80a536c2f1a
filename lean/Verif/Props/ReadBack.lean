import Verif.Proofs.ReadBack
import Verif.Props.Value

/-!
# Property theorems: exactly which sheets a browser reads back

C68 and C72, continued.
-/

open Spec

/-- **C68**, exactly: a browser reads the declarations of a sheet, each under its headers, and
comes to no comment, if and only if every declaration is whole on its own, with its headers.
The texts do not end with a backslash, and the names of animations, which are printed without
declarations too, are whole. -/
theorem C68_exactly (s : Sheet) (cls : Option Str) (hcls : ∀ c ∈ cls, ':' ∉ c)
    (hk : ∀ k ∈ keyframes cls s, ∀ h ∈ k, Whole h) (hb : ∀ d ∈ decls cls s, NoFinalBackslash d) :
    (browserReads (s.toStyleStr cls) = some (decls cls s) ∧ findsComment (.out 0) (s.toStyleStr cls) = false) ↔
      ∀ d ∈ decls cls s, WholeDecl d :=
  ⟨fun h d hd => ReadBackP.reads_whole h.2 h.1 d hd (hb d hd), fun h => ReadBackP.whole_reads s cls hcls h hk⟩

/-- Two sheets for the examples. The texts of the first one are not whole, its declarations
are: an unclosed bracket is closed by the next selector. -/
def splitSheet : Sheet :=
  [ .block [[c! ":is(a"], [c! "b)"]] [.attr (c! "top") [c! "\"/*\""]],
    .rule [c! "@keyframes ", c! "x"] [] ]

/-- The second one has a bracket that is not closed. -/
def openSheet : Sheet := [ .block [[c! "a"]] [.attr (c! "width") [c! "calc(1px"], .attr (c! "top") [c! "0"]] ]

set_option maxRecDepth 4000 in
/-- Non-vacuity, both ways. -/
example : ¬ WholeSheet splitSheet ∧ (∀ k ∈ keyframes (some (c! "k")) splitSheet, ∀ h ∈ k, Whole h) ∧
    (∀ d ∈ decls (some (c! "k")) splitSheet, NoFinalBackslash d) ∧ (∀ d ∈ decls (some (c! "k")) splitSheet, WholeDecl d) ∧
    browserReads (Sheet.toStyleStr splitSheet (some (c! "k"))) =
      some [⟨[c! ".k:is(a, .k b)"], c! "top", c! "\"/*\""⟩] ∧
    (∀ k ∈ keyframes (some (c! "k")) openSheet, ∀ h ∈ k, Whole h) ∧
    (∀ d ∈ decls (some (c! "k")) openSheet, NoFinalBackslash d) ∧ ¬ (∀ d ∈ decls (some (c! "k")) openSheet, WholeDecl d) ∧
    findsComment (.out 0) (Sheet.toStyleStr openSheet (some (c! "k"))) = false ∧
    browserReads (Sheet.toStyleStr openSheet (some (c! "k"))) ≠ some (decls (some (c! "k")) openSheet) := by
  decide +kernel

set_option maxRecDepth 4000 in
/-- Why final backslashes are excluded: a selector that ends with one is printed with a space
after it, so that a browser reads it back although it is not whole on its own. -/
theorem C68_limit_backslash :
    let s : Sheet := [.block [[c! "a\\"]] [.attr (c! "top") [c! "0"]]]
    browserReads (Sheet.toStyleStr s (some (c! "k"))) = some (decls (some (c! "k")) s) ∧
    ¬ ∀ d ∈ decls (some (c! "k")) s, WholeDecl d := by
  decide +kernel

namespace Macros

open Output Storage

/-- **C72**, exactly: when a macro call with a string literal is evaluated, the declarations
of the sheet are those of the literal with the values put in, whatever the values are. A
browser reads exactly these declarations in the generated text, and no comment, if and only if
each of them is whole on its own. (No text ends with a backslash, the names of animations are
whole.) -/
theorem C72_exactly (isExpr : RExpr → Bool) (t s : Str) (rest : List Tree) (code : CSheet)
    (h : Macro.expand isExpr (.lit t (some s) :: rest) = some code) :
    ∃ sheet args, Css.parse s = some sheet ∧ ArgTokens rest args ∧
      ∀ ρs : List Env, ∃ ts, code.evalMany ρs none = some ts ∧ ts.length = ρs.length ∧
        ∀ (i : Nat) ρ, ρs[i]? = some ρ → ∃ t, ts[i]? = some t ∧
          ∀ cls : Option Str, (∀ c ∈ cls, ':' ∉ c) →
            ReplacedDecls (argText args ρ) (decls cls sheet) (decls cls (eraseSheet t)) ∧
            ((∀ k ∈ keyframes cls (eraseSheet t), ∀ h ∈ k, Whole h) →
              (∀ d ∈ decls cls (eraseSheet t), NoFinalBackslash d) →
              ((browserReads ((eraseSheet t).toStyleStr cls) = some (decls cls (eraseSheet t)) ∧
                  findsComment (.out 0) ((eraseSheet t).toStyleStr cls) = false) ↔
                ∀ d ∈ decls cls (eraseSheet t), WholeDecl d)) := by
  obtain ⟨sheet, args, h1, h2, h3⟩ := C39_substitutes isExpr t s rest code h
  refine ⟨sheet, args, h1, h2, fun ρs => ?_⟩
  obtain ⟨ts, h4, h5, h6⟩ := h3 ρs
  refine ⟨ts, h4, h5, fun i ρ hi => ?_⟩
  obtain ⟨t, h7, h8⟩ := h6 i ρ hi
  exact ⟨t, h7, fun cls hcls => ⟨ValueP.decls_replaced h8 cls, fun hk hb => C68_exactly _ cls hcls hk hb⟩⟩

set_option maxRecDepth 4000 in
/-- Non-vacuity, both ways: the value `red` and the value `red; top: 0` of `C72_false`. -/
example : ((Macro.expand (fun _ => true) demoCall).bind (fun c =>
      c.evalMany [fun _ => c! "red", fun _ => c! "red; top: 0"] none)).map (List.map eraseSheet) =
        some [[.block [] [.attr (c! "color") [c! "red"]]], [.block [] [.attr (c! "color") [c! "red; top: 0"]]]] ∧
    (∀ v ∈ [c! "red", c! "red; top: 0"],
      let t : Sheet := [.block [] [.attr (c! "color") [v]]]
      keyframes (some (c! "k")) t = [] ∧ (∀ d ∈ decls (some (c! "k")) t, NoFinalBackslash d) ∧
      ((∀ d ∈ decls (some (c! "k")) t, WholeDecl d) ↔ v = c! "red")) := by
  decide +kernel

end Macros
