import Verif.Proofs.Documented
import Verif.Props.Written

/-!
# Inline css and what is documented about it

C73 (what does not depend on the texts) and C78.
-/

namespace Inline

open Spec Output Storage

/-! ## C73: the declarations, whatever their texts are -/

/-- **C73.** A macro call with inline css. Whatever its tokens and the values of its
expressions are, evaluating it gives a style with exactly the declarations that are written,
in order: each with its name, with its component values (a blank between words, none
elsewhere), and under the at-rules and selectors around it, for the class. -/
theorem C73_declarations (isExpr : RExpr → Bool) (ts : List Tree) (hl : ∀ t v rest, ts ≠ .lit t v :: rest)
    (code : CSheet) (h : Macro.expand isExpr ts = some code) :
    ∃ is, Sheets isExpr false ts is ∧ ∀ ρs : List Env, ∃ us, code.evalMany ρs none = some us ∧ us.length = ρs.length ∧
      ∀ (i : Nat) ρ, ρs[i]? = some ρ → ∃ u, us[i]? = some u ∧
        ∀ cls : Option Str, decls cls (eraseSheet u) = rows cls ρ is := by
  obtain ⟨is, out, h1, -, h2, rfl⟩ := (C46_macro isExpr ts hl code).1 h
  refine ⟨is, h1, fun ρs => ?_⟩
  obtain ⟨us, h3, h4⟩ := Macros.C42_evaluates out ρs
  have hlen : us.length = ρs.length := by simpa using congrArg List.length h4
  refine ⟨us, h3, hlen, fun i ρ hi => ?_⟩
  obtain ⟨hlt, rfl⟩ := List.getElem?_eq_some_iff.1 hi
  refine ⟨us[i]'(by omega), List.getElem?_eq_getElem _, fun cls => ?_⟩
  have h5 : joined (eraseSheet (us[i]'(by omega))) = meaning ρs[i] out := by
    have := congrArg (fun l => l[i]?) h4
    simpa [List.getElem?_map, List.getElem?_eq_getElem, hlt, hlen] using this
  exact DocumentedP.decls_sheet h2 (WrittenP.sheets_lawful h1) h5 cls

/-- Non-vacuity: the css of C73 with values that are not plain. -/
example : plainItems (fun _ => c! "} {") writtenItems = false ∧ (∀ t v rest, writtenTokens ≠ .lit t v :: rest) ∧
    ((Macro.expand (fun _ => true) writtenTokens).bind (fun c => c.evalMany [fun _ => c! "} {"] none)).map
        (List.map (fun u => decls (some (c! "z")) (eraseSheet u))) =
      some [rows (some (c! "z")) (fun _ => c! "} {") writtenItems] ∧
    rows (some (c! "z")) (fun _ => c! "} {") writtenItems =
      [ ⟨[c! ".z"], c! "margin", c! "0 auto"⟩,
        ⟨[c! ".z .k:is(a,[b=c])>p, .z"], c! "--x-y", c! "f(1/} {) \"; }\""⟩,
        ⟨[c! "@media screen", c! "@supports (a:b)", c! ".z"], c! "top", c! "} {"⟩ ] := by
  refine ⟨by decide +kernel, by simp [writtenTokens], by decide +kernel, by decide +kernel⟩

/-! ## C78: blanks in inline css are where the documentation says -/

/-- **C78, partial.** A macro call with inline css in which no `&` is directly before a word,
a function, `*` or `#`. Evaluating it gives a style with exactly the declarations that are
written, and the texts of their values, selectors and conditions have a blank between two
tokens just where the documentation says. Missing: css with `&` before one of these, for
which it is false. -/
theorem C78_documented_partial (isExpr : RExpr → Bool) (ts : List Tree) (hl : ∀ t v rest, ts ≠ .lit t v :: rest)
    (code : CSheet) (h : Macro.expand isExpr ts = some code) :
    ∃ is, Sheets isExpr false ts is ∧ ∀ ρs : List Env, ∃ us, code.evalMany ρs none = some us ∧ us.length = ρs.length ∧
      ∀ (i : Nat) ρ, ρs[i]? = some ρ → ∃ u, us[i]? = some u ∧
        (noAmpItems is = true → ∀ cls : Option Str, decls cls (eraseSheet u) = documentedRows cls ρ is) := by
  obtain ⟨is, h1, h2⟩ := C73_declarations isExpr ts hl code h
  refine ⟨is, h1, fun ρs => ?_⟩
  obtain ⟨us, h3, h4, h5⟩ := h2 ρs
  refine ⟨us, h3, h4, fun i ρ hi => ?_⟩
  obtain ⟨u, h6, h7⟩ := h5 i ρ hi
  refine ⟨u, h6, fun ha cls => ?_⟩
  rw [h7 cls]
  exact (DocumentedP.rowsAll_same false cls ρ is [] _ ((DocumentedP.okItems_false is).trans ha)).symm

/-- **C78**, exactly. For all inline css: the blanks are where the documentation says if `&`
is added to what may be to the left of a blank, and nowhere else. -/
theorem C78_exactly (isExpr : RExpr → Bool) (ts : List Tree) (hl : ∀ t v rest, ts ≠ .lit t v :: rest)
    (code : CSheet) (h : Macro.expand isExpr ts = some code) :
    ∃ is, Sheets isExpr false ts is ∧ ∀ ρs : List Env, ∃ us, code.evalMany ρs none = some us ∧ us.length = ρs.length ∧
      ∀ (i : Nat) ρ, ρs[i]? = some ρ → ∃ u, us[i]? = some u ∧
        ∀ cls : Option Str, decls cls (eraseSheet u) = amendedRows cls ρ is := by
  obtain ⟨is, h1, h2⟩ := C73_declarations isExpr ts hl code h
  refine ⟨is, h1, fun ρs => ?_⟩
  obtain ⟨us, h3, h4, h5⟩ := h2 ρs
  refine ⟨us, h3, h4, fun i ρ hi => ?_⟩
  obtain ⟨u, h6, h7⟩ := h5 i ρ hi
  refine ⟨u, h6, fun cls => ?_⟩
  rw [h7 cls]
  exact (DocumentedP.rowsAll_same true cls ρ is [] _ (DocumentedP.okItems_true is)).symm

/-- Non-vacuity: `& p { top: 0; }`, as in `C78_false`. -/
example : amendedRows (some (c! "k")) (fun _ => c! "1px")
    [.block [.tok (.punct '&' false), .tok (.ident [.ident (c! "p") false])]
      [.decl (.tok (.ident [.ident (c! "top") false])) [.tok (.lit (c! "0") none)]]] =
    [⟨[c! ".k p"], c! "top", c! "0"⟩] := by decide +kernel

/-- The tokens of `#a b #c * :is(d) e ${x} f [g] * { top: 1 "s" #fff g(j) ${x} -k ; }`. -/
def blankTokens : List Tree :=
  [.punct '#' false, .ident (c! "a") false, .ident (c! "b") false, .punct '#' false, .ident (c! "c") false, .punct '*' false,
    .punct ':' false, .ident (c! "is") false, .group .paren [.ident (c! "d") false], .ident (c! "e") false,
    .punct '$' false, .group .brace [.ident (c! "x") false], .ident (c! "f") false,
    .group .bracket [.ident (c! "g") false], .punct '*' false,
    .group .brace [.ident (c! "top") false, .punct ':' false, .lit (c! "1") none, .lit (c! "\"s\"") (some (c! "s")),
      .punct '#' false, .ident (c! "fff") false,
      .ident (c! "g") false, .group .paren [.ident (c! "j") false], .punct '$' false, .group .brace [.ident (c! "x") false],
      .punct '-' false, .ident (c! "k") false, .punct ';' false]]

/-- Its items. -/
def blankItems : List SItem :=
  [.block [.tok (.punct '#' false), .tok (.ident [.ident (c! "a") false]), .tok (.ident [.ident (c! "b") false]),
      .tok (.punct '#' false), .tok (.ident [.ident (c! "c") false]), .tok (.punct '*' false),
      .tok (.punct ':' false), .func [.ident (c! "is") false] [.tok (.ident [.ident (c! "d") false])],
      .tok (.ident [.ident (c! "e") false]), .expr false [.ident (c! "x") false], .tok (.ident [.ident (c! "f") false]),
      .block .bracket [.tok (.ident [.ident (c! "g") false])], .tok (.punct '*' false)]
    [.decl (.tok (.ident [.ident (c! "top") false]))
      [.tok (.lit (c! "1") none), .tok (.lit (c! "\"s\"") (some (c! "s"))),
        .tok (.punct '#' false), .tok (.ident [.ident (c! "fff") false]),
        .func [.ident (c! "g") false] [.tok (.ident [.ident (c! "j") false])], .expr false [.ident (c! "x") false],
        .tok (.ident [.dash false, .ident (c! "k") false])]]]

/-- Non-vacuity: the tokens are these items, and where the blanks are. -/
example : Sheets (fun _ => true) false blankTokens blankItems ∧ noAmpItems blankItems = true ∧
    (∀ t v rest, blankTokens ≠ .lit t v :: rest) ∧ (Macro.expand (fun _ => true) blankTokens).isSome = true ∧
    documentedRows (some (c! "k")) (fun _ => c! "X") blankItems =
      [⟨[c! ".k #a b #c *:is(d) eXf[g] *"], c! "top", c! "1 \"s\" #fff g(j)X-k"⟩] := by
  refine ⟨sheets_of_items 100 (by rfl) (by simp [blankItems, ofSs, ofS, CleanL, Clean]) (by
    simp [blankItems, FineL, Fine, IsName, ValidValues, ValidValue]), by decide +kernel, by simp [blankTokens],
    by decide +kernel, by decide +kernel⟩

/-- **C78** is false: after `&` there is a blank before words, of which the documentation
says nothing. The css `& p { top: 0; }` is for the `p` inside of the element; as documented,
it would be `&p`. -/
theorem C78_false :
    Sheets (fun _ => true) false
      [.punct '&' false, .ident (c! "p") false,
        .group .brace [.ident (c! "top") false, .punct ':' false, .lit (c! "0") none, .punct ';' false]]
      [.block [.tok (.punct '&' false), .tok (.ident [.ident (c! "p") false])]
        [.decl (.tok (.ident [.ident (c! "top") false])) [.tok (.lit (c! "0") none)]]] ∧
    inlineText [.punct '&' false, .ident (c! "p") false,
        .group .brace [.ident (c! "top") false, .punct ':' false, .lit (c! "0") none, .punct ';' false]] =
      some [c! ".k p {\n    top: 0;\n}\n"] ∧
    documentedRows (some (c! "k")) (fun _ => c! "1px")
        [.block [.tok (.punct '&' false), .tok (.ident [.ident (c! "p") false])]
          [.decl (.tok (.ident [.ident (c! "top") false])) [.tok (.lit (c! "0") none)]]] =
      [⟨[c! ".kp"], c! "top", c! "0"⟩] := by
  refine ⟨sheets_of_items 100 (by rfl) (by simp [ofSs, ofS, CleanL, Clean]) (by
    simp [FineL, Fine, IsName, ValidValues, ValidValue]), by decide +kernel, by decide +kernel⟩

end Inline
