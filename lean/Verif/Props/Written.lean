import Verif.Proofs.Written
import Verif.Props.Inline
import Verif.Props.Browser
import Verif.Props.Layout
import Verif.Props.Select

/-!
# Inline css as it is written

C73 and C74.
-/

namespace Inline

open Spec Output Storage

/-! ## C73: inline css is read as it is written -/

/-- **C73.** A macro call with inline css. Whenever it is evaluated and its tokens and the
values of its expressions are plain, a browser reads the generated text as exactly the
declarations that are written, in order: each with its name, with its component values (a
blank between words, none elsewhere), and under the at-rules and selectors around it, for
the class. -/
theorem C73_inline_reads (isExpr : RExpr → Bool) (ts : List Tree) (hl : ∀ t v rest, ts ≠ .lit t v :: rest)
    (code : CSheet) (h : Macro.expand isExpr ts = some code) :
    ∃ is, Sheets isExpr false ts is ∧ ∀ ρs : List Env, ∃ us, code.evalMany ρs none = some us ∧ us.length = ρs.length ∧
      ∀ (i : Nat) ρ, ρs[i]? = some ρ → plainItems ρ is = true → ∃ u, us[i]? = some u ∧
        ∀ cls : Option Str, (∀ c ∈ cls, CleanClass c) →
          browserReads ((eraseSheet u).toStyleStr cls) = some (rows cls ρ is) := by
  obtain ⟨is, out, h1, -, h2, rfl⟩ := (C46_macro isExpr ts hl code).1 h
  refine ⟨is, h1, fun ρs => ?_⟩
  obtain ⟨us, h3, h4⟩ := Macros.C42_evaluates out ρs
  have hlen : us.length = ρs.length := by simpa using congrArg List.length h4
  refine ⟨us, h3, hlen, fun i ρ hi hp => ?_⟩
  obtain ⟨hlt, rfl⟩ := List.getElem?_eq_some_iff.1 hi
  refine ⟨us[i]'(by omega), List.getElem?_eq_getElem _, fun cls hcls => ?_⟩
  have h5 : joined (eraseSheet (us[i]'(by omega))) = meaning ρs[i] out := by
    have := congrArg (fun l => l[i]?) h4
    simpa [List.getElem?_map, List.getElem?_eq_getElem, hlt, hlen] using this
  obtain ⟨h6, h7⟩ := WrittenP.reads_sheet h2 (WrittenP.sheets_lawful h1) hp h5 cls
  rw [BrowserP.browser_reads _ cls hcls h7, h6]

/-- The tokens of
`margin: 0 auto; .k:is(a, [b=c]) > p, & { --x-y: f(1 / ${x}) "; }"; } @media screen { @supports (a: b) { top: ${y}; } }`. -/
def writtenTokens : List Tree :=
  [.ident (c! "margin") false, .punct ':' false, .lit (c! "0") none, .ident (c! "auto") false, .punct ';' false,
    .punct '.' false, .ident (c! "k") false, .punct ':' false, .ident (c! "is") false,
    .group .paren [.ident (c! "a") false, .punct ',' false,
      .group .bracket [.ident (c! "b") false, .punct '=' false, .ident (c! "c") false]],
    .punct '>' false, .ident (c! "p") false, .punct ',' false, .punct '&' false,
    .group .brace [.punct '-' true, .punct '-' false, .ident (c! "x") false, .punct '-' false, .ident (c! "y") false,
      .punct ':' false, .ident (c! "f") false,
      .group .paren [.lit (c! "1") none, .punct '/' false, .punct '$' false, .group .brace [.ident (c! "x") false]],
      .lit (c! "\"; }\"") (some (c! "; }")), .punct ';' false],
    .punct '@' false, .ident (c! "media") false, .ident (c! "screen") false,
    .group .brace [.punct '@' false, .ident (c! "supports") false,
      .group .paren [.ident (c! "a") false, .punct ':' false, .ident (c! "b") false],
      .group .brace [.ident (c! "top") false, .punct ':' false, .punct '$' false, .group .brace [.ident (c! "y") false],
        .punct ';' false]]]

/-- Its items. -/
def writtenItems : List SItem :=
  [ .decl (.tok (.ident [.ident (c! "margin") false])) [.tok (.lit (c! "0") none), .tok (.ident [.ident (c! "auto") false])],
    .block [.tok (.punct '.' false), .tok (.ident [.ident (c! "k") false]), .tok (.punct ':' false),
        .func [.ident (c! "is") false] [.tok (.ident [.ident (c! "a") false]), .tok (.punct ',' false),
          .block .bracket [.tok (.ident [.ident (c! "b") false]), .tok (.punct '=' false), .tok (.ident [.ident (c! "c") false])]],
        .tok (.punct '>' false), .tok (.ident [.ident (c! "p") false]), .tok (.punct ',' false), .tok (.punct '&' false)]
      [.decl (.tok (.ident [.dash true, .dash false, .ident (c! "x") false, .dash false, .ident (c! "y") false]))
        [.func [.ident (c! "f") false] [.tok (.lit (c! "1") none), .tok (.punct '/' false), .expr false [.ident (c! "x") false]],
          .tok (.lit (c! "\"; }\"") (some (c! "; }")))]],
    .rule [.ident (c! "media") false] [.tok (.ident [.ident (c! "screen") false])]
      [.rule [.ident (c! "supports") false]
        [.block .paren [.tok (.ident [.ident (c! "a") false]), .tok (.punct ':' false), .tok (.ident [.ident (c! "b") false])]]
        [.decl (.tok (.ident [.ident (c! "top") false])) [.expr false [.ident (c! "y") false]]]] ]

/-- The values of `x` and `y`. -/
def writtenEnv : Env
  | [.ident ['x'] false] => c! "[a;]"
  | _ => c! "\"}\""

/-- Tokens that are parsed as the items `is` are these items. -/
theorem sheets_of_items {isExpr : RExpr → Bool} {ts : List Tree} {is : List SItem} (n : Nat)
    (h : items isExpr n ts = some (ofSs is)) (hc : CleanL false (ofSs is)) (hf : FineL false is) : Sheets isExpr false ts is := by
  obtain ⟨is', h1, h2⟩ := items_sound isExpr n false ts _ h hc
  rw [ofSs_inj is is' false hf (sheets_fine h2) h1]
  exact h2

/-- Non-vacuity: the tokens are these items, they are plain, and the declarations. -/
example : Sheets (fun _ => true) false writtenTokens writtenItems ∧ (∀ t v rest, writtenTokens ≠ .lit t v :: rest) ∧
    plainItems writtenEnv writtenItems = true ∧
    rows (some (c! "z")) writtenEnv writtenItems =
      [ ⟨[c! ".z"], c! "margin", c! "0 auto"⟩,
        ⟨[c! ".z .k:is(a,[b=c])>p, .z"], c! "--x-y", c! "f(1/[a;]) \"; }\""⟩,
        ⟨[c! "@media screen", c! "@supports (a:b)", c! ".z"], c! "top", c! "\"}\""⟩ ] ∧
    (((Macro.expand (fun _ => true) writtenTokens).bind (fun c => c.evalMany [writtenEnv] none)).bind (fun us =>
      us.head?.bind (fun u => browserReads ((eraseSheet u).toStyleStr (some (c! "z")))))) =
      some (rows (some (c! "z")) writtenEnv writtenItems) := by
  refine ⟨sheets_of_items 100 (by rfl) (by simp [writtenItems, ofSs, ofS, CleanL, Clean]) (by
    simp [writtenItems, FineL, Fine, IsName, ValidValues, ValidValue]), by simp [writtenTokens], by decide +kernel,
    by decide +kernel, by decide +kernel⟩

/-- What C73 does not say: a `/` before a `*` becomes the beginning of a comment. The macro
accepts `@supports (a: / * b) { top: 0; }`, and the browser finds no end of the comment. -/
theorem C73_limit_comment :
    (((Macro.expand (fun _ => true) [.punct '@' false, .ident (c! "supports") false,
        .group .paren [.ident (c! "a") false, .punct ':' false, .punct '/' false, .punct '*' false, .ident (c! "b") false],
        .group .brace [.ident (c! "top") false, .punct ':' false, .lit (c! "0") none, .punct ';' false]]).bind
      (fun c => c.evalMany [fun _ => []] none)).map (List.map (fun u =>
        ((eraseSheet u).toStyleStr (some (c! "z")), browserReads ((eraseSheet u).toStyleStr (some (c! "z"))))))) =
      some [(c! "@supports (a:/* b) {\n    .z {\n        top: 0;\n    }\n}\n", none)] := by
  decide +kernel

/-! ## C74: the same css inline and in a string -/

/-- **C74, partial.** A macro call with inline css, and a string with the same css, in which
the expressions are replaced by the values they have when the call is evaluated. If in its
values, selectors and conditions the string has blanks just where they are documented for
inline css (a single one between words, none elsewhere), both give the same style: the
generated texts are equal for every class. Elsewhere the string may have any blanks and
comments. Missing: strings with other blanks, for which it is false. -/
theorem C74_same_partial (isExpr : RExpr → Bool) (ts : List Tree) (hl : ∀ t v rest, ts ≠ .lit t v :: rest)
    (code : CSheet) (h : Macro.expand isExpr ts = some code) :
    ∃ is, Sheets isExpr false ts is ∧ ∀ ρs : List Env, ∃ us, code.evalMany ρs none = some us ∧ us.length = ρs.length ∧
      ∀ (i : Nat) ρ css, ρs[i]? = some ρ → WrittenAs ρ css is →
        ∃ u sheet, us[i]? = some u ∧ Css.parse css = some sheet ∧
          ∀ cls, (eraseSheet u).toStyleStr cls = sheet.toStyleStr cls := by
  obtain ⟨is, out, h1, hb, h2, rfl⟩ := (C46_macro isExpr ts hl code).1 h
  refine ⟨is, h1, fun ρs => ?_⟩
  obtain ⟨us, h3, h4⟩ := Macros.C42_evaluates out ρs
  have hlen : us.length = ρs.length := by simpa using congrArg List.length h4
  refine ⟨us, h3, hlen, fun i ρ css hi hw => ?_⟩
  obtain ⟨hlt, rfl⟩ := List.getElem?_eq_some_iff.1 hi
  have h5 : joined (eraseSheet (us[i]'(by omega))) = meaning ρs[i] out := by
    have := congrArg (fun l => l[i]?) h4
    simpa [List.getElem?_map, List.getElem?_eq_getElem, hlt, hlen] using this
  obtain ⟨sheet, out', h6, h7, h8⟩ := WrittenP.written hw (WrittenP.sheets_lawful h1)
  have h9 := C46_output_unique isExpr ts is _ _ h1 hb h2 h7
  have h10 : meaning ρs[i] out = meaning ρs[i] out' := by
    have inj : ∀ a b : OSheet, a.map scopeRBC = b.map scopeRBC → a = b := by
      intro a b e
      refine (List.map_inj_right ?_).1 e
      intro x y hxy
      cases x <;> cases y <;> simp_all [scopeRBC]
    rw [inj _ _ h9]
  refine ⟨us[i]'(by omega), sheet, List.getElem?_eq_getElem _, C59_layout_partial _ _ h6, fun cls => ?_⟩
  rw [← Macros.C42_joined_text, h5, h10, ← h8, Macros.C42_joined_text]

/-- The items of `demoSheet`. -/
def demoItems : List SItem :=
  [ .decl (.tok (.ident [.ident (c! "a") false])) [.tok (.ident [.ident (c! "b") false])],
    .decl (.tok (.ident [.ident (c! "c") false])) [.expr false [.ident (c! "x") false]],
    .block [.tok (.punct '.' false), .tok (.ident [.ident (c! "k") false]), .tok (.punct ',' false), .tok (.punct '&' false)]
      [.decl (.tok (.ident [.ident (c! "d") false])) [.tok (.lit (c! "\"s\"") (some (c! "s")))]],
    .rule [.ident (c! "media") false]
      [.block .paren [.tok (.ident [.ident (c! "e") false]), .tok (.punct ':' false), .tok (.ident [.ident (c! "f") false])]]
      [.decl (.tok (.ident [.ident (c! "g") false])) [.tok (.lit (c! "1") none), .tok (.ident [.ident (c! "h") false])]] ]

/-- Non-vacuity: the items, and a string with the same css. -/
example : Sheets (fun _ => true) false demoSheet demoItems ∧
    WrittenAs (fun _ => c! "red")
      (c! "a: b;\n  c:red ;.k ,& {\n  d: \"s\"; }\n/* x */ @media  (e:f) { g: 1 h; }") demoItems := by
  constructor
  · exact sheets_of_items 100 (by rfl) (by simp [demoItems, ofSs, ofS, CleanL, Clean]) (by
      simp [demoItems, FineL, Fine, IsName, ValidValues, ValidValue])
  · refine .decls [⟨[], c! "a", [], c! " ", c! "b", []⟩, ⟨c! "\n  ", c! "c", [], [], c! "red", c! " "⟩] (demoItems.take 2) (demoItems.drop 2)
      (c! ".k ,& {\n  d: \"s\"; }\n/* x */ @media  (e:f) { g: 1 h; }") (by simp) ⟨⟨?_, rfl, by decide⟩, ⟨?_, rfl, by decide⟩, trivial⟩
      (no_decl (w := []) (by simp) rfl (by decide) (by decide)) (by simp [demoItems, IsDecl]) ?_
    · exact ok_decl _ _ _ _ _ _ .nil (by decide) (by decide) .nil (blankWs _ (by decide)) (by decide) (by decide) (by decide) .nil
    · exact ok_decl _ _ _ _ _ _ (blankWs _ (by decide)) (by decide) (by decide) .nil .nil (by decide) (by decide) (by decide)
        (blankWs _ (by decide))
    refine .block [⟨[], c! ".k "⟩, ⟨[], c! "& "⟩] (c! "\n  d: \"s\"; ") (c! "\n/* x */ @media  (e:f) { g: 1 h; }") _ _ _ (by simp) (by
        intro d hd
        simp only [List.mem_cons, List.not_mem_nil, or_false] at hd
        rcases hd with rfl | rfl <;> exact ⟨.nil, by decide, by decide⟩) (by decide) ?_ ?_
    · refine .decl ⟨c! "\n  ", c! "d", [], c! " ", c! "\"s\"", []⟩ (c! " ") _ _ _ ⟨⟨blankWs _ (by decide), by decide, by decide, .nil,
        blankWs _ (by decide), .str (c! "s") [] (.char _ _ (by decide) (by decide) .nil) .nil, by decide, by decide, .nil, by simp⟩, rfl, by decide⟩ (.nil _ (blankWs _ (by decide)))
    · refine .rule ⟨c! "\n/* x */ ", c! "@media", c! " (e:f) "⟩ (c! " g: 1 h; ") [] _ _ _ _ ⟨⟨?_, by decide, by decide, by decide, by decide⟩,
        by decide, by decide⟩ ?_ (.nil _ .nil)
      · exact blankComment (c! "\n") (c! " x ") (c! " ") (by decide) (by decide) (by decide)
      · refine .decls [⟨c! " ", c! "g", [], c! " ", c! "1 h", []⟩] [_] [] (c! " ") (by simp) ⟨⟨?_, rfl, by decide⟩, trivial⟩ ?_ (by simp)
          (.nil _ (blankWs _ (by decide)))
        · exact ok_decl _ _ _ _ _ _ (blankWs _ (by decide)) (by decide) (by decide) .nil (blankWs _ (by decide)) (by decide) (by decide)
            (by decide) .nil
        · rintro ⟨b, k, b', t, -, -, -, e⟩
          have : ':' ∈ c! " " := by rw [e]; simp
          exact absurd this (by decide)

/-- The text that inline css gives for the class `k`, the expressions having the value `1px`. -/
def inlineText (ts : List Tree) : Option (List Str) :=
  ((Macro.expand (fun _ => true) ts).bind (fun c => c.evalMany [fun _ => c! "1px"] none)).map
    (List.map (fun u => (eraseSheet u).toStyleStr (some (c! "k"))))

/-- The text that css in a string gives for the class `k`. -/
def stringText (css : Str) : Option Str := (Css.parse css).map (fun s => s.toStyleStr (some (c! "k")))

/-- Three elements inside each other, of the classes `k`, `a` and `b`. -/
def nestedPage : Doc (Fin 3) where
  parent := fun e => if e = 2 then some 1 else if e = 1 then some 0 else none
  previous := fun _ => none
  meets := fun e s => s = ([c! ".k", c! ".a", c! ".b"].getD e [])

/-- **C74 is false.** Blanks are lost, or added, so that inline css has another meaning than
the same css in a string:
* the example of the documentation, `@media screen and (max-width: 500px)`: without the blank,
  `and(` is a function in css, and the condition of the at-rule is not valid;
* a descendant becomes a compound: `.a .b` matches the innermost element of `nestedPage`, what
  is printed does not;
* `1px -2px` and `${a} ${b}` become one word. -/
theorem C74_false :
    (inlineText [.punct '@' false, .ident (c! "media") false, .ident (c! "screen") false, .ident (c! "and") false,
        .group .paren [.ident (c! "max") false, .punct '-' false, .ident (c! "width") false, .punct ':' false, .lit (c! "500px") none],
        .group .brace [.ident (c! "display") false, .punct ':' false, .ident (c! "flex") false, .punct ';' false]] =
      some [c! "@media screen and(max-width:500px) {\n    .k {\n        display: flex;\n    }\n}\n"] ∧
    stringText (c! "@media screen and (max-width: 500px) { display: flex; }") =
      some (c! "@media screen and (max-width: 500px) {\n    .k {\n        display: flex;\n    }\n}\n")) ∧
    (inlineText [.punct '.' false, .ident (c! "a") false, .punct '.' false, .ident (c! "b") false,
        .group .brace [.ident (c! "top") false, .punct ':' false, .lit (c! "0") none, .punct ';' false]] =
      some [c! ".k .a.b {\n    top: 0;\n}\n"] ∧
    stringText (c! ".a .b { top: 0; }") = some (c! ".k .a .b {\n    top: 0;\n}\n") ∧
    nestedPage.Matches (c! ".k .a .b") 2 ∧ ¬ nestedPage.Matches (c! ".k .a.b") 2) ∧
    (inlineText [.ident (c! "margin") false, .punct ':' false, .lit (c! "1px") none, .punct '-' false, .lit (c! "2px") none,
        .punct ';' false] = some [c! ".k {\n    margin: 1px-2px;\n}\n"] ∧
    stringText (c! "margin: 1px -2px;") = some (c! ".k {\n    margin: 1px -2px;\n}\n")) ∧
    (inlineText [.ident (c! "margin") false, .punct ':' false, .punct '$' false, .group .brace [.ident (c! "a") false],
        .punct '$' false, .group .brace [.ident (c! "b") false], .punct ';' false] =
      some [c! ".k {\n    margin: 1px1px;\n}\n"] ∧
    stringText (c! "margin: 1px 1px;") = some (c! ".k {\n    margin: 1px 1px;\n}\n")) := by
  refine ⟨⟨by decide +kernel, by decide +kernel⟩, ⟨by decide +kernel, by decide +kernel, ?_, ?_⟩,
    ⟨by decide +kernel, by decide +kernel⟩, ⟨by decide +kernel, by decide +kernel⟩⟩
  · refine ⟨c! ".k", [.comb .below, .simple (c! ".a"), .comb .below, .simple (c! ".b")], by decide, ?_⟩
    exact ⟨⟨1, ⟨⟨0, ⟨trivial, rfl⟩, .child rfl⟩, rfl⟩, .child rfl⟩, rfl⟩
  · rintro ⟨first, r, h1, h2⟩
    have h3 : readSelector (c! ".k .a.b") =
        some [.simple (c! ".k"), .comb .below, .simple (c! ".a"), .simple (c! ".b")] := by decide
    rw [h3] at h1
    cases h1
    obtain ⟨⟨-, h4⟩, -⟩ := h2
    exact absurd (show (c! ".a" : Str) = c! ".b" from h4) (by decide)

end Inline
