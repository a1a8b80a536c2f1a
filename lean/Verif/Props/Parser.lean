import Verif.Proofs.Decls
import Verif.Proofs.Grammar
import Verif.Proofs.Cache
import Verif.Model.Render

/-!
# Properties of parsing

C11 - C14, C16 - C19, C55, C56 and C79.
-/

open Spec Css

/-! ## C11: parsing terminates -/

/-- **C11.** The recursion depth is bounded by the length of the input: any larger
budget gives the same result, for success and for failure. -/
theorem C11_terminates (css : Str) (n : Nat) (h : css.length < n) : parseWith n css = parse css := by
  unfold parse parseWith
  rw [ParserP.sheet_budget n (css.length + 1) css h (Nat.lt_succ_self _)]

/-- The budget is needed: with too small a budget nested rules are not read. -/
example : parseWith 1 (c! "@media a{b:c;}") = none ∧
    (parseWith 2 (c! "@media a{b:c;}")).isSome = true := by decide

/-! ## C12: nothing is ignored -/

/-- **C12.** If a text parses, nothing of it is left over. -/
theorem C12_no_text_ignored (css : Str) (s : Sheet) (h : parse css = some s) :
    sheet (css.length + 1) css = some ([], s) := by
  unfold parse parseWith at h
  cases hs : sheet (css.length + 1) css with
  | none => rw [hs] at h; cases h
  | some x =>
    obtain ⟨r, s'⟩ := x
    rw [hs] at h
    simp only [Option.map_some, Option.some.injEq] at h
    rw [ParserP.sheet_consumes css.length hs, h]

/-- The individual parsers do leave text behind: a dangling declaration is read, the
rest is returned. -/
example : danglingBlock (c! "a:b;}") = some (c! "}", .block [] [.attr (c! "a") [c! "b"]]) := by decide

/-- Text after the last rule makes parsing fail. -/
example : parse (c! "a:b;}") = none := by decide

/-- **C12.** Every character of a text that parses is accounted for: it is a blank, part of a
comment, punctuation, or part of a key, value, selector or condition of the sheet, in the
order and nesting of the text. -/
theorem C12_every_character (css : Str) (s : Sheet) (h : parse css = some s) : SheetText css s :=
  GrammarP.parse_follows h

/-- A text with a comment, a nested at-rule, two selectors and two frames parses. -/
example : (parse (c! "a:b;/*c*/.x,p{d:e;@media q{f:g}}@keyframes k{from{h:i}to{j:k}}")).isSome = true := by
  decide

/-- The grammar is not empty: the text of one declaration, spelled out. -/
example : SheetText (c! "a: b;") [.block [] [.attr (c! "a") [c! "b"]]] := by
  have hd : DeclText (c! "a: b") (c! "a", [c! "b"]) :=
    DeclText.intro [] (c! "a") [] (c! " ") (c! "b") [] .nil (by decide) .nil
      (.ws ' ' [] (by decide) .nil) (.char 'b' [] (by decide) .nil) (by simp) .nil
  exact SheetText.decls (c! "a: b") [] [(c! "a", [c! "b"])] [] (.one _ _ hd) .nil

/-! ## C13: leading blanks -/

/-- **C13.** White space and comments in front do not matter. -/
theorem C13_leading_blanks (w css : Str) (h : Blank w) : parse (w ++ css) = parse css := by
  rw [← C11_terminates css ((w ++ css).length + 1) (by simp; omega)]
  unfold parse parseWith
  congr 1
  exact ParserP.trimmed_eq_of_spRest (LexP.spRest_blank h css)

example : Blank (c! " /* a; } */\n") :=
  .ws _ _ (by decide) (.comment (c! " a; } ") _ (by decide) (.ws _ _ (by decide) .nil))

/-! ## C14: shape of parsed sheets -/

/-- **C14.** Every parsed sheet has the shape `ScopeItem`. -/
theorem C14_shape (css : Str) (s : Sheet) (h : parse css = some s) :
    ∀ x ∈ s, ScopeItem x.toRBC := ShapeP.parse_shape h

set_option maxRecDepth 8000 in
example : parse (c! "a:b;.c{d:e;@media x{f:g;}}@keyframes k{from{h:i;}}") =
    some [.block [] [.attr (c! "a") [c! "b"]],
      .block [[c! ".c"]] [.attr (c! "d") [c! "e"],
        .rule [c! "@media ", c! "x"] [.attr (c! "f") [c! "g"]]],
      .rule [c! "@keyframes ", c! "k"] [.rule [c! "from"] [.attr (c! "h") [c! "i"]]]] := by decide

/-- Keys can be empty: characters beyond ASCII start an identifier, also when they are
white space, and the key is trimmed afterwards. -/
theorem C14_empty_key : parse ['\u00a0', ':', 'a', ';'] = some [.block [] [.attr [] [c! "a"]]] := by
  decide

/-! ## C16: rendered styles parse again -/

/-- **C16 is false.** `@keyframes m {}` parses, but the text generated from it does not:
the blank between its braces is not accepted. -/
theorem C16_false : ∃ (css : Str) (s : Sheet),
    parse css = some s ∧ parse (s.toStyleStr (some (c! "c"))) = none :=
  ⟨c! "@keyframes m {}", [.rule [c! "@keyframes ", c! "m"] []], by decide, by decide⟩

/-- The same without keyframes: a value that ends in a slash. -/
theorem C16_false_value : ∃ (css : Str) (s : Sheet),
    parse css = some s ∧ parse (s.toStyleStr (some (c! "c"))) = none :=
  ⟨c! "a:b/ ;", [.block [] [.attr (c! "a") [c! "b/"]]], by decide, by decide⟩

/-! ## C17: the cache -/

/-- **C17**, calls one after the other: each returns what parsing afresh returns. -/
theorem C17_cache_transparent (calls : List Str) :
    Cache.runCalls [] calls = calls.map parse := by
  have key : ∀ m, CacheP.Sound m → Cache.runCalls m calls = calls.map parse := by
    induction calls with
    | nil => intro m _; rfl
    | cons s ss ih =>
      intro m hm
      have := CacheP.fromStr_spec hm s
      simp only [Cache.runCalls, List.map_cons, this.2, ih _ this.1]
  exact key [] (by intro s x h; cases h)

/-- **C17**, any threads and any schedule: every finished call returned what parsing
afresh returns. -/
theorem C17_cache_transparent_threads (schedule : List Cache.Choice) :
    ∀ e ∈ (Cache.State.init.run schedule).log, e.2 = parse e.1 :=
  (CacheP.run_inv (st := Cache.State.init)
    ⟨(by intro s x h; cases h), fun _ => trivial, (by intro e he; cases he)⟩ schedule).log

/-- Two threads that ask for the same text at the same time: both calls finish, one
after a miss and one after a hit; a third call fails. -/
example : (Cache.State.init.run
    ((List.replicate 3 [⟨0, c! "a:b;"⟩, ⟨1, c! "a:b;"⟩]).flatten ++
      List.replicate 3 ⟨0, []⟩ ++ List.replicate 4 ⟨1, []⟩ ++ List.replicate 5 ⟨2, c! "a"⟩)).log =
    [(c! "a:b;", some [.block [] [.attr (c! "a") [c! "b"]]]),
     (c! "a:b;", some [.block [] [.attr (c! "a") [c! "b"]]]),
     (c! "a", none)] := by decide

/-! ## C19: declarations keep order and number -/

/-- **C19.** A text of one or more declarations is read as exactly these declarations,
in order, whatever blanks surround keys and values. -/
theorem C19_declarations (ds : List DeclSrc) (w : Str) (hne : ds ≠ []) (h : ∀ d ∈ ds, d.Ok)
    (hw : Blank w) :
    parse ((ds.map DeclSrc.text).flatten ++ w) =
      some [.block [] (ds.map (fun d => .attr d.key [d.value]))] :=
  DeclsP.decls_parse hne h hw

/-- Two declarations with blanks and comments. -/
example : ∃ ds : List DeclSrc, ds.length = 2 ∧ (∀ d ∈ ds, d.Ok) ∧
    (ds.map DeclSrc.text).flatten = c! "a: 1/2 /*x*/;\n/**/b:\"x;\" ;" :=
  ⟨[⟨[], c! "a", [], c! " ", c! "1/2", c! " /*x*/"⟩, ⟨c! "\n/**/", c! "b", [], [], c! "\"x;\"", c! " "⟩],
   rfl, by
    intro d hd
    simp only [List.mem_cons, List.not_mem_nil, or_false] at hd
    rcases hd with rfl | rfl
    · exact ⟨.nil, by decide, by decide, .nil, .ws _ _ (by decide) .nil,
        .char _ _ (by decide) (.slash _ _ (by decide) .nil), by decide, by decide,
        .ws _ _ (by decide) (.comment (c! "x") _ (by decide) .nil), by decide⟩
    · exact ⟨.ws _ _ (by decide) (.comment [] _ (by decide) .nil), by decide, by decide, .nil, .nil,
        .str (c! "x;") [] (.char _ _ (by decide) (by decide) (.char _ _ (by decide) (by decide) .nil)) .nil,
        by decide, by decide, .ws _ _ (by decide) .nil, by decide⟩, rfl⟩

/-- After a string the comment is taken for a part of the value. -/
theorem C19_limit_string_comment : parse (c! "a: \"x\" /*c*/;") =
    some [.block [] [.attr (c! "a") [c! "\"x\" /*c*/"]]] := by decide

/-- A comment inside of a value makes parsing fail. -/
theorem C19_limit_inner_comment : parse (c! "a: b /*c*/ d;") = none := by decide

/-! ## C18: double-quoted strings -/

/-- **C18.** A double-quoted string is read as it is written. -/
theorem C18_strings_opaque (key body : Str) (hk : Ident key) (ht : Str.trim key = key)
    (hb : StrBody body) :
    parse (key ++ c! ": \"" ++ body ++ c! "\";") =
      some [.block [] [.attr key [c! "\"" ++ body ++ c! "\""]]] := by
  have hv : ValueText (c! "\"" ++ body ++ c! "\"") := .str body [] hb .nil
  have htrim : Str.trim (c! "\"" ++ body ++ c! "\"") = c! "\"" ++ body ++ c! "\"" := by
    have h1 : Str.trimStart (c! "\"" ++ body ++ c! "\"") = c! "\"" ++ body ++ c! "\"" :=
      DeclsP.trimStart_of_head (by intro c hc; simp at hc; subst hc; decide)
    have h2 : ∀ s : Str, Str.trimEnd (s ++ c! "\"") = s ++ c! "\"" := by
      intro s
      induction s with
      | nil => decide
      | cons c s ih =>
        rw [List.cons_append, Str.trimEnd, ih]
        cases s <;> rfl
    unfold Str.trim
    rw [h1, h2]
  have := C19_declarations [⟨[], key, [], c! " ", c! "\"" ++ body ++ c! "\"", []⟩] []
    (by simp) (by
      intro d hd
      simp only [List.mem_cons, List.not_mem_nil, or_false] at hd
      subst hd
      exact ⟨.nil, hk, ht, .nil, .ws _ _ (by decide) .nil, hv, by simp, htrim, .nil, by simp⟩) .nil
  simpa [DeclSrc.text, DeclSrc.bare] using this

/-- A string full of structural characters. -/
example : StrBody (c! "; } { /* \\\" @media $ ") := by
  repeat first | exact .nil | exact StrBody.esc _ _ (by assumption) | (refine .char _ _ (by decide) (by decide) ?_) | (refine .esc _ _ ?_)

/-! ## C55, C56: disagreements -/

/-- **C55 is false.** The comma inside the parentheses splits the selector. -/
theorem C55_false : parse (c! ".a:not(.b, .c) { d: e; }") =
    some [.block [[c! ".a:not(.b"], [c! ".c)"]] [.attr (c! "d") [c! "e"]]] := by decide

/-- As a consequence the second half is scoped on its own, and the generated selector is
a different one. -/
theorem C55_false_rendered :
    (parse (c! ".a:not(.b, .c) { d: e; }")).map (fun s => s.toStyleStr (some (c! "k"))) =
      some (c! ".k .a:not(.b, .k .c) {\n    d: e;\n}\n") := by decide

/-- **C56 is false.** A semicolon inside single quotes ends the value, and this valid
css is rejected. -/
theorem C56_false : parse (c! "content: ';';") = none ∧
    parse (c! "content: 'a;b:c';") =
      some [.block [] [.attr (c! "content") [c! "'a"], .attr (c! "b") [c! "c'"]]] := by decide

/-- **C56, partial.** Single-quoted strings are read as written when they contain none of
`$ { ; } "` and no beginning of a comment. Missing: strings with these, for which it is false. -/
theorem C56_partial (key body : Str) (hk : Ident key) (ht : Str.trim key = key)
    (hb : ∀ c ∈ body, c ∉ (c! "${;}\"")) (hc : ¬ (c! "/*") <:+: body) :
    parse (key ++ c! ": '" ++ body ++ c! "';") =
      some [.block [] [.attr key [c! "'" ++ body ++ c! "'"]]] := by
  have := DeclsP.enclosed_parse (o := c! "'") (x := '\'') hk ht hb hc (by simp) (by decide) (by decide) (by decide) (by decide)
    (by decide)
  simpa using this

example : (∀ c ∈ (c! "Fira Code, a/b 'x' @ : //"), c ∉ (c! "${;}\"")) ∧ ¬ (c! "/*") <:+: (c! "Fira Code, a/b 'x' @ : //") := by
  decide

/-! ## C79: unquoted urls -/

/-- **C79 is false.** A semicolon in an unquoted url ends the value: the url of an image is
rejected, and another one is read as two declarations. -/
theorem C79_false : parse (c! "background: url(data:image/png;base64,iVBO);") = none ∧
    parse (c! "background: url(data:a;b:c);") =
      some [.block [] [.attr (c! "background") [c! "url(data:a"], .attr (c! "b") [c! "c)"]]] := by decide

/-- **C79, partial.** Unquoted urls are read as written when they contain none of `$ { ; } "`
and no beginning of a comment. Missing: urls with these, for which it is false. -/
theorem C79_partial (key url : Str) (hk : Ident key) (ht : Str.trim key = key)
    (hb : ∀ c ∈ url, c ∉ (c! "${;}\"")) (hc : ¬ (c! "/*") <:+: url) :
    parse (key ++ c! ": url(" ++ url ++ c! ");") =
      some [.block [] [.attr key [c! "url(" ++ url ++ c! ")"]]] := by
  have := DeclsP.enclosed_parse (o := c! "url(") (x := ')') hk ht hb hc (by simp) (by decide) (by decide) (by decide) (by decide)
    (by decide)
  simpa using this

example : (∀ c ∈ (c! "https://example.org/a%20b/?c=d,e&f='g'#h:i@//"), c ∉ (c! "${;}\"")) ∧
    ¬ (c! "/*") <:+: (c! "https://example.org/a%20b/?c=d,e&f='g'#h:i@//") := by
  decide
