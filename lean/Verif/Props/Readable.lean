import Verif.Proofs.Readable

/-!
# What is read as it is written

C96: exactly which values, selectors and conditions the parser reads as they are written; and
with it, exactly which single-quoted strings (C56) and urls (C79).
-/

open Spec Css

/-! ## C96 -/

/-- **C96, values.** A declaration is read with the value as it is written if and only if the
value is one of `ReadableValue`. (The value is not empty, has no white space around it and
does not begin with a comment: these would not be part of it.) -/
theorem C96_value (key v : Str) (hk : Ident key) (hkt : Str.trim key = key) (hne : v ≠ []) (ht : Str.trim v = v)
    (hc : ¬ (c! "/*") <+: v) :
    parse (key ++ c! ": " ++ v ++ c! ";") = some [.block [] [.attr key [v]]] ↔ ReadableValue v :=
  ⟨ReadableP.decl_exact hk hne ht hc, ReadableP.decl_parse hk hkt hne ht hc⟩

/-- Any other value does not even become the value of the first declaration. -/
theorem C96_value_lost (key v : Str) (hk : Ident key) (hne : v ≠ []) (ht : Str.trim v = v)
    (hc : ¬ (c! "/*") <+: v) (hv : ¬ ReadableValue v) (rest : List RBC) (items : Sheet) :
    parse (key ++ c! ": " ++ v ++ c! ";") ≠ some (.block [] (.attr key [v] :: rest) :: items) :=
  fun h => hv (ReadableP.decl_exact hk hne ht hc h)

/-- A value with a string, a comment, a placeholder and slashes. -/
example : parse (c! "font: 1px/2 \"a;\" /* b */ ${c}, //d;") =
    some [.block [] [.attr (c! "font") [c! "1px/2 \"a;\" /* b */ ${c}, //d"]]] := by decide +kernel

example : ReadableValue (c! "1/2 \"a;\" /* b */ ${c}//d") := by
  refine .char _ _ (by decide) (.slash _ _ (by decide) (.char _ _ (by decide) ?_))
  refine .str [] (c! "a;") (c! " /* b */ ") (c! "${c}//d") .nil
    (.char _ _ (by decide) (by decide) (.char _ _ (by decide) (by decide) .nil)) ?_ ?_
  · exact .ws _ _ (by decide) (.comment (c! " b ") (c! " ") (by decide) (.ws _ _ (by decide) .nil))
  · exact .placeholder [] (c! "${c}") [] (c! "//d") .nil
      ⟨[], 'c', [], [], .nil, .nil, by decide, by simp, by decide⟩ .nil
      (.slash _ _ (by decide) (.char _ _ (by decide) .nil))

/-- A comment between plain characters is not readable. -/
example : parse (c! "a: b/* c */d;") = none := by decide

/-- **C96, selectors.** A block is read with the selector as it is written if and only if the
selector is one of `ReadableSelector`. (It does not begin with a declaration and its semicolon:
that is read on its own.) -/
theorem C96_selector (sel body : Str) (content : List RBC) (hne : sel ≠ []) (ht : Str.trim sel = sel)
    (hc : ¬ (c! "/*") <+: sel) (hd : ¬ BeginsWithDecl sel)
    (hbody : BodyLayout body content) (hb1 : '/' ∉ body) (hb2 : ';' ∉ body) :
    parse (sel ++ c! "{" ++ body ++ c! "}") = some [.block [[sel]] content] ↔ ReadableSelector sel := by
  refine ⟨fun h => ?_, ReadableP.selector_parse hne ht hc hd hbody hb1 hb2⟩
  have e : sel ++ c! "{" ++ body ++ c! "}" = sel ++ '{' :: (body ++ c! "}") := by simp
  rw [e] at h
  exact ReadableP.selector_back hne ht hc h

/-- Any other selector is not the first one of the block. -/
theorem C96_selector_lost (sel y : Str) (hne : sel ≠ []) (ht : Str.trim sel = sel) (hc : ¬ (c! "/*") <+: sel)
    (hs : ¬ ReadableSelector sel) (l : List Selector) (content : List RBC) (items : Sheet) :
    parse (sel ++ c! "{" ++ y) ≠ some (.block ([sel] :: l) content :: items) := by
  intro h
  have e : sel ++ c! "{" ++ y = sel ++ '{' :: y := by simp
  rw [e] at h
  exact hs (ReadableP.selector_back hne ht hc h)

/-- A selector with a string, with an at sign and with a comment in it. -/
example : parse (c! ".a@b /* c */ > [d=\"e,f{\"] .g{h:i}") =
    some [.block [[c! ".a@b /* c */ > [d=\"e,f{\"] .g"]] [.attr (c! "h") [c! "i"]]] := by decide +kernel

example : ReadableSelector (c! ".a [b=\"c,d{\"] .e") := by
  refine .run '.' (c! "a [b=") (c! "\"c,d{\"] .e") (by decide) (by decide) (by decide) ?_
  refine .str (c! "c,d{") [] (c! "] .e") ?_ .nil ?_ (.run ']' (c! " .e") [] (by decide) (by decide) (by decide) .nil)
  · repeat first | exact .nil | refine .char _ _ (by decide) (by decide) ?_
  · exact ReadableP.noBlanks_of_spRest (by decide)

/-- The assumptions of `C96_selector`. -/
example : Str.trim (c! "a:hover") = c! "a:hover" ∧ ¬ (c! "/*") <+: (c! "a:hover") ∧ ¬ BeginsWithDecl (c! "a:hover") ∧
    BodyLayout (c! " ") [] := by
  refine ⟨by decide, by decide, ?_, .nil _ (.ws _ _ (by decide) .nil)⟩
  rintro ⟨t, d, u, -, e⟩
  have : ';' ∈ (c! "a:hover") := by rw [e]; simp
  exact absurd this (by decide)

/-- At the beginning of a selector, and after a string, there is no at sign. -/
example : parse (c! "[a=\"b\"@c]{}") = none ∧ parse (c! "[a=\"b\" i]{}") = some [.block [[c! "[a=\"b\" i]"]] []] := by decide

/-- **C96, conditions.** An at-rule is read with the condition as it is written if and only if
the condition is one of `ReadableCondition`. -/
theorem C96_condition (name q body : Str) (content : Sheet) (hname : name ∈ conditionalNames) (hne : q ≠ [])
    (ht : Str.trim q = q) (hbody : Layout body content) (hb : '/' ∉ body) :
    parse (name ++ c! " " ++ q ++ c! "{" ++ body ++ c! "}") =
      some [.rule [name ++ c! " ", q] (content.map ScopeContent.toRBC)] ↔ ReadableCondition q := by
  refine ⟨fun h => ?_, ReadableP.rule_parse hname hne ht hbody hb⟩
  have e : name ++ c! " " ++ q ++ c! "{" ++ body ++ c! "}" = name ++ ' ' :: (q ++ '{' :: (body ++ c! "}")) := by simp
  rw [e] at h
  exact ReadableP.rule_back (Or.inl hname) hne ht h

/-- The same for animations. -/
theorem C96_animation (q body : Str) (frames : List RBC) (hne : q ≠ [])
    (ht : Str.trim q = q) (hbody : FramesLayout body frames) (hf : body = [] ∨ frames ≠ []) (hb : '/' ∉ body) :
    parse (c! "@keyframes " ++ q ++ c! "{" ++ body ++ c! "}") =
      some [.rule [c! "@keyframes ", q] frames] ↔ ReadableCondition q := by
  refine ⟨fun h => ?_, fun h => ?_⟩
  · have e : c! "@keyframes " ++ q ++ c! "{" ++ body ++ c! "}" =
        c! "@keyframes" ++ ' ' :: (q ++ '{' :: (body ++ c! "}")) := by simp
    rw [e] at h
    exact ReadableP.rule_back (Or.inr rfl) hne ht h
  · have := ReadableP.keyframes_parse hne ht hbody hf hb h
    simpa using this

/-- A condition with a string, a semicolon, a brace and a comment. -/
example : parse (c! "@supports (a: \"b;}\") and /* c */ (d:e){f{g:h}}") =
    some [.rule [c! "@supports ", c! "(a: \"b;}\") and /* c */ (d:e)"] [.block [[c! "f"]] [.attr (c! "g") [c! "h"]]]] := by
  decide +kernel

example : ReadableCondition (c! "(a: \"b;}\") ${c}") := by
  repeat first
    | exact .placeholder (c! "${c}") [] [] ⟨[], 'c', [], [], .nil, .nil, by decide, by simp, by decide⟩ .nil
        (ReadableP.noBlanks_of_spRest (by decide)) .nil
    | refine .char _ _ (by decide) ?_

/-- An opening brace in a condition is not readable, not even in a string. -/
example : parse (c! "@supports (a: \"{\"){f{g:h}}") ≠
    some [.rule [c! "@supports ", c! "(a: \"{\")"] [.block [[c! "f"]] [.attr (c! "g") [c! "h"]]]] := by
  decide +kernel

/-! ## C56 and C79 -/

/-- **C55, exactly**, for a selector without `"` and `$`, where the full property is false: it is
read as one selector if and only if no comma and no `{` is in it, be it in parentheses or not,
and it does not begin with `}` or `@`. -/
theorem C55_exactly_plain (sel body : Str) (content : List RBC) (hne : sel ≠ []) (ht : Str.trim sel = sel)
    (hc : ¬ (c! "/*") <+: sel) (hd : ¬ BeginsWithDecl sel)
    (hbody : BodyLayout body content) (hb1 : '/' ∉ body) (hb2 : ';' ∉ body) (hq : '"' ∉ sel) (hi : '$' ∉ sel) :
    parse (sel ++ c! "{" ++ body ++ c! "}") = some [.block [[sel]] content] ↔
      (∀ c ∈ sel, c ≠ ',' ∧ c ≠ '{') ∧ ∀ c ∈ sel.head?, c ≠ '}' ∧ c ≠ '@' := by
  rw [C96_selector sel body content hne ht hc hd hbody hb1 hb2]
  constructor
  · intro h
    cases h with
    | nil => exact absurd rfl hne
    | run c s u h1 h2 h3 h4 =>
      have hu : u = [] := by
        cases u with
        | nil => rfl
        | cons y u =>
          rcases h3 y (by simp) with rfl | rfl
          · exact absurd (by simp) hi
          · exact absurd (by simp) hq
      subst hu
      simp only [List.append_nil, List.mem_cons, List.head?_cons, Option.mem_some_iff, forall_eq_or_imp]
      simp only [List.mem_cons, List.not_mem_nil, or_false, not_or] at h1 h2
      refine ⟨⟨⟨h1.2.1, h1.2.2.2.2.1⟩, fun d hd => ⟨(h2 d hd).2.1, (h2 d hd).2.2.2⟩⟩, ?_⟩
      rintro d rfl
      exact ⟨h1.2.2.1, h1.2.2.2.1⟩
    | str body b s _ _ _ _ => exact absurd (by simp) hq
    | placeholder t b s h1 _ _ _ =>
      obtain ⟨b1, c, name, b2, -, -, -, -, rfl⟩ := h1
      exact absurd (by simp) hi
  · rintro ⟨h1, h2⟩
    cases sel with
    | nil => exact absurd rfl hne
    | cons c s =>
      have e : c :: s = c :: (s ++ []) := by simp
      rw [e]
      refine .run c s [] ?_ ?_ (by simp) .nil
      · have := h1 c (by simp)
        have := h2 c (by simp)
        simp only [List.mem_cons, List.not_mem_nil, or_false, not_or] at hq hi ⊢
        exact ⟨fun h => hi.1 h.symm, by grind, by grind, by grind, by grind, fun h => hq.1 h.symm⟩
      · intro d hd
        have := h1 d (by simp [hd])
        simp only [List.mem_cons, List.not_mem_nil, or_false, not_or] at hq hi ⊢
        exact ⟨fun h => hi.2 (h ▸ hd), this.1, fun h => hq.2 (h ▸ hd), this.2⟩

/-- Non-vacuity: pseudo-classes with and without a comma in the parentheses. -/
example : Str.trim (c! ".a:not(.b) + :is(p)") = c! ".a:not(.b) + :is(p)" ∧
    (∀ c ∈ c! ".a:not(.b) + :is(p)", c ≠ ',' ∧ c ≠ '{') ∧ ¬ (∀ c ∈ c! ".a:not(.b, .c)", c ≠ ',' ∧ c ≠ '{') ∧
    parse (c! ".a:not(.b) + :is(p){h:i}") = some [.block [[c! ".a:not(.b) + :is(p)"]] [.attr (c! "h") [c! "i"]]] := by
  decide +kernel

/-- **C56, exactly.** A single-quoted string is read as it is written if and only if it is a
readable value. -/
theorem C56_exactly (key body : Str) (hk : Ident key) (ht : Str.trim key = key) :
    parse (key ++ c! ": '" ++ body ++ c! "';") =
      some [.block [] [.attr key [c! "'" ++ body ++ c! "'"]]] ↔ ReadableValue (c! "'" ++ body ++ c! "'") := by
  rw [← C96_value key (c! "'" ++ body ++ c! "'") hk ht (by simp) (ReadableP.trim_enclosed (by decide) (by decide) body)
    (by rintro ⟨t, e⟩; simp at e)]
  simp

/-- For a string without `$`, `/` and `"` that means: without `{`, `;` and `}`. -/
theorem C56_exactly_plain (key body : Str) (hk : Ident key) (ht : Str.trim key = key)
    (hb : ∀ c ∈ body, c ∉ (c! "$/\"")) :
    parse (key ++ c! ": '" ++ body ++ c! "';") =
      some [.block [] [.attr key [c! "'" ++ body ++ c! "'"]]] ↔ ∀ c ∈ body, c ∉ (c! "{;}") := by
  rw [C56_exactly key body hk ht, ReadableP.readable_plain]
  · simp only [List.cons_append, List.nil_append, List.mem_cons, List.mem_append, List.not_mem_nil, or_false]
    grind
  · intro c hc
    simp only [List.cons_append, List.nil_append, List.mem_cons, List.mem_append, List.not_mem_nil, or_false] at hc
    rcases hc with rfl | hc | rfl
    · decide
    · exact hb c hc
    · decide

/-- **C79, exactly.** An unquoted url is read as it is written if and only if it is a readable
value. -/
theorem C79_exactly (key url : Str) (hk : Ident key) (ht : Str.trim key = key) :
    parse (key ++ c! ": url(" ++ url ++ c! ");") =
      some [.block [] [.attr key [c! "url(" ++ url ++ c! ")"]]] ↔ ReadableValue (c! "url(" ++ url ++ c! ")") := by
  rw [← C96_value key (c! "url(" ++ url ++ c! ")") hk ht (by simp)
    (by have := ReadableP.trim_enclosed (o := 'u') (x := ')') (by decide) (by decide) (c! "rl(" ++ url); simpa using this)
    (by rintro ⟨t, e⟩; simp at e)]
  simp

/-- For a url without `$`, `/` and `"` that means: without `{`, `;` and `}`. -/
theorem C79_exactly_plain (key url : Str) (hk : Ident key) (ht : Str.trim key = key)
    (hb : ∀ c ∈ url, c ∉ (c! "$/\"")) :
    parse (key ++ c! ": url(" ++ url ++ c! ");") =
      some [.block [] [.attr key [c! "url(" ++ url ++ c! ")"]]] ↔ ∀ c ∈ url, c ∉ (c! "{;}") := by
  rw [C79_exactly key url hk ht, ReadableP.readable_plain]
  · simp only [List.cons_append, List.nil_append, List.mem_cons, List.mem_append, List.not_mem_nil, or_false]
    grind
  · intro c hc
    simp only [List.cons_append, List.nil_append, List.mem_cons, List.mem_append, List.not_mem_nil, or_false] at hc
    rcases hc with rfl | rfl | rfl | rfl | hc | rfl
    all_goals first | decide | exact hb c hc

example : Ident (c! "content") ∧ Str.trim (c! "content") = c! "content" ∧ ∀ c ∈ (c! "a b"), c ∉ (c! "$/\"") :=
  ⟨by decide, by decide, by decide⟩
