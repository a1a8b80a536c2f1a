import Verif.Proofs.Stored
import Verif.Proofs.Literal
import Verif.Model.Macro

/-!
# Properties of the macros

C38 – C43: the macros with a string literal, and what all macros emit.
-/

namespace Macros

open Spec Output Literal Storage

/-! ## C38: splitting texts -/

/-- **C38.** A text is split into `fs` exactly if it is made of runs, `$${` and
`${ name }`, runs being as long as possible, that stand for `fs`. -/
theorem C38_split (s : Str) (fs : List Fragment) :
    parseFragments s = some fs ↔ ∃ ps, Pieces s ps ∧ NoTwoRuns ps ∧ fs = ps.map Piece.frag := by
  rw [parseFragments_iff]

/-- **C38**: splitting succeeds exactly on the texts that are made of pieces. -/
theorem C38_succeeds (s : Str) : (∃ fs, parseFragments s = some fs) ↔ ∃ ps, Pieces s ps := (splits_iff s).symm

/-- **C38**: the text with values filled in does not depend on how it is read. -/
theorem C38_unique (σ : Str → Option Str) (s t t' : Str) (h : Replaced σ s t) (h' : Replaced σ s t') : t = t' :=
  replaced_unique h h'

/-- Non-vacuity: a text with a run, an escape and an interpolation. -/
example : parseFragments (c! "a$${b${ x_1 }") =
    some [.literal (c! "a"), .literal (c! "${"), .literal (c! "b"), .interpolation (c! "x_1")] := by decide

example : Replaced (fun n => if n = c! "x_1" then some (c! "red") else none) (c! "a$${b${ x_1 }") (c! "a${bred") :=
  ⟨[.run (c! "a"), .escape, .run (c! "b"), .hole (c! " ") (c! "x_1") (c! " ")],
    ⟨by simp [Piece.Ok, Spaces, ArgName]; decide, by decide⟩,
    [c! "a", c! "${", c! "b", c! "red"], by decide, by decide⟩

/-- A single `$`, or a `{` that is not part of an interpolation, is not accepted. -/
theorem C38_limit_special : parseFragments (c! "a$b") = none ∧ parseFragments (c! "{") = none ∧
    parseFragments (c! "${a-b}") = none ∧ parseFragments (c! "${_a}") = none := by decide

/-! ## C39: the sheet of a literal macro -/

/-- A call whose first token is a literal uses the string syntax. -/
theorem expand_literal (isExpr : RExpr → Bool) (t : Str) (v : Option Str) (rest : List Tree) :
    Macro.expand isExpr (.lit t v :: rest) = macroFn (.lit t v :: rest) := rfl

/-- **C39.** If a macro call with a string literal is accepted, then each evaluation of it
gives the sheet of the literal with `${name}` replaced by the `Display` text of the
argument at that time. -/
theorem C39_substitutes (isExpr : RExpr → Bool) (t s : Str) (rest : List Tree) (code : CSheet)
    (h : Macro.expand isExpr (.lit t (some s) :: rest) = some code) :
    ∃ sheet args, Css.parse s = some sheet ∧ ArgTokens rest args ∧
      ∀ ρs : List Env, ∃ ts, code.evalMany ρs none = some ts ∧ ts.length = ρs.length ∧
        ∀ (i : Nat) ρ, ρs[i]? = some ρ → ∃ t, ts[i]? = some t ∧ ReplacedSheet (argText args ρ) sheet (eraseSheet t) := by
  rw [expand_literal] at h
  obtain ⟨sheet, args, out, used, h1, h2, h3, -, rfl⟩ := macroFn_some.1 h
  refine ⟨sheet, args, h1, h2.1, fun ρs => ?_⟩
  obtain ⟨ts, h4, h5⟩ := evalMany_spec out ρs (cell := none) (fun t ht => by cases ht)
  refine ⟨ts, h4, by simpa using congrArg List.length h5, ?_⟩
  intro i ρ hi
  have h6 := congrArg (fun l => l[i]?) h5
  simp only [List.getElem?_map, hi, Option.map_some] at h6
  cases ht : ts[i]? with
  | none => rw [ht] at h6; cases h6
  | some t =>
    rw [ht] at h6
    simp only [Option.map_some, Option.some.injEq] at h6
    refine ⟨t, rfl, ?_⟩
    rw [← replacedSheet_joined, h6]
    exact (sheetOut_spec sheet h3).1 ρ

/-- **C39**, rendered: all sheets that arise from a sheet by the same replacements have the
same text. -/
theorem C39_same_text (σ : Str → Option Str) (sheet a b : Sheet) (ha : ReplacedSheet σ sheet a)
    (hb : ReplacedSheet σ sheet b) (cls : Option Str) : a.toStyleStr cls = b.toStyleStr cls := by
  rw [← toStyleStr_joined a, ← toStyleStr_joined b, replacedSheet_unique sheet ha hb]

/-- The tokens of `"color: ${x};", x = y,`. -/
def demoCall : List Tree :=
  [.lit (c! "\"color: ${x};\"") (some (c! "color: ${x};")), .punct ',' false, .ident (c! "x") false,
    .punct '=' false, .ident (c! "y") false, .punct ',' false]

/-- Non-vacuity: the call is accepted and evaluates to different sheets in different
environments. -/
example : ((Macro.expand (fun _ => true) demoCall).bind (fun c => c.evalMany [fun _ => c! "red", fun _ => c! "blue"] none)).map
    (List.map (fun t => (eraseSheet t).toStyleStr (some (c! "a")))) =
    some [c! ".a {\n    color: red;\n}\n", c! ".a {\n    color: blue;\n}\n"] := by decide

/-- The escape `$${` only helps inside of a CSS string: elsewhere the sheet parser rejects
the `$`. -/
theorem C39_limit_escape : Macro.expand (fun _ => true) [.lit [] (some (c! "a: $${;"))] = none ∧
    ((Macro.expand (fun _ => true) [.lit [] (some (c! "a: \"$${\";"))]).bind (fun c => c.evalMany [fun _ => []] none)).map
      (List.map (fun t => (eraseSheet t).toStyleStr none)) = some [c! ":root {\n    a: \"${\";\n}\n"] := by
  constructor
  · rw [← Option.isNone_iff_eq_none]; decide
  · decide

/-! ## C40: arguments -/

/-- **C40.** A macro call with a string literal is accepted exactly if the literal parses,
the arguments are well formed and distinct, all texts can be split, each interpolated name
is an argument and each argument is interpolated. -/
theorem C40_accepts_iff (isExpr : RExpr → Bool) (t s : Str) (rest : List Tree) :
    (Macro.expand isExpr (.lit t (some s) :: rest)).isSome = true ↔
      ∃ sheet args, Css.parse s = some sheet ∧ ArgTokens rest args ∧ (args.map Prod.fst).Nodup ∧
        (∀ x ∈ texts sheet, ∃ ps, Pieces x ps) ∧
        (∀ x ∈ texts sheet, ∀ n, Mentions x n → n ∈ args.map Prod.fst) ∧
        (∀ n ∈ args.map Prod.fst, ∃ x ∈ texts sheet, Mentions x n) := by
  rw [expand_literal, Option.isSome_iff_exists]
  constructor
  · rintro ⟨code, h⟩
    obtain ⟨sheet, args, out, used, h1, h2, h3, h4, rfl⟩ := macroFn_some.1 h
    have hok := (sheetOut_isSome args sheet).1 ⟨_, h3⟩
    refine ⟨sheet, args, h1, h2.1, h2.2, fun x hx => (hok x hx).1, fun x hx => (hok x hx).2, fun n hn => ?_⟩
    exact ((sheetOut_spec sheet h3).2 n).1 (h4 n hn)
  · rintro ⟨sheet, args, h1, h2, h3, h4, h5, h6⟩
    obtain ⟨⟨out, used⟩, h7⟩ := (sheetOut_isSome args sheet).2 (fun x hx => ⟨h4 x hx, h5 x hx⟩)
    exact ⟨reifySheet out, macroFn_some.2 ⟨sheet, args, out, used, h1, ⟨h2, h3⟩, h7,
      fun n hn => ((sheetOut_spec sheet h7).2 n).2 (h6 n hn), rfl⟩⟩

/-- **C40**: a first token that is another literal than a string is an error, whatever
follows. -/
theorem C40_first_token (isExpr : RExpr → Bool) (t : Str) (rest : List Tree) :
    Macro.expand isExpr (.lit t none :: rest) = none := by
  rw [expand_literal, macroFn]
  simp

/-- Arguments are read in one way. -/
theorem C40_arguments_unique (ts : List Tree) (args args' : List (Str × RExpr)) (h : ArgTokens ts args)
    (h' : ArgTokens ts args') : args = args' := by
  have key : ∀ {ts args}, ArgTokens ts args → ∀ {args'}, ArgTokens ts args' → args = args' := by
    intro ts args h
    induction h with
    | done => intro args' h'; cases h'; rfl
    | trailing j => intro args' h'; cases h'; rfl
    | more j name raw j' e rest args hnc hrest ih =>
      intro args' h'
      have hr : ∀ {r : List Tree} {a}, ArgTokens r a → r = [] ∨ ∃ j r', r = .punct ',' j :: r' := by
        intro r a h
        cases h
        · exact .inl rfl
        · exact .inr ⟨_, _, rfl⟩
        · exact .inr ⟨_, _, rfl⟩
      have hsplit : ∀ {e : List Tree} {r a}, (∀ t ∈ e, NotComma t) → ArgTokens r a →
          argTokens (e ++ r) = (e, match r with | [] => none | _ :: r' => some r') := by
        intro e r a he h
        rcases hr h with rfl | ⟨j, r', rfl⟩
        · simp [argTokens_plain e he]
        · simp [argTokens_comma j r' e he]
      generalize hts : (Tree.punct ',' j :: Tree.ident name raw :: Tree.punct '=' j' :: (e ++ rest)) = ts at h'
      cases h' with
      | done => cases hts
      | trailing => simp at hts
      | more j2 name2 raw2 j2' e2 rest2 args2 hnc2 hrest2 =>
        simp only [List.cons.injEq, Tree.punct.injEq, Tree.ident.injEq] at hts
        obtain ⟨-, ⟨rfl, rfl⟩, -, he⟩ := hts
        have h1 := hsplit hnc hrest
        rw [he, hsplit hnc2 hrest2] at h1
        simp only [Prod.mk.injEq] at h1
        obtain ⟨rfl, -⟩ := h1
        have h2 : rest = rest2 := List.append_cancel_left he
        subst h2
        rw [ih hrest2]
  exact key h h'

/-- **C40**: a raw identifier keeps its `r#` as the name of an argument, which cannot be
interpolated, so that calls with such arguments are rejected. -/
theorem C40_limit_raw_name (isExpr : RExpr → Bool) (t s name : Str) (j j' : Bool) (e rest : List Tree) (he : ∀ x ∈ e, NotComma x)
    (args : List (Str × RExpr)) (hr : ArgTokens rest args) :
    Macro.expand isExpr (.lit t (some s) :: .punct ',' j :: .ident name true :: .punct '=' j' :: (e ++ rest)) = none := by
  rw [← Option.not_isSome_iff_eq_none]
  intro h
  obtain ⟨sheet, args', -, h2, -, -, -, h6⟩ := (C40_accepts_iff isExpr t s _).1 h
  have h3 := C40_arguments_unique _ _ _ h2 (.more j name true j' e rest args he hr)
  subst h3
  obtain ⟨x, -, ps, b, a, ⟨hok, -⟩, hm⟩ := h6 (c! "r#" ++ name) (by simp [nameText])
  have := (hok _ hm).2.1.2 '#' (by simp)
  revert this
  decide

/-- Non-vacuity: `"color: ${x};", r#x = y`, which is accepted without the `r#`. -/
example : Macro.expand (fun _ => true) [.lit [] (some (c! "color: ${x};")), .punct ',' false, .ident (c! "x") true, .punct '=' false,
      .ident (c! "y") false] = none ∧
    (Macro.expand (fun _ => true) [.lit [] (some (c! "color: ${x};")), .punct ',' false, .ident (c! "x") false, .punct '=' false,
      .ident (c! "y") false]).isSome = true :=
  ⟨C40_limit_raw_name (fun _ => true) _ _ _ _ _ [.ident (c! "y") false] [] (by simp [NotComma]) [] .done, by decide⟩

/-- Non-vacuity: `demoCall` is accepted; not so without its argument, with the argument
twice, or with one more. -/
example : (Macro.expand (fun _ => true) demoCall).isSome = true ∧ (Macro.expand (fun _ => true) (demoCall.take 1)).isSome = false ∧
    (Macro.expand (fun _ => true) (demoCall ++ (demoCall.drop 2).take 3)).isSome = false ∧
    (Macro.expand (fun _ => true) (demoCall ++ [.ident (c! "z") false, .punct '=' false, .ident (c! "y") false])).isSome = false := by
  decide

example : ArgTokens (demoCall.drop 1) [(c! "x", [.ident (c! "y") false])] :=
  .more false (c! "x") false false [.ident (c! "y") false] [.punct ',' false] []
    (by simp [NotComma]) (.trailing false)

/-! ## C41: merging fragments -/

/-- **C41.** Merging leaves the text unchanged, whatever the expressions give. -/
theorem C41_text (fs : List OFrag) (ρ : Env) : fragsText ρ (coalesce fs) = fragsText ρ fs := coalesce_text ρ fs

/-- **C41** for the emitted code: its items give the text of the fragments. -/
theorem C41_emitted_text (fs : List OFrag) (ctx : Output.Ctx) (ρ : Env) :
    ∃ v, evalVec evalFrag (.body ρ) (reifyFrags fs ctx).1 = some v ∧
      (v.val.map (fun f => f.inner.val)).flatten = fragsText ρ fs := by
  rw [reifyFrags_eq]
  exact evalFrags_spec fs (.inl rfl)

/-- **C41**: no two fixed fragments are neighbours in the emitted code. -/
theorem C41_no_adjacent (fs : List OFrag) (ctx : Output.Ctx) (pre post : List OCow) (a b : Str) :
    (reifyFrags fs ctx).1.items ≠ pre ++ .str a :: .str b :: post := by
  rw [reifyFrags_eq]
  intro h
  have h' : (coalesce fs).map OFrag.inner = pre ++ .str a :: .str b :: post := h
  obtain ⟨p1, r1, h1, rfl, h2⟩ := List.map_eq_append_iff.1 h'
  obtain ⟨x, r2, rfl, hx, h3⟩ := List.map_eq_cons_iff.1 h2
  obtain ⟨y, r3, rfl, hy, -⟩ := List.map_eq_cons_iff.1 h3
  have hd : FragDyn x ∨ FragDyn y := by
    cases fs with
    | nil => simp [coalesce] at h1
    | cons f fs => exact coalesceGo_apart fs f p1 x y r3 h1
  rw [fragDyn_iff, fragDyn_iff] at hd
  simp [OFrag.asString, hx, hy] at hd

/-- Non-vacuity: merging does something. -/
example : (reifyFrags [.str (c! "a"), .delimiter .paren true, .arg (c! "x") [], .str (c! "b"), .str (c! "c")] .const).1.items
    = [.str (c! "a("), .raw [], .str (c! "bc")] := rfl

/-! ## C42: caching -/

/-- **C42.** A sheet is put in a `static` exactly if none of its parts depends on an
expression. -/
theorem C42_cached_iff (s : OSheet) : (reifySheet s).cached = true ↔ ¬ Dyn s := by
  rw [reifySheet_eq, ← dynSheet_iff]
  simp

/-- **C42.** However often and in whatever environments the emitted code is evaluated, it
compiles (no constant mentions an expression or allocates, no `static` mentions an
expression) and each evaluation gives the sheet for its own environment. -/
theorem C42_evaluates (s : OSheet) (ρs : List Env) :
    ∃ ts, (reifySheet s).evalMany ρs none = some ts ∧
      ts.map (fun t => joined (eraseSheet t)) = ρs.map (fun ρ => meaning ρ s) :=
  evalMany_spec s ρs (fun t ht => by cases ht)

/-- **C42**, rendered: the sheet that an output tree describes has the text of the emitted
sheet. -/
theorem C42_joined_text (s : Sheet) (cls : Option Str) : (joined s).toStyleStr cls = s.toStyleStr cls :=
  toStyleStr_joined s cls

/-- **C42**: what is allocated. Every list, boxed rule and key of an evaluated sheet is owned exactly if
an expression occurs in it, and borrowed from a constant otherwise; in a sheet of literals nothing is
owned. -/
theorem C42_stored (s : OSheet) (ρs : List Env) (ts : List Storage.TSheet)
    (h : (reifySheet s).evalMany ρs none = some ts) : ∀ t ∈ ts, StoredSheet s t :=
  stored_many s ρs none ts (fun t ht => by cases ht) h

/-- Non-vacuity: a sheet with a fixed and a varying part; the fixed part is a constant. -/
example : (reifySheet [.block [] [.attr (.str (c! "a")) [.str (c! "b")], .attr (.str (c! "c")) [.arg (c! "x") []]]]).cached = false ∧
    (reifySheet [.block [] [.attr (.str (c! "a")) [.str (c! "b")]]]).cached = true ∧
    Dyn [.block [] [.attr (.str (c! "c")) [.arg (c! "x") []]]] := by
  refine ⟨rfl, rfl, ?_⟩
  simp [Dyn, DynRBCs, DynRBC, FragDyn]

/-- In `{ a: b; c: ${x}; }` the fixed value is borrowed and the varying one is owned, as are the lists
around both. -/
example : ((reifySheet [.block [] [.attr (.str (c! "a")) [.str (c! "b")], .attr (.str (c! "c")) [.arg (c! "x") []]]]).evalMany
      [fun _ => c! "1"] none).map (fun ts => ts.map (fun t => (t.loc, t.val.map (fun x => match x with
        | .block c l b => (c.loc, l, b.map (fun y => match y with
          | .attr k v => (k.loc, v.loc)
          | .rule l c _ _ => (l, c.loc)
          | .block l c _ _ => (l, c.loc)))
        | .rule c l _ => (c.loc, l, []))))) =
    some [(.owned, [(.borrowed, .owned, [(.borrowed, .borrowed), (.borrowed, .owned)])])] := by
  with_unfolding_all rfl

/-! ## C43: macro and run-time parser -/

/-- **C43.** For a literal whose selectors, values and conditions have neither `$` nor `{`
the macro is accepted exactly if the run-time parser accepts the literal, the sheet is
cached, and it has the same text. -/
theorem C43_same_as_run_time (isExpr : RExpr → Bool) (t s : Str) (hs : ∀ sheet, Css.parse s = some sheet →
      ∀ x ∈ texts sheet, '$' ∉ x ∧ '{' ∉ x) :
    ((Macro.expand isExpr [.lit t (some s)]).isSome = (Css.parse s).isSome) ∧
    ∀ code, Macro.expand isExpr [.lit t (some s)] = some code → code.cached = true ∧
      ∃ sheet, Css.parse s = some sheet ∧
        ∀ ρs : List Env, ∃ ts, code.evalMany ρs none = some ts ∧ ts.length = ρs.length ∧
          ∀ u ∈ ts, ∀ cls, (eraseSheet u).toStyleStr cls = sheet.toStyleStr cls := by
  constructor
  · rw [Bool.eq_iff_iff, C40_accepts_iff]
    constructor
    · rintro ⟨sheet, args, h1, -⟩; rw [h1]; rfl
    · intro h
      obtain ⟨sheet, h1⟩ := Option.isSome_iff_exists.1 h
      refine ⟨sheet, [], h1, .done, by simp, ?_, ?_, by simp⟩
      · intro x hx
        obtain ⟨ps, hp, -⟩ := replaced_plain (fun _ => none) (hs sheet h1 x hx)
        exact ⟨ps, hp⟩
      · intro x hx n hn
        exact absurd (mentions_special hn) (hs sheet h1 x hx).1
  · intro code h
    rw [expand_literal] at h
    obtain ⟨sheet, args, out, used, h1, ⟨h2, -⟩, h3, -, rfl⟩ := macroFn_some.1 h
    cases h2
    obtain ⟨h4, -⟩ := sheetOut_spec sheet h3
    refine ⟨?_, sheet, h1, fun ρs => ?_⟩
    · rw [C42_cached_iff]
      have := sheetOut_static [] sheet out used h3 rfl
      exact this
    · obtain ⟨ts, h5, h6⟩ := C42_evaluates out ρs
      refine ⟨ts, h5, by simpa using congrArg List.length h6, ?_⟩
      intro u hu cls
      have h7 : joined (eraseSheet u) ∈ ρs.map (fun ρ => meaning ρ out) := by
        rw [← h6]; exact List.mem_map.2 ⟨u, hu, rfl⟩
      obtain ⟨ρ, -, h8⟩ := List.mem_map.1 h7
      have h9 := h4 ρ
      rw [h8, replacedSheet_joined] at h9
      exact C39_same_text _ sheet _ _ h9 (replacedSheet_plain _ sheet (hs sheet h1)) cls

/-- Non-vacuity: a literal of this kind, with a rule, a selector and a value. -/
def demoLiteral : Str := c! "@media print { .a:hover { color: red; } }"

set_option maxRecDepth 8000 in
example : (Css.parse demoLiteral).map texts =
    some [c! "@media ", c! "print", c! ".a:hover", c! "red"] ∧
    ((Macro.expand (fun _ => true) [.lit [] (some demoLiteral)]).bind (fun c => c.evalMany [fun _ => []] none)).map
      (List.map (fun t => (eraseSheet t).toStyleStr (some (c! "x")))) =
    (Css.parse demoLiteral).map (fun s => [s.toStyleStr (some (c! "x"))]) := by decide

set_option maxRecDepth 8000 in
/-- What C43 does not say: the two sheets need not be equal as values, so that one manager
registers the same text twice. The macro merges the fragments of a condition. -/
theorem C43_limit_not_equal :
    ((Macro.expand (fun _ => true) [.lit [] (some demoLiteral)]).bind (fun c => c.evalMany [fun _ => []] none)).map (List.map eraseSheet) ≠
      (Css.parse demoLiteral).map (fun s => [s]) := by decide

/-- A literal that the run-time parser accepts may be rejected by the macro. -/
theorem C43_limit_dollar :
    (Css.parse (c! "a: \"$x\";")).isSome = true ∧ Macro.expand (fun _ => true) [.lit [] (some (c! "a: \"$x\";"))] = none := by
  constructor
  · decide
  · rw [← Option.isNone_iff_eq_none]; decide

end Macros
