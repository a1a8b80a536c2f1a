import Verif.Proofs.Panic
import Verif.Props.Macros

/-!
# Properties of inline CSS

C44 – C48: the macros with CSS written as Rust tokens.
-/

namespace Inline

open Spec Output Storage

/-! ## C44: the spacing iterator -/

/-- **C44.** Collecting `xs.spaced_with(f)` gives the items of `xs` in order, with
`f(l, r)` between neighbours `l` and `r` where it is `Some`, and nothing else. `f` may have
a state; it is called once for each pair of neighbours, from left to right. -/
theorem C44_spaced {σ α : Type} (f : Spacing.Spacer σ α) (xs : List α) (s : σ) (n : Nat) (hn : 2 * xs.length ≤ n) :
    Spacing.collect f n (Spacing.spacedWith xs s) = between f s xs :=
  Spacing.collect_between f xs s n hn

/-- Non-vacuity: the repository's own example, and a spacer that counts. -/
example : Spacing.collect (fun (s : Unit) l _ => (if l = 4 then some 2000 else none, s)) 12
      (Spacing.spacedWith [1, 2, 3, 4, 5, 6] ()) = [1, 2, 3, 4, 2000, 5, 6] ∧
    Spacing.collect (fun (s : Nat) _ _ => (some (100 + s), s + 1)) 6 (Spacing.spacedWith [1, 2, 3] 0) =
      [1, 100, 2, 101, 3] := by decide

/-! ## C45: component values -/

/-- **C45.** Tokens are read as the component values `cs` exactly if they are the tokens of
`cs` and `cs` is well formed. In particular nothing is lost. -/
theorem C45_lossless (isExpr : RExpr → Bool) (ts : List Tree) (cs : List CV) :
    parseMultiple isExpr ts = some cs ↔ ts = tokens cs ∧ CVsOk isExpr cs [] := parseMultiple_iff isExpr ts cs

/-- **C45**, for one component value in front of other tokens. -/
theorem C45_one (isExpr : RExpr → Bool) (ts : List Tree) (c : CV) (rest : List Tree) :
    parseCV isExpr ts = some (c, rest) ↔ ts = tokensCV c ++ rest ∧ CVOk isExpr c ∧ Followed c rest :=
  parseCV_iff isExpr ts c rest

/-- **C45**: well-formed component values with the same tokens are the same. -/
theorem C45_unique (isExpr : RExpr → Bool) (a b : List CV) (ha : CVsOk isExpr a []) (hb : CVsOk isExpr b [])
    (h : tokens a = tokens b) : a = b := by
  have h1 := (C45_lossless isExpr (tokens a) a).2 ⟨rfl, ha⟩
  rw [(C45_lossless isExpr (tokens a) b).2 ⟨h, hb⟩] at h1
  exact (Option.some.inj h1).symm

/-- **C45**, termination: the recursion is bounded by the number of tokens; any larger
budget gives the same result, for success and for failure. -/
theorem C45_terminates (isExpr : RExpr → Bool) (ts : List Tree) (n : Nat) (hn : 2 * treesSize ts + 1 ≤ n) :
    cvs isExpr n ts = parseMultiple isExpr ts := by
  cases h : parseMultiple isExpr ts with
  | some cs =>
    obtain ⟨rfl, h2⟩ := (C45_lossless isExpr ts cs).1 h
    exact cvs_complete isExpr n cs h2 hn
  | none =>
    cases h' : cvs isExpr n ts with
    | none => rfl
    | some cs =>
      rw [(C45_lossless isExpr ts cs).2 (cvs_sound isExpr n ts cs h')] at h
      cases h

/-- The tokens of `--a-b: ${x} f(1, -c)`. -/
def demoTokens : List Tree :=
  [.punct '-' true, .punct '-' false, .ident (c! "a") false, .punct '-' false, .ident (c! "b") false,
    .punct ':' false, .punct '$' false, .group .brace [.ident (c! "x") false], .ident (c! "f") false,
    .group .paren [.lit (c! "1") none, .punct ',' false, .punct '-' false, .ident (c! "c") false]]

/-- Non-vacuity. -/
example : parseMultiple (fun _ => true) demoTokens =
    some [.tok (.ident [.dash true, .dash false, .ident (c! "a") false, .dash false, .ident (c! "b") false]),
      .tok (.punct ':' false), .expr false [.ident (c! "x") false],
      .func [.ident (c! "f") false] [.tok (.lit (c! "1") none), .tok (.punct ',' false),
        .tok (.ident [.dash false, .ident (c! "c") false])]] := by rfl

/-! ## C46: items in order -/

/-- **C46.** A macro call expands to code exactly if its tokens are a sheet (and contain no
braces where they make the macro panic, see C47), and the code is then that of the items,
in order, each maximal run of declarations outside of blocks being one block without
selectors. -/
theorem C46_code (isExpr : RExpr → Bool) (ts : List Tree) (c : CSheet) :
    macroFn isExpr ts = .code c ↔ ∃ is out, Sheets isExpr false ts is ∧ BraceFreeL is ∧
      Emits is (out.map scopeRBC) ∧ c = reifySheet out := macroFn_code isExpr ts c

/-- **C46**, for the call of a macro: if the first token is not a literal (see C39 and C40
otherwise), the call compiles to code exactly in this case. -/
theorem C46_macro (isExpr : RExpr → Bool) (ts : List Tree) (hl : ∀ t v rest, ts ≠ .lit t v :: rest) (c : CSheet) :
    Macro.expand isExpr ts = some c ↔ ∃ is out, Sheets isExpr false ts is ∧ BraceFreeL is ∧
      Emits is (out.map scopeRBC) ∧ c = reifySheet out := by
  rw [← C46_code]
  unfold Macro.expand
  split
  · rename_i t v rest; exact absurd rfl (hl t v rest)
  · cases macroFn isExpr ts <;> simp

/-- **C46**, evaluated: each evaluation gives the sheet of the items for the values that the
expressions have at that time. -/
theorem C46_evaluated (isExpr : RExpr → Bool) (ts : List Tree) (c : CSheet) (h : macroFn isExpr ts = .code c) :
    ∃ is out, Sheets isExpr false ts is ∧ Emits is (out.map scopeRBC) ∧
      ∀ ρs : List Env, ∃ us, c.evalMany ρs none = some us ∧
        us.map (fun u => joined (eraseSheet u)) = ρs.map (fun ρ => meaning ρ out) := by
  obtain ⟨is, out, h1, -, h2, rfl⟩ := (C46_code isExpr ts c).1 h
  exact ⟨is, out, h1, h2, fun ρs => Macros.C42_evaluates out ρs⟩

/-- **C46**: tokens are a sheet in at most one way. -/
theorem C46_unique (isExpr : RExpr → Bool) (b : Bool) (ts : List Tree) (is is' : List SItem)
    (h : Sheets isExpr b ts is) (h' : Sheets isExpr b ts is') : is = is' := sheets_unique h h'

/-- **C46**: the declarations of the output are those of the input, in the same order. -/
theorem C46_order (is : List SItem) (out : List ORBC) (h : Emits is out) : attrsOfL out = declsOfL is :=
  emits_order h

/-- **C46**: there is one output for each sheet. -/
theorem C46_output_unique (isExpr : RExpr → Bool) (ts : List Tree) (is : List SItem) (a b : List ORBC)
    (h : Sheets isExpr false ts is) (hb : BraceFreeL is) (ha : Emits is a) (hb' : Emits is b) : a = b := by
  have h1 := ruleOut_emits ha (sheets_fine h) hb
  rw [ruleOut_emits hb' (sheets_fine h) hb] at h1
  simpa using h1.symm

/-- The tokens of `a: b; c: ${x}; .k, & { d: "s"; } @media (e: f) { g: 1 h; }`. -/
def demoSheet : List Tree :=
  [.ident (c! "a") false, .punct ':' false, .ident (c! "b") false, .punct ';' false,
    .ident (c! "c") false, .punct ':' false, .punct '$' false, .group .brace [.ident (c! "x") false], .punct ';' false,
    .punct '.' false, .ident (c! "k") false, .punct ',' false, .punct '&' false,
    .group .brace [.ident (c! "d") false, .punct ':' false, .lit (c! "\"s\"") (some (c! "s")), .punct ';' false],
    .punct '@' false, .ident (c! "media") false,
    .group .paren [.ident (c! "e") false, .punct ':' false, .ident (c! "f") false],
    .group .brace [.ident (c! "g") false, .punct ':' false, .lit (c! "1") none, .ident (c! "h") false, .punct ';' false]]

set_option maxRecDepth 8000 in
/-- Non-vacuity: the text that the code gives. -/
example : (match macroFn (fun _ => true) demoSheet with
      | .code c => (c.evalMany [fun _ => c! "red"] none).map (List.map (fun t => (eraseSheet t).toStyleStr (some (c! "z"))))
      | _ => none) =
    some [c! ".z {\n    a: b;\n    c: red;\n}\n.z .k, .z {\n    d: \"s\";\n}\n@media (e:f) {\n    .z {\n        g: 1 h;\n    }\n}\n"] := by
  decide +kernel

/-- Non-vacuity of `C46_macro`. -/
example : (∀ t v rest, demoSheet ≠ .lit t v :: rest) ∧ (Macro.expand (fun _ => true) demoSheet).isSome = true :=
  ⟨by simp [demoSheet], by decide +kernel⟩

/-- What C46 does not say: a string literal is emitted as it is written in Rust, not its
value. A raw string becomes CSS that is not a string. -/
theorem C46_limit_raw_string :
    (match macroFn (fun _ => true) [.ident (c! "content") false, .punct ':' false,
        .lit (c! "r\"x\"") (some (c! "x")), .punct ';' false] with
      | .code c => (c.evalMany [fun _ => []] none).map (List.map (fun t => (eraseSheet t).toStyleStr none))
      | _ => none) = some [c! ":root {\n    content: r\"x\";\n}\n"] := by
  decide

/-! ## C47: the panic -/

/-- **C47 is false.** Braces inside of parentheses are not rejected, neither in a selector
nor in the condition of an at-rule: the macro panics on `:not({}) {}` and on
`@media ({}) {}`. -/
theorem C47_false :
    macroFn (fun _ => true) [.punct ':' false, .ident (c! "not") false, .group .paren [.group .brace []],
      .group .brace []] = .panic ∧
    macroFn (fun _ => true) [.punct '@' false, .ident (c! "media") false, .group .paren [.group .brace []],
      .group .brace []] = .panic := ⟨rfl, rfl⟩

/-- **C47, partial.** The macro does not panic if there are no braces (other than those of
`${..}`) inside of parentheses or brackets. Missing: such braces, for which it is false. -/
theorem C47_partial (isExpr : RExpr → Bool) (ts : List Tree) (h : NoInnerBraces False False ts) :
    macroFn isExpr ts ≠ .panic := macroFn_safe h

/-- **C47**, for sheets without other errors: the macro panics exactly if there is a braced
group in a selector or in the condition of an at-rule. Declarations do not matter. -/
theorem C47_panics_iff (isExpr : RExpr → Bool) (ts : List Tree) (is : List SItem) (h : Sheets isExpr false ts is) :
    macroFn isExpr ts = .panic ↔ ¬ BraceFreeL is := by
  constructor
  · intro hp hb
    obtain ⟨out, ho⟩ := emits_exists _ is (Nat.le_refl _) (sheets_fine h)
    have h1 := rootOut_eq (ofSs is) []
    rw [ruleOut_emits ho (sheets_fine h) hb] at h1
    obtain ⟨⟨s, e⟩, -, h3⟩ := Option.map_eq_some_iff.1 h1
    simp only [Prod.mk.injEq] at h3
    rw [(C46_code isExpr ts (reifySheet s)).2 ⟨is, s, h, hb, h3.1 ▸ ho, rfl⟩] at hp
    cases hp
  · exact macroFn_panic h

/-- Non-vacuity: braces at places where they are fine. -/
example : NoInnerBraces False False demoSheet := by simp [demoSheet, NoInnerBraces, NoInnerBrace, IsDollar, IsBraceGroup]

example : ¬ NoInnerBraces False False [.punct ':' false, .ident (c! "not") false, .group .paren [.group .brace []],
    .group .brace []] := by simp [NoInnerBraces, NoInnerBrace, IsDollar, IsBraceGroup]

/-! ## C48: invalid CSS -/

/-- **C48.** The macro expands to a sheet only if the tokens are a sheet according to the
grammar: all tokens of values and selectors are valid, there are no at-rules other than
`@media` and `@supports`, and no blocks in blocks. -/
theorem C48_only_valid (isExpr : RExpr → Bool) (ts : List Tree) :
    (∃ c, macroFn isExpr ts = .code c) ↔ ∃ is, Sheets isExpr false ts is ∧ BraceFreeL is := by
  constructor
  · rintro ⟨c, h⟩
    obtain ⟨is, out, h1, h2, -⟩ := (C46_code isExpr ts c).1 h
    exact ⟨is, h1, h2⟩
  · rintro ⟨is, h1, h2⟩
    cases h : macroFn isExpr ts with
    | code c => exact ⟨c, rfl⟩
    | panic => exact absurd h2 ((C47_panics_iff isExpr ts is h1).1 h)
    | parseError =>
      exfalso
      obtain ⟨out, ho⟩ := emits_exists _ is (Nat.le_refl _) (sheets_fine h1)
      have h3 := rootOut_eq (ofSs is) []
      rw [ruleOut_emits ho (sheets_fine h1) h2] at h3
      obtain ⟨⟨s, e⟩, -, h4⟩ := Option.map_eq_some_iff.1 h3
      simp only [Prod.mk.injEq] at h4
      rw [(C46_code isExpr ts (reifySheet s)).2 ⟨is, s, h1, h2, h4.1 ▸ ho, rfl⟩] at h
      cases h
    | errors es =>
      exfalso
      obtain ⟨out, ho⟩ := emits_exists _ is (Nat.le_refl _) (sheets_fine h1)
      have h3 := rootOut_eq (ofSs is) []
      rw [ruleOut_emits ho (sheets_fine h1) h2] at h3
      obtain ⟨⟨s, e⟩, -, h4⟩ := Option.map_eq_some_iff.1 h3
      simp only [Prod.mk.injEq] at h4
      rw [(C46_code isExpr ts (reifySheet s)).2 ⟨is, s, h1, h2, h4.1 ▸ ho, rfl⟩] at h
      cases h

/-- **C48**: in the grammar, blocks contain no blocks. -/
theorem C48_block_in_block (isExpr : RExpr → Bool) (is : List SItem) (ts : List Tree) (qs : List CV) (body : List SItem)
    (h : Sheets isExpr true ts is) : .block qs body ∉ is := by
  have : ∀ is : List SItem, FineL true is → .block qs body ∉ is := by
    intro is
    induction is with
    | nil => simp
    | cons i is ih =>
      rintro ⟨h1, h2⟩ hm
      rcases List.mem_cons.1 hm with rfl | hm
      · cases h1.1
      · exact ih h2 hm
  exact this is (sheets_fine h)

/-- The errors of an expansion; `none` if it is code. -/
def Expansion.problems : Expansion → Option (List IErr)
  | .code _ => none
  | .errors es => some es
  | .parseError => some []
  | .panic => some []

/-- Non-vacuity: `demoSheet` is accepted; other at-rules, blocks in blocks, blocks in
values and missing semicolons are not. -/
example : (macroFn (fun _ => true) demoSheet).problems = none ∧
    (macroFn (fun _ => true) [.punct '@' false, .ident (c! "page") false, .group .brace []]).problems =
      some [.atRule [.ident (c! "page") false]] ∧
    (macroFn (fun _ => true) [.punct '&' false, .group .brace [.punct '&' false, .group .brace []]]).problems =
      some [.nested [.tok (.punct '&' false)]] ∧
    (macroFn (fun _ => true) [.ident (c! "a") false, .punct ':' false, .group .paren [], .punct ';' false]).problems =
      some [.attrBlock (.block .paren [])] ∧
    (macroFn (fun _ => true) [.ident (c! "a") false, .punct ':' false, .ident (c! "b") false]).problems =
      some [] := by with_unfolding_all exact ⟨rfl, rfl, rfl, rfl, rfl⟩

/-- What is rejected as well: an at-rule without a block, whatever follows. -/
theorem C48_limit_statement_rule (isExpr : RExpr → Bool) (j j' : Bool) (rest : List Tree) (c : CSheet) :
    macroFn isExpr (.punct '@' j :: .ident (c! "media") false :: .ident (c! "print") false :: .punct ';' j' :: rest) ≠
      .code c := by
  intro h
  obtain ⟨is, out, h1, -⟩ := (C46_code _ _ _).1 h
  obtain ⟨cs, h2, h3⟩ := sheets_cvs h1
  have hp := items_complete h1 _ (Nat.le_refl _)
  generalize hn : 2 * treesSize _ = n at hp
  cases n with
  | zero => simp [items] at hp
  | succ n =>
    simp only [items] at hp
    cases n with
    | zero => simp [item] at hp
    | succ n =>
      have hi : ∀ r, item isExpr (n + 1) (.punct '@' j :: .ident (c! "media") false :: .ident (c! "print") false ::
          .punct ';' j' :: rest) = some r → r.2 = .punct ';' j' :: rest := by
        intro r hr
        have e1 : takePunct '@' (.punct '@' j :: .ident (c! "media") false :: .ident (c! "print") false ::
            .punct ';' j' :: rest) = some (.ident (c! "media") false :: .ident (c! "print") false :: .punct ';' j' :: rest) := by
          simp [takePunct, isPunct]
        have e2 : parseIdent (.ident (c! "media") false :: .ident (c! "print") false :: .punct ';' j' :: rest) =
            some ([.ident (c! "media") false], .ident (c! "print") false :: .punct ';' j' :: rest) := by
          simp [parseIdent, identRest]
        have e3 : parseCV isExpr (.ident (c! "print") false :: .punct ';' j' :: rest) =
            some (.tok (.ident [.ident (c! "print") false]), .punct ';' j' :: rest) := by
          refine (parseCV_iff _ _ _ _).2 ⟨rfl, trivial, ?_, ?_, ?_⟩
          · rw [ends_single]
            intro q ts he
            cases q with
            | dash => simp [partTree] at he
            | ident => simp [partTree] at he
          · simp
          · simp
        have e4 : ∀ k, prelude isExpr (k + 2) (.ident (c! "print") false :: .punct ';' j' :: rest) =
            some ([.tok (.ident [.ident (c! "print") false])], .punct ';' j' :: rest) := by
          intro k
          simp [prelude, isPunct, isBrace, e3]
        have e5 : ((Tree.ident (c! "print") false :: .punct ';' j' :: rest).length + 1) = (rest.length + 1) + 2 := by simp
        simp only [item, choose_rule, e1, e2, e5, e4] at hr
        cases hr
        rfl
      split at hp
      · cases hp
      · rename_i i r hir
        have := hi _ hir
        simp only at this
        subst this
        split at hp
        · cases hp
        · rename_i is' hir'
          exact items_nonempty hir'

end Inline
