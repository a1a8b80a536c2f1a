import Verif.Proofs.Ordinary
import Verif.Props.Written
import Verif.Props.Manager

/-!
# Inline css and the check of debug builds

C104.
-/

namespace Inline

open Spec Output Storage Manager

/-- `ts` as inline css of a style that is created in a debug build; `x` is the value of all
expressions. -/
def createsInDebug (x : Str) (ts : List Tree) : Option (List (Str × Manager.Out)) :=
  ((Macro.expand (fun _ => true) ts).bind (fun c => c.evalMany [fun _ => x] none)).map (List.map (fun u =>
    ((eraseSheet u).toStyleStr (some (c! "k")),
      (step { demoEnv with debugParser := true } (.create 0 .scoped (.sheet (eraseSheet u)) false) demoState).2)))

/-- **C104 is false.** Inline css that the macro accepts and that makes a debug build panic when
the style is created: `a[href$=".pdf"] { top: 0; }`, which is an attribute selector of css;
`top: ;`; and `top: ${x}"b";` with `a/` as the value of `x`. -/
theorem C104_false :
    createsInDebug (c! "a/") [.ident (c! "a") false, .group .bracket [.ident (c! "href") false, .punct '$' true, .punct '=' false,
          .lit (c! "\".pdf\"") (some (c! ".pdf"))],
        .group .brace [.ident (c! "top") false, .punct ':' false, .lit (c! "0") none, .punct ';' false]] =
      some [(c! ".k a[href$=\".pdf\"] {\n    top: 0;\n}\n", .panic)] ∧
    createsInDebug (c! "a/") [.ident (c! "top") false, .punct ':' false, .punct ';' false] =
      some [(c! ".k {\n    top: ;\n}\n", .panic)] ∧
    createsInDebug (c! "a/") [.ident (c! "top") false, .punct ':' false, .punct '$' false, .group .brace [.ident (c! "x") false],
        .lit (c! "\"b\"") (some (c! "b")), .punct ';' false] =
      some [(c! ".k {\n    top: a/\"b\";\n}\n", .panic)] := by
  decide +kernel

/-- **C104, partial.** A macro call with inline css. Whenever it is evaluated and the texts of its
declarations, conditions and selectors, with the values of the expressions, are those of css in
a string (`Checked`), the text of the style can be parsed, for every class and for global styles. -/
theorem C104_parses_partial (isExpr : RExpr → Bool) (ts : List Tree) (hl : ∀ t v rest, ts ≠ .lit t v :: rest)
    (code : CSheet) (h : Macro.expand isExpr ts = some code) :
    ∃ is, Sheets isExpr false ts is ∧ ∀ ρs : List Output.Env, ∃ us, code.evalMany ρs none = some us ∧ us.length = ρs.length ∧
      ∀ (i : Nat) ρ, ρs[i]? = some ρ → CheckedL ρ is → ∃ u, us[i]? = some u ∧
        ∀ cls : Option Str, (∀ c ∈ cls, CleanClass c) → ∃ s, Css.parse ((eraseSheet u).toStyleStr cls) = some s := by
  obtain ⟨is, out, h1, -, h2, rfl⟩ := (C46_macro isExpr ts hl code).1 h
  refine ⟨is, h1, fun ρs => ?_⟩
  obtain ⟨us, h3, h4⟩ := Macros.C42_evaluates out ρs
  have hlen : us.length = ρs.length := by simpa using congrArg List.length h4
  refine ⟨us, h3, hlen, fun i ρ hi hp => ?_⟩
  obtain ⟨hlt, rfl⟩ := List.getElem?_eq_some_iff.1 hi
  refine ⟨us[i]'(by omega), List.getElem?_eq_getElem _, fun cls hcls => ?_⟩
  have h5 : joined (eraseSheet (us[i]'(by omega))) = meaning ρs[i] out := by
    have := congrArg (fun l => l[i]?) h4
    simpa [List.getElem?_map, List.getElem?_eq_getElem, hlt, hlen] using this
  rw [← Macros.C42_joined_text, h5]
  exact CheckedP.meaning_parses h2 (WrittenP.sheets_lawful h1) hp hcls

/-- Characters that a class name may have. -/
def NameChars (s : Str) : Prop := ∀ c ∈ s, isIdentChar c = true ∧ Str.isWhitespace c = false

/-- **C104, partial**, creation: with `debug_parser`, in every reachable state, a style made of such
inline css is created without a panic, if the prefix has only characters of identifiers. -/
theorem C104_creates_partial (isExpr : RExpr → Bool) (ts : List Tree) (hl : ∀ t v rest, ts ≠ .lit t v :: rest)
    (code : CSheet) (h : Macro.expand isExpr ts = some code) :
    ∃ is, Sheets isExpr false ts is ∧ ∀ ρs : List Output.Env, ∃ us, code.evalMany ρs none = some us ∧ us.length = ρs.length ∧
      ∀ (j : Nat) ρ, ρs[j]? = some ρ → CheckedL ρ is → ∃ u, us[j]? = some u ∧
        ∀ (env : Manager.Env) (d : Dom) (ops : List Op) (s : St), s = run env ops (St.init d) → (∀ n, NameChars (env.entropy n)) →
          ∀ (mh i : Nat) (m : Mgr) (kind : Manager.Kind) (fault : Bool), s.mgrOf mh = some i → s.mgrs[i]? = some m →
            NameChars m.pref → (∀ p, kind = .withPrefix p → NameChars p) →
            (step env (.create mh kind (.sheet (eraseSheet u)) fault) s).2 ≠ .panic := by
  obtain ⟨is, h1, h2⟩ := C104_parses_partial isExpr ts hl code h
  refine ⟨is, h1, fun ρs => ?_⟩
  obtain ⟨us, h3, h4, h5⟩ := h2 ρs
  refine ⟨us, h3, h4, fun j ρ hj hc => ?_⟩
  obtain ⟨u, h6, h7⟩ := h5 j ρ hj hc
  refine ⟨u, h6, ?_⟩
  intro env d ops s hs hent mh i m kind fault hi hm hpref hkind hpanic
  have hinv : Inv s := hs ▸ inv_run env ops (Inv.init d)
  have ht := step_tr env hinv (.create mh kind (.sheet (eraseSheet u)) fault)
  rw [hpanic] at ht
  generalize (step env (.create mh kind (.sheet (eraseSheet u)) fault) s).1 = s' at ht
  cases ht with
  | createDebug _ _ _ _ _ i' m' ast g1 g2 g3 g4 g5 g6 =>
    rw [hi] at g1
    cases g1
    rw [hm] at g2
    cases g2
    cases g3
    have hk : (kind.key m.pref (eraseSheet u)).ast = eraseSheet u := by cases kind <;> rfl
    have hp : NameChars (kind.key m.pref (eraseSheet u)).pref := by
      cases kind with
      | withPrefix p => exact hkind p rfl
      | _ => exact hpref
    simp only [newContent] at g6
    rw [hk] at g6
    obtain ⟨t, ht⟩ := h7 (if (kind.key m.pref (eraseSheet u)).isGlobal then none
      else some (makeId (kind.key m.pref (eraseSheet u)) (env.entropy s.ctr))) (by
        intro c hc
        split at hc
        · cases hc
        · rename_i hg
          cases hc
          have hdash : isIdentChar '-' = true ∧ Str.isWhitespace '-' = false := by decide
          simp only [makeId, hg]
          refine ⟨by simp, fun x hx => ?_⟩
          simp only [Bool.false_eq_true, if_false, List.mem_append, List.mem_singleton] at hx
          rcases hx with (hx | hx) | hx
          · exact hp x hx
          · rw [hx]; exact hdash
          · exact hent _ x hx)
    rw [ht] at g6
    cases g6

/-- **C104, partial**, tokens: all of this holds of inline css made of ordinary tokens (`Ordinary`),
where the condition is on the tokens and on the value of each expression by itself. -/
theorem C104_tokens_partial (isExpr : RExpr → Bool) (ts : List Tree) (hl : ∀ t v rest, ts ≠ .lit t v :: rest)
    (code : CSheet) (h : Macro.expand isExpr ts = some code) :
    ∃ is, Sheets isExpr false ts is ∧ ∀ ρs : List Output.Env, ∃ us, code.evalMany ρs none = some us ∧ us.length = ρs.length ∧
      ∀ (j : Nat) ρ, ρs[j]? = some ρ → OrdinaryL ρ is → ∃ u, us[j]? = some u ∧
        ∀ (env : Manager.Env) (d : Dom) (ops : List Op) (s : St), s = run env ops (St.init d) → (∀ n, NameChars (env.entropy n)) →
          ∀ (mh i : Nat) (m : Mgr) (kind : Manager.Kind) (fault : Bool), s.mgrOf mh = some i → s.mgrs[i]? = some m →
            NameChars m.pref → (∀ p, kind = .withPrefix p → NameChars p) →
            (step env (.create mh kind (.sheet (eraseSheet u)) fault) s).2 ≠ .panic := by
  obtain ⟨is, h1, h2⟩ := C104_creates_partial isExpr ts hl code h
  refine ⟨is, h1, fun ρs => ?_⟩
  obtain ⟨us, h3, h4, h5⟩ := h2 ρs
  exact ⟨us, h3, h4, fun j ρ hj ho => h5 j ρ hj (OrdinaryP.ordinaryL ho)⟩

/-- The items of `&:is(a, b) > p { margin: 0 / ${x}; } @media print { top: f("{"); }`. -/
def checkedItems : List SItem :=
  [ .block [.tok (.punct '&' false), .tok (.punct ':' false),
        .func [.ident (c! "is") false] [.tok (.ident [.ident (c! "a") false]), .tok (.punct ',' false),
          .tok (.ident [.ident (c! "b") false])],
        .tok (.punct '>' false), .tok (.ident [.ident (c! "p") false])]
      [.decl (.tok (.ident [.ident (c! "margin") false]))
        [.tok (.lit (c! "0") none), .tok (.punct '/' false), .expr false [.ident (c! "x") false]]],
    .rule [.ident (c! "media") false] [.tok (.ident [.ident (c! "print") false])]
      [.decl (.tok (.ident [.ident (c! "top") false])) [.func [.ident (c! "f") false] [.tok (.lit (c! "\"{\"") (some (c! "{")))]]] ]

/-- Its tokens. -/
def checkedTokens : List Tree :=
  [.punct '&' false, .punct ':' false, .ident (c! "is") false,
    .group .paren [.ident (c! "a") false, .punct ',' false, .ident (c! "b") false],
    .punct '>' false, .ident (c! "p") false,
    .group .brace [.ident (c! "margin") false, .punct ':' false, .lit (c! "0") none, .punct '/' false,
      .punct '$' false, .group .brace [.ident (c! "x") false], .punct ';' false],
    .punct '@' false, .ident (c! "media") false, .ident (c! "print") false,
    .group .brace [.ident (c! "top") false, .punct ':' false, .ident (c! "f") false,
      .group .paren [.lit (c! "\"{\"") (some (c! "{"))], .punct ';' false]]

/-- Non-vacuity: the items of the tokens are checked, and the style is created. -/
example : Sheets (fun _ => true) false checkedTokens checkedItems ∧ CheckedL (fun _ => c! "1px") checkedItems ∧
    (∀ n, NameChars (demoEnv.entropy n)) ∧
    createsInDebug (c! "1px") checkedTokens =
      some [(c! ".k:is(a,b)>p {\n    margin: 0/1px;\n}\n@media print {\n    .k {\n        top: f(\"{\");\n    }\n}\n",
        .style 4)] := by
  refine ⟨sheets_of_items 100 (by rfl) (by simp [checkedItems, ofSs, ofS, CleanL, Clean]) (by
    simp [checkedItems, FineL, Fine, IsName, ValidValues, ValidValue]), ?_, ?_, by decide +kernel⟩
  · refine ⟨⟨?_, ⟨?_, trivial⟩⟩, ⟨by decide, by decide, by decide, ?_, trivial⟩, trivial⟩
    · intro s hs
      have : s = c! "&:is(a,b)>p" := by
        revert hs
        simp [writtenSelectors, splitCommas, dropEmpty, cvsText, cvText, wordBefore, wordAfter, cssName, tokenText]
      subst this
      exact ⟨[c! "&:is(a", c! "b)>p"], by decide, by decide, rfl, by decide⟩
    · refine ⟨by decide, by decide, ?_, by decide, by decide⟩
      exact .char '0' _ (by decide) (.slash '1' _ (by decide) (.char 'p' _ (by decide) (.char 'x' _ (by decide) .nil)))
    · refine ⟨by decide, by decide, ?_, by decide, by decide⟩
      exact .char 'f' _ (by decide) (.char '(' _ (by decide) (.str (c! "{") (c! ")") (.char '{' _ (by decide) (by decide) .nil)
        (.char ')' _ (by decide) .nil)))
  · intro n c hc
    have hc0 := List.mem_append.1 hc
    clear hc
    rcases hc0 with hc | hc
    · revert c; decide
    · have := decimal_digits _ c hc
      simp only [Char.isDigit, Bool.and_eq_true, decide_eq_true_eq] at this
      have h1 : 48 ≤ c.val.toNat := UInt32.le_iff_toNat_le.1 this.1
      have h2 : c.val.toNat ≤ 57 := UInt32.le_iff_toNat_le.1 this.2
      constructor
      · have e : ('0' ≤ c && c ≤ '9') = true := by
          simp only [Bool.and_eq_true, decide_eq_true_eq]; exact this
        simp [isIdentChar, e]
      · simp only [Str.isWhitespace, Bool.or_eq_false_iff, Bool.and_eq_false_iff, decide_eq_false_iff_not, beq_eq_false_iff_ne]
        omega

/-- Used in the next example. -/
local macro "d!" : term =>
  `(by first | decide | (unfold SelectorCV; decide) | (unfold ConditionCV; decide) | (unfold ValueCV; decide) |
    (unfold CommasBetween; decide))

/-- Non-vacuity: the same items are ordinary. -/
example : OrdinaryL (fun _ => c! "1px") checkedItems := by
  have hv : ∀ v : Str, (∀ c ∈ v, c ∉ (c! "${;}/\"")) → ValueText v := fun v => OrdinaryP.valueText_plain
  refine ⟨⟨d!, ?_, ⟨?_, trivial⟩⟩, ⟨⟨d!, trivial⟩, ?_, trivial⟩, trivial⟩
  · refine ⟨d!, d!, ⟨d!, .inr ?_, d!, d!, d!, trivial⟩, d!, d!, trivial⟩
    exact ⟨d!, .inl ⟨d!, d!⟩⟩
  · refine ⟨d!, d!, d!, ⟨⟨d!, d!⟩, hv _ (d!)⟩, d!, d!, ?_, ?_⟩
    · intro _
      exact ⟨'1', d!, d!⟩
    · exact ⟨⟨⟨d!, d!⟩, hv _ (d!)⟩, d!, trivial⟩
  · refine ⟨d!, d!, d!, ⟨⟨d!, ⟨⟨⟨d!, d!⟩, ?_⟩, d!, trivial⟩⟩, d!, trivial⟩⟩
    exact .str (c! "{") [] (.char '{' _ (d!) (d!) .nil) .nil

end Inline
