import Verif.Proofs.Styled

/-!
# C105: `css!` in styled components

The claim: in a styled component every `css!` uses the manager that the component gets from its
context, wherever it is written; the attribute changes nothing else about the user's code, and
the user's code compiles with it if it compiles without it.
-/

namespace Styled

open Spec

/-- Which manager every call of `css!` in a piece of code uses, in the order of evaluation: that
of the innermost styled component around it, unless a macro `css` of the user is nearer; none
outside of components; and none, which is an error, in a function inside of a component. This
holds whatever names the user chooses. -/
theorem C105_managers (b : List Stmt) : cssUses (uses (expandSs b)) = meaningsSs .imported b :=
  StyledP.meaning_ss b ⟨[], .imported⟩ ⟨[], []⟩

/-- Every variable of the user refers to the same binder, or is the same error, as without the
attributes. -/
theorem C105_variables (b : List Stmt) :
    variableUses (uses (expandSs b)) = variableUses (uses (expandSs (withoutSs b))) :=
  StyledP.vars_ss b ⟨[], .imported⟩ ⟨[], .imported⟩ ⟨[], []⟩ ⟨[], []⟩ rfl

/-- What a variable of the user refers to was introduced by the user under this name; the
variable that the attribute adds cannot be seen. -/
theorem C105_hidden (b : List Stmt) (x : Str) (l : Nat)
    (h : (x, Res.binder l) ∈ variableUses (uses (expandSs b))) : (x, l) ∈ bindersSs b := by
  rcases StyledP.binders_ss b ⟨[], .imported⟩ ⟨[], []⟩ x l h with h | h
  · exact h
  · simp [StyledP.Around] at h

/-- The test `test_hygiene-fail`: a component that uses the name of the hidden variable without
introducing it does not compile.
/repo/packages/stylist/tests/sc_integrations/test_hygiene-fail.rs -/
theorem C105_hygiene (b : List Stmt) (x : Str) (r : Res) (h : (x, r) ∈ variableUses (uses (expandSs b)))
    (hb : ∀ l, (x, l) ∉ bindersSs b) : compiles b = false := by
  cases hc : compiles b with
  | false => rfl
  | true =>
    have h1 := ((StyledP.compiles_iff b).1 hc).1
    rw [← C105_variables] at h1
    obtain ⟨l, hl⟩ := h1 _ h
    simp only at hl
    subst hl
    exact absurd (C105_hidden b x l h) (hb l)

/-- Code compiles with the attributes exactly if it compiles without them, no `css!` of a
component stands in a function inside of it, and no `css!` of a component comes after a
closure with `move` that uses `css!` (or such a closure is in a loop). -/
theorem C105_exactly (b : List Stmt) :
    compiles b = true ↔ compiles (withoutSs b) = true ∧ .lost ∉ meaningsSs .imported b ∧ KeptSs false b := by
  rw [StyledP.compiles_iff, StyledP.compiles_without]

/-- A component without functions, macros `css` and closures with `move` in its body: it
compiles with the attribute exactly if it compiles without it, and every `css!` in it uses its
manager. What is missing for the whole claim is in `C105_false`. -/
theorem C105_partial (l : Nat) (ps : List (Str × Nat)) (b : List Stmt) (h : PlainSs b) :
    (compiles [.fn_ true l ps b] = true ↔ compiles [.fn_ false l ps b] = true) ∧
      ∀ q ∈ cssUses (uses (expandSs [.fn_ true l ps b])), q = .component l := by
  have hm : ∀ q ∈ meaningsSs .imported [.fn_ true l ps b], q = .component l := by
    simpa only [meaningsSs, Meaning.inside, if_true, List.append_nil] using StyledP.plain_meaning_ss b (.component l) h
  have hm2 : ∀ q ∈ meaningsSs .imported [.fn_ false l ps b], q = .imported := by
    simpa [meaningsSs, Meaning.inside] using StyledP.plain_meaning_ss b .imported h
  refine ⟨?_, by rw [C105_managers]; exact hm⟩
  rw [C105_exactly, C105_exactly [.fn_ false l ps b]]
  have e : withoutSs [.fn_ true l ps b] = withoutSs [.fn_ false l ps b] := by
    simp [withoutSs, withoutS]
  have k : ∀ s, KeptSs false [.fn_ s l ps b] := fun s => by
    simp [KeptSs, StyledP.plain_kept_ss b s h]
  rw [e]
  have h1 : Meaning.lost ∉ meaningsSs .imported [.fn_ true l ps b] := fun hl => by cases hm _ hl
  have h2 : Meaning.lost ∉ meaningsSs .imported [.fn_ false l ps b] := fun hl => by cases hm2 _ hl
  simp [k, h1, h2]

/-- `list.iter().map(move |x| …css!(…)…)` and then another `css!` in the same component. -/
def afterMove : List Stmt :=
  [.fn_ true 0 [(c! "props", 1)]
    [.let_ (c! "items") 2 (.app [.var (c! "props"), .closure true [(c! "x", 3)] [.expr (.app [.var (c! "x"), .css []])]]),
     .expr (.css [.var (c! "items")])]]

/-- `css!` in a helper function that is written in the component. -/
def inHelper : List Stmt :=
  [.fn_ true 0 [] [.fn_ false 1 [(c! "x", 2)] [.expr (.css [.var (c! "x")])], .expr (.css [])]]

/-- The claim is false: the attribute breaks code that compiles without it (with the imported
`css!`), namely a `css!` after a closure with `move` that uses `css!`, because the hidden
variable has moved into the closure, and a `css!` in a function inside of the component. -/
theorem C105_false :
    (compiles (withoutSs afterMove) = true ∧ compiles afterMove = false) ∧
    (compiles (withoutSs inHelper) = true ∧ compiles inHelper = false) := by
  decide +kernel

/-- `#[styled_component(args)]` is `#[styled_component_impl]` above
`#[function_component(args)]`. It is an error exactly if it is not put on a function or has
arguments other than a single name; visibility, signature and the other attributes stay. -/
theorem C105_attributes (l : Nat) (args : List ArgTok) (item : Item (List CStmt)) (r : ItemFn (List CStmt)) :
    styledComponent l args item = some r ↔
      ∃ f name, item = .fn_ f ∧ (args = [] ∧ name = none ∨ ∃ w, args = [.word w] ∧ w ∉ keywords ∧ name = some w) ∧
        styledComponentImpl l [] (.fn_ { f with attrs := .functionComponent name :: f.attrs }) = some r ∧
        r.attrs = .functionComponent name :: f.attrs ∧ r.vis = f.vis ∧ r.sig = f.sig := by
  cases item with
  | other => simp [styledComponent]
  | fn_ f =>
    have ha : ∀ name, parseArgs args = some name ↔
        (args = [] ∧ name = none ∨ ∃ w, args = [.word w] ∧ w ∉ keywords ∧ name = some w) := by
      intro name
      match args with
      | [] => simp [parseArgs, eq_comm]
      | [.word w] =>
        simp only [parseArgs]
        by_cases hw : w ∈ keywords
        · simp [hw]
        · simp [hw, eq_comm]
      | [.other] => simp [parseArgs]
      | _ :: _ :: _ => simp [parseArgs]
    simp only [styledComponent]
    constructor
    · intro h
      split at h
      · rename_i name hn
        refine ⟨f, name, rfl, (ha name).1 hn, ?_⟩
        cases h
        simp [styledComponentImpl, implImpl]
      · simp at h
    · rintro ⟨f', name, hf, hn, hr, -⟩
      cases hf
      rw [← ha] at hn
      simp only [hn]
      simpa [styledComponentImpl, implImpl] using hr

/-! ### Examples -/

/-- A component with a variable that has the name of the hidden one, a closure, a condition, a
loop, a nested component and a block with a macro `css` of the user. -/
def page : List Stmt :=
  [.fn_ true 0 [(c! "props", 1)]
    [.let_ (c! "__stylist_style_manager__") 2 (.css [.var (c! "props")]),
     .let_ (c! "f") 3 (.closure false [(c! "x", 4)] [.expr (.css [.var (c! "x"), .var (c! "__stylist_style_manager__")])]),
     .fn_ true 5 [] [.expr (.css [])],
     .expr (.cond (.var (c! "f")) [.expr (.css [])] [.macro_ 6, .expr (.css [])]),
     .expr (.loop [.expr (.css [])]),
     .expr (.closure true [] [.expr (.css [])])],
   .fn_ false 7 [] [.expr (.css [])]]

example : compiles page = true := by decide +kernel

example : cssUses (uses (expandSs page)) =
    [.component 0, .component 0, .component 5, .component 0, .own 6, .component 0, .component 0, .imported] := by
  decide +kernel

example : variableUses (uses (expandSs page)) =
    [(c! "props", .binder 1), (c! "x", .binder 4), (c! "__stylist_style_manager__", .binder 2), (c! "f", .binder 3)] := by
  decide +kernel

/-- The hypotheses of `C105_hygiene`: the test of the repository. -/
example :
    let b : List Stmt := [.fn_ true 0 [] [.let_ (c! "mgr") 1 (.app [.var (c! "__stylist_style_manager__")])]]
    (c! "__stylist_style_manager__", Res.unbound) ∈ variableUses (uses (expandSs b)) ∧
      (∀ l, (c! "__stylist_style_manager__", l) ∉ bindersSs b) := by
  refine ⟨by decide +kernel, fun l => ?_⟩
  simp [bindersSs, bindersE, bindersEs]

/-- The hypothesis of `C105_partial`. -/
example : PlainSs [.let_ (c! "x") 1 (.css []), .expr (.loop [.expr (.closure false [] [.expr (.css [.var (c! "x")])])])] := by
  simp [PlainSs, PlainE, PlainEs]

/-- `#[styled_component(App)]` and `#[styled_component]`. -/
example : (styledComponent 0 [.word (c! "App")] (.fn_ ⟨[.other (c! "#[doc]")], c! "pub", c! "fn app() -> Html", []⟩)).map
    (·.attrs) = some [.functionComponent (some (c! "App")), .other (c! "#[doc]")] := by decide +kernel
example : (styledComponent 0 [.word (c! "fn")] (.fn_ ⟨[], [], [], []⟩)).isNone = true := by decide +kernel

end Styled
