import Verif.Model.Tokens
import Verif.Model.Storage

/-!
# What the macros emit

Models `packages/stylist-macros/src/output/*.rs`: the output trees, the merging of
fragments, the tracking of contexts and the emitted Rust code, together with what that
code evaluates to.

The emitted `TokenStream` is modelled by the code trees `CVec`, `CRBC`, `CScope`, `CSheet`:
one node per `quote!`. The meaning of those nodes is that of the Rust expressions they
stand for, see `evalStr` and the following; this part is trusted.
-/

namespace Output

open Storage

/-! ## Contexts -/

/-- `ExpressionKind` (`output/context.rs` 8-36). -/
inductive Kind where
  | dynamic
  | static
  | const
deriving DecidableEq, Repr

/-- `ExpressionKind::join` (`context.rs` 40-47). -/
def Kind.join : Kind → Kind → Kind
  | .dynamic, _ => .dynamic
  | _, .dynamic => .dynamic
  | .static, _ => .static
  | _, .static => .static
  | .const, .const => .const

/-- `ReifyContext` (`context.rs` 50-66); `ReifyContext::new` is `Kind.const`. -/
abbrev Ctx := Kind

/-- `ReifyContext::is_static` (`context.rs` 81-83). -/
def isStatic : Ctx → Bool
  | .static => true
  | .const => true
  | .dynamic => false

/-- `ReifyContext::is_const` (`context.rs` 85-87). -/
def isConst : Ctx → Bool
  | .const => true
  | _ => false

/-- `ReifyContext::uses_nested` (`context.rs` 68-70). -/
def usesNested (ctx inner : Ctx) : Ctx := ctx.join inner

/-- `ReifyContext::uses_dynamic_argument` (`context.rs` 73-75). -/
def usesDynamic (ctx : Ctx) : Ctx := ctx.join .dynamic

/-- `ReifyContext::uses_static` (`context.rs` 77-79). -/
def usesStatic (ctx : Ctx) : Ctx := ctx.join .static

/-! ## Output trees -/

/-- `OutputFragment` (`output/str_frag.rs` 11-18). -/
inductive OFrag where
  | expr (e : RExpr)
  | arg (name : Str) (tokens : RExpr)
  | token (t : PTok)
  | delimiter (d : Delim) (start : Bool)
  | str (s : Str)

/-- `OutputCowString` (`output/cow_str.rs` 7-11). `Raw` is only built by
`from_displayable_spanned` (20-32): it stands for the expression
`Into::into(ToString::to_string(&(e) as &dyn Display))` around `e`; its context is
`rawCtx`. -/
inductive OCow where
  | str (s : Str)
  | raw (e : RExpr)

/-- `OutputRuleBlockContent` (`output/rule_block_content.rs` 5-10) with `OutputRule`
(`rule.rs` 9-13), `OutputBlock` (`block.rs` 5-9) and `OutputAttribute` (`style_attr.rs`
9-13) inlined. An `OutputSelector` (`selector.rs` 6-9) is its fragments. -/
inductive ORBC where
  | rule (condition : List OFrag) (content : List ORBC)
  | block (condition : List (List OFrag)) (content : List ORBC)
  | attr (key : OCow) (values : List OFrag)

/-- `OutputScopeContent` (`output/scope_content.rs` 5-9). -/
inductive OScope where
  | rule (condition : List OFrag) (content : List ORBC)
  | block (condition : List (List OFrag)) (content : List ORBC)

/-- `OutputSheet` (`output/sheet.rs` 5-8). -/
abbrev OSheet := List OScope

/-- The context of `OutputCowString::from_displayable_spanned` (`cow_str.rs` 20-32): the
reified expression records a dynamic use (`output/mod.rs` 45-59). -/
def rawCtx : Ctx := usesStatic (usesDynamic .const)

/-- `OutputCowString::from_displayable_spanned` (`cow_str.rs` 20-32). -/
def displayable (e : RExpr) : OCow := .raw e

/-- The value of an expression that is a string literal (`str_frag.rs` 66-72). -/
def strLit : RExpr → Option Str
  | [.lit _ (some v)] => some v
  | _ => none

/-- `OutputFragment::str_for_delim` (`str_frag.rs` 80-90). -/
def strForDelim : Delim → Bool → Str
  | .brace, true => c! "{"
  | .brace, false => c! "}"
  | .bracket, true => c! "["
  | .bracket, false => c! "]"
  | .paren, true => c! "("
  | .paren, false => c! ")"

/-- `OutputFragment::into_inner` (`str_frag.rs` 60-78). -/
def OFrag.inner : OFrag → OCow
  | .token t => .str t.text
  | .delimiter d start => .str (strForDelim d start)
  | .str s => .str s
  | .arg _ e => displayable e
  | .expr e =>
    match strLit e with
    | some v => .str v
    | none => displayable e

/-- `OutputFragment::as_string` (`str_frag.rs` 92-98). -/
def OFrag.asString (f : OFrag) : Option Str :=
  match f.inner with
  | .str s => some s
  | .raw _ => none

/-- `fragment_coalesce` (`str_frag.rs` 112-124); `none` is `Err((l, r))`. -/
def fragmentCoalesce (l r : OFrag) : Option OFrag :=
  match l.asString, r.asString with
  | some lt, some rt => some (.str (lt ++ rt))
  | _, _ => none

/-- The loop of `Itertools::coalesce` after its first element. -/
def coalesceGo (last : OFrag) : List OFrag → List OFrag
  | [] => [last]
  | x :: xs =>
    match fragmentCoalesce last x with
    | some j => coalesceGo j xs
    | none => last :: coalesceGo x xs

/-- `Itertools::coalesce(fragment_coalesce)`. -/
def coalesce : List OFrag → List OFrag
  | [] => []
  | x :: xs => coalesceGo x xs

/-! ## Emitted code -/

/-- Where emitted code puts a value: in a `const` that is borrowed, or on the heap. -/
inductive Place where
  | const
  | heap
deriving DecidableEq, Repr

/-- `Cow::Borrowed({ const ITEMS: [T; n] = [..]; &ITEMS })` or `Cow::Owned(vec![..])`
(`output/maybe_static.rs` 29-51). -/
structure CVec (α : Type) where
  place : Place
  items : List α

/-- Emitted code of type `RuleBlockContent`; `bow` says whether the payload is
`Bow::Borrowed({ const RULE: Rule = ..; &RULE })` or `Bow::Boxed(Box::new(..))`
(`rule_block_content.rs` 13-66), `place` is that of the content. -/
inductive CRBC where
  | rule (bow : Place) (condition : CVec OCow) (place : Place) (content : List CRBC)
  | block (bow : Place) (condition : CVec (CVec OCow)) (place : Place) (content : List CRBC)
  | attr (key : OCow) (value : CVec OCow)

/-- Emitted code of type `ScopeContent` (`scope_content.rs` 11-24). -/
inductive CScope where
  | rule (condition : CVec OCow) (place : Place) (content : List CRBC)
  | block (condition : CVec (CVec OCow)) (place : Place) (content : List CRBC)

/-- Emitted code of type `Sheet`: with `static SHEET_REF: Lazy<Sheet>`, or without
(`sheet.rs` 16-38). -/
structure CSheet where
  cached : Bool
  contents : CVec CScope

/-- `Reify for OutputCowString` (`cow_str.rs` 35-52). -/
def reifyStr (s : OCow) (ctx : Ctx) : OCow × Ctx :=
  match s with
  | .raw e => (.raw e, usesNested ctx rawCtx)
  | .str s => (.str s, ctx)

/-- `Reify for OutputFragment` (`str_frag.rs` 101-110). -/
def reifyFrag (f : OFrag) (ctx : Ctx) : OCow × Ctx := reifyStr f.inner ctx

/-- `map(|m| m.into_token_stream(&mut inner_ctx)).collect()` (`maybe_static.rs` 23-27). -/
def reifyAll {α β : Type} (f : α → Ctx → β × Ctx) : List α → Ctx → List β × Ctx
  | [], ctx => ([], ctx)
  | x :: xs, ctx =>
    let (y, ctx) := f x ctx
    let (ys, ctx) := reifyAll f xs ctx
    (y :: ys, ctx)

/-- The branch at the end of `into_cow_vec_tokens` (`maybe_static.rs` 29-51): where the
items go, and the context afterwards. -/
def placeVec (inner ctx : Ctx) : Place × Ctx :=
  if isConst inner then (.const, ctx) else (.heap, usesNested (usesStatic ctx) inner)

/-- `into_cow_vec_tokens` (`maybe_static.rs` 21-52). -/
def cowVec {α β : Type} (f : α → Ctx → β × Ctx) (xs : List α) (ctx : Ctx) : CVec β × Ctx :=
  let (items, inner) := reifyAll f xs .const
  let (place, ctx) := placeVec inner ctx
  (⟨place, items⟩, ctx)

/-- Coalesced fragments (`rule.rs` 17-21, `style_attr.rs` 18-22, `selector.rs` 13-18). -/
def reifyFrags (fs : List OFrag) (ctx : Ctx) : CVec OCow × Ctx := cowVec reifyFrag (coalesce fs) ctx

/-- `if inner_ctx.is_const()` (`rule_block_content.rs` 20-33, 42-55). -/
def placeBow (inner : Ctx) : Place := if isConst inner then .const else .heap

mutual
/-- `Reify for OutputRuleBlockContent` (`rule_block_content.rs` 12-66), with those of
`OutputRule` (`rule.rs` 15-35), `OutputBlock` (`block.rs` 11-27) and `OutputAttribute`
(`style_attr.rs` 15-32). -/
def reifyRBC : ORBC → Ctx → CRBC × Ctx
  | .rule c b, ctx =>
    let (c', inner) := reifyFrags c .const
    let (b', bctx) := reifyRBCs b .const
    let (place, inner) := placeVec bctx inner
    (.rule (placeBow inner) c' place b', usesNested ctx inner)
  | .block c b, ctx =>
    let (c', inner) := cowVec reifyFrags c .const
    let (b', bctx) := reifyRBCs b .const
    let (place, inner) := placeVec bctx inner
    (.block (placeBow inner) c' place b', usesNested ctx inner)
  | .attr k v, ctx =>
    let (k', ctx) := reifyStr k ctx
    let (v', ctx) := reifyFrags v ctx
    (.attr k' v', ctx)
/-- The items of `into_cow_vec_tokens` for contents. -/
def reifyRBCs : List ORBC → Ctx → List CRBC × Ctx
  | [], ctx => ([], ctx)
  | x :: xs, ctx =>
    let (y, ctx) := reifyRBC x ctx
    let (ys, ctx) := reifyRBCs xs ctx
    (y :: ys, ctx)
end

/-- `Reify for OutputScopeContent` (`scope_content.rs` 11-24). -/
def reifyScope : OScope → Ctx → CScope × Ctx
  | .rule c b, ctx =>
    let (c', ctx) := reifyFrags c ctx
    let (b', bctx) := reifyRBCs b .const
    let (place, ctx) := placeVec bctx ctx
    (.rule c' place b', ctx)
  | .block c b, ctx =>
    let (c', ctx) := cowVec reifyFrags c ctx
    let (b', bctx) := reifyRBCs b .const
    let (place, ctx) := placeVec bctx ctx
    (.block c' place b', ctx)

/-- `Reify for OutputSheet` (`sheet.rs` 10-39), called with `ReifyContext::new()`
(`literal/mod.rs` 132-133, `inline/mod.rs` 27-28). -/
def reifySheet (s : OSheet) : CSheet :=
  let (contents, ctx) := cowVec reifyScope s .const
  ⟨isStatic (usesStatic ctx), contents⟩

/-! ## Evaluation of emitted code

Trusted: the meaning of the emitted Rust code. An environment gives each expression the
`Display` text of its value; expressions are taken to be free of side effects while one
sheet is built (`Model/Evaluation` has them). Code in a `const` can neither allocate nor mention an expression, code in
the initializer of a `static` cannot mention an expression (it may refer to local
variables): otherwise the expansion does not compile, `none`. -/

/-- The `Display` text of each expression. -/
abbrev Env := RExpr → Str

/-- Where code runs. -/
inductive Mode where
  | const
  | static
  | body (ρ : Env)

/-- Evaluation of a list in order. -/
def evalAll {α β : Type} (f : α → Option β) : List α → Option (List β)
  | [] => some []
  | x :: xs =>
    match f x, evalAll f xs with
    | some y, some ys => some (y :: ys)
    | _, _ => none

/-- `Cow::Borrowed("..")`, or an owned string made from an expression (`cow_str.rs`). -/
def evalStr (m : Mode) : OCow → Option (Cow Str)
  | .str s => some ⟨.borrowed, s⟩
  | .raw e =>
    match m with
    | .body ρ => some ⟨.owned, ρ e⟩
    | _ => none

/-- `StringFragment { inner: .. }`. -/
def evalFrag (m : Mode) (c : OCow) : Option Frag := (evalStr m c).map Frag.mk

/-- The mode inside a place: items of a `const` are evaluated as constants; nothing can be
allocated within a constant. -/
def Mode.inside : Mode → Place → Option Mode
  | _, .const => some .const
  | .const, .heap => none
  | m, .heap => some m

/-- What a `Cow` or `Bow` around a place is. -/
def Place.loc : Place → Loc
  | .const => .borrowed
  | .heap => .owned

/-- `Cow::Borrowed({ const .. })` or `Cow::Owned(vec![..])`. -/
def evalVec {α β : Type} (f : Mode → α → Option β) (m : Mode) (v : CVec α) : Option (Cow (List β)) :=
  (m.inside v.place).bind (fun m => (evalAll (f m) v.items).map (Cow.mk v.place.loc))

/-- `Selector { fragments: .. }`. -/
def evalSel (m : Mode) (v : CVec OCow) : Option Sel := (evalVec evalFrag m v).map Sel.mk

mutual
/-- Code of type `RuleBlockContent`. -/
def evalRBC : Mode → CRBC → Option TRBC
  | m, .rule bow c place b =>
    match m.inside bow with
    | none => none
    | some m =>
      match evalVec evalFrag m c, m.inside place with
      | some c', some m' => (evalRBCs m' b).map (TRBC.rule bow.loc c' place.loc)
      | _, _ => none
  | m, .block bow c place b =>
    match m.inside bow with
    | none => none
    | some m =>
      match evalVec evalSel m c, m.inside place with
      | some c', some m' => (evalRBCs m' b).map (TRBC.block bow.loc c' place.loc)
      | _, _ => none
  | m, .attr k v =>
    match evalStr m k, evalVec evalFrag m v with
    | some k', some v' => some (.attr k' v')
    | _, _ => none
/-- Of a list. -/
def evalRBCs : Mode → List CRBC → Option (List TRBC)
  | _, [] => some []
  | m, x :: xs =>
    match evalRBC m x, evalRBCs m xs with
    | some y, some ys => some (y :: ys)
    | _, _ => none
end

/-- Code of type `ScopeContent`. -/
def evalScope (m : Mode) : CScope → Option TScope
  | .rule c place b =>
    match evalVec evalFrag m c, m.inside place with
    | some c', some m' => (evalRBCs m' b).map (TScope.rule c' place.loc)
    | _, _ => none
  | .block c place b =>
    match evalVec evalSel m c, m.inside place with
    | some c', some m' => (evalRBCs m' b).map (TScope.block c' place.loc)
    | _, _ => none

/-- The content of the `static SHEET_REF` of one expansion, if it has been initialized. -/
abbrev Cell := Option TSheet

/-- One evaluation of the emitted expression in an environment: a cached sheet is built on
first use, outside of any environment, and cloned afterwards (`once_cell::sync::Lazy`). -/
def CSheet.eval (c : CSheet) (ρ : Env) (cell : Cell) : Option (TSheet × Cell) :=
  if c.cached then
    match cell with
    | some t => some (t, some t)
    | none => (evalVec evalScope .static c.contents).map (fun t => (t, some t))
  else (evalVec evalScope (.body ρ) c.contents).map (fun t => (t, cell))

/-- Successive evaluations of one expansion, each in its own environment. -/
def CSheet.evalMany (c : CSheet) : List Env → Cell → Option (List TSheet)
  | [], _ => some []
  | ρ :: ρs, cell =>
    match c.eval ρ cell with
    | none => none
    | some (t, cell) => (c.evalMany ρs cell).map (t :: ·)

end Output
