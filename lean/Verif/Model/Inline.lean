import Verif.Model.Output
import Verif.Model.Spacing

/-!
# The macro with inline CSS

Models `packages/stylist-macros/src/inline/**`. A `ParseBuffer` is the list of token trees
that are left. Whether the tokens between the braces of `${..}` are an expression is
decided by `syn`: here a parameter `isExpr`, called the oracle. Spans and the texts of
errors are dropped; the errors that are collected are kept by kind, with the value or name
that they point to.

Recursive functions have a budget; the entry points give a budget computed from the size
of the tokens, which is shown to suffice.
-/

namespace Inline

open Output

/-! ## Sizes -/

mutual
/-- Number of tokens. -/
def treeSize : Tree → Nat
  | .group _ c => 1 + treesSize c
  | _ => 1
/-- Of a list. -/
def treesSize : List Tree → Nat
  | [] => 0
  | t :: ts => treeSize t + treesSize ts
end

/-! ## Identifiers -/

/-- `peek(token::Minus)`: `syn` does not look at the spacing of the last character. -/
def isMinus : Tree → Bool
  | .punct '-' _ => true
  | _ => false

/-- `peek(Ident::peek_any)`. -/
def isIdent : Tree → Bool
  | .ident _ _ => true
  | _ => false

/-- `CssIdent::peek` (`css_ident.rs` 38-45). `IdentPart::peek` (22-27) with both flags: a
`-` was excluded before. -/
def peekIdent : List Tree → Bool
  | t :: ts =>
    if isMinus t then
      match ts with
      | u :: _ => isMinus u || isIdent u
      | [] => false
    else isIdent t
  | [] => false

/-- The loop of `CssIdent::parse` (`css_ident.rs` 81-92) after the part `last`. -/
def identRest : IdentPart → List Tree → List IdentPart × List Tree
  | .dash joint, .punct c j :: ts =>
    if c = '-' ∧ joint = true then
      let (ps, rest) := identRest (.dash j) ts
      (.dash j :: ps, rest)
    else ([], .punct c j :: ts)
  | .dash _, .ident n r :: ts =>
    let (ps, rest) := identRest (.ident n r) ts
    (.ident n r :: ps, rest)
  | .ident _ _, .punct c j :: ts =>
    if c = '-' then
      let (ps, rest) := identRest (.dash j) ts
      (.dash j :: ps, rest)
    else ([], .punct c j :: ts)
  | _, ts => ([], ts)

/-- `CssIdent::parse` (`css_ident.rs` 78-95). -/
def parseIdent : List Tree → Option (CssIdent × List Tree)
  | .punct c j :: ts =>
    if c = '-' then
      let (ps, rest) := identRest (.dash j) ts
      some (.dash j :: ps, rest)
    else none
  | .ident n r :: ts =>
    let (ps, rest) := identRest (.ident n r) ts
    some (.ident n r :: ps, rest)
  | _ => none

/-! ## Component values -/

/-- `PreservedToken::parse` (`preserved_token.rs` 23-35) when the input does not start
with a `CssIdent`; the cursor does not take the `'` of a lifetime for punctuation. -/
def parsePreserved : List Tree → Option (PTok × List Tree)
  | .punct c j :: ts => if c = '\'' then none else some (.punct c j, ts)
  | .lit t s :: ts => some (.lit t s, ts)
  | _ => none

mutual
/-- `ComponentValue::parse` (`component_value/mod.rs` 50-71), with `SimpleBlock::parse`
(`simple_block.rs` 52-83), `InterpolatedExpression::parse` (`interpolated_expression.rs`
23-35) and `FunctionToken::parse_with_name` (`function_token.rs` 49-54). Tokens left over
after the expression of `${..}` are an error only when `syn::parse2` ends; it is reported
at once here. -/
def cv (isExpr : RExpr → Bool) : Nat → List Tree → Option (CV × List Tree)
  | 0, _ => none
  | n + 1, ts =>
    match ts with
    | .group d inner :: rest =>
      match cvs isExpr n inner with
      | none => none
      | some cs => some (.block d cs, rest)
    | .punct '$' j :: .group .brace e :: rest => if isExpr e then some (.expr j e, rest) else none
    | ts =>
      if peekIdent ts then
        match parseIdent ts with
        | none => none
        | some (i, .group .paren args :: rest) =>
          match cvs isExpr n args with
          | none => none
          | some cs => some (.func i cs, rest)
        | some (i, rest) => some (.tok (.ident i), rest)
      else
        match parsePreserved ts with
        | none => none
        | some (t, rest) => some (.tok t, rest)
/-- `ComponentValue::parse_multiple` (`component_value/mod.rs` 73-77), `stream.rs`
30-38. -/
def cvs (isExpr : RExpr → Bool) : Nat → List Tree → Option (List CV)
  | _, [] => some []
  | 0, _ => none
  | n + 1, ts =>
    match cv isExpr n ts with
    | none => none
    | some (c, rest) =>
      match cvs isExpr n rest with
      | none => none
      | some cs => some (c :: cs)
end

/-- `input.parse::<ComponentValue>()`. -/
def parseCV (isExpr : RExpr → Bool) (ts : List Tree) : Option (CV × List Tree) :=
  cv isExpr (2 * treesSize ts) ts

/-! ## Validation -/

/-- The errors that are collected, by kind, with what is given to `new_spanned`:
`component_value/mod.rs` 130-134, 140-143, 164-167, 174-177 and 190-193 (the component
value), `rule.rs` 38-43 (the name) and `scope.rs` 82-85 (the qualifiers that are kept). -/
inductive IErr where
  | attrBlock (c : CV)
  | attrPunct (c : CV)
  | selBlock (c : CV)
  | selLiteral (c : CV)
  | selPunct (c : CV)
  | atRule (name : CssIdent)
  | nested (qualifiers : List CV)

mutual
/-- `validate_attribute_token` (`component_value/mod.rs` 118-149). -/
def validAttr : CV → List IErr
  | .expr _ _ => []
  | .tok (.ident _) => []
  | .tok (.lit _ _) => []
  | .func _ args => validAttrs args
  | .block d cs => [.attrBlock (.block d cs)]
  | .tok (.punct c j) => if (c! "-/%:,#").elem c then [] else [.attrPunct (.tok (.punct c j))]
/-- `flat_map` over the arguments. -/
def validAttrs : List CV → List IErr
  | [] => []
  | c :: cs => validAttr c ++ validAttrs cs
end

mutual
/-- `validate_selector_token` (`component_value/mod.rs` 152-199); `none` is `Err`. -/
def validSel : CV → Option (List IErr)
  | .expr _ _ => some []
  | .func _ _ => some []
  | .tok (.ident _) => some []
  | .block d cs =>
    match d with
    | .bracket => validSels cs
    | d => some [.selBlock (.block d cs)]
  | .tok (.lit t str) => if str.isSome then some [] else some [.selLiteral (.tok (.lit t str))]
  | .tok (.punct c j) =>
    if c = ';' then none
    else if (c! "&>+~|$*=^#.:,").elem c then some [] else some [.selPunct (.tok (.punct c j))]
/-- The loop over the contents of a block. -/
def validSels : List CV → Option (List IErr)
  | [] => some []
  | c :: cs =>
    match validSel c, validSels cs with
    | some a, some b => some (a ++ b)
    | _, _ => none
end

/-! ## Items -/

/-- `CssAttributeName` (`parse/attribute.rs` 13-17). -/
inductive AName where
  | ident (i : CssIdent)
  | expr (joint : Bool) (e : RExpr)

/-- `CssScopeContent` (`parse/scope_content.rs` 7-12) with `CssAttribute`
(`attribute.rs` 19-31), `CssAtRule` (`rule.rs` 10-23; `CssAtRuleContent::Empty` is `none`)
and `CssQualifiedRule` (`block.rs` 6-10, `qualifier.rs` 11-15) inlined. -/
inductive Item where
  | attr (name : AName) (values : List CV) (errors : List IErr)
  | atRule (name : CssIdent) (prelude : List CV) (errors : List IErr) (content : Option (List Item))
  | nested (qualifiers : List CV) (errors : List IErr) (scope : List Item)

/-- `maybe_to_attribute_name` (`attribute.rs` 84-94). -/
def attrName : CV → Option AName
  | .tok (.ident i) => some (.ident i)
  | .expr j e => some (.expr j e)
  | _ => none

/-- `peek(token::Semi)`, `peek(token::Colon)` and so on. -/
def isPunct (ch : Char) : Tree → Bool
  | .punct c _ => c == ch
  | _ => false

/-- `input.parse::<token::..>()` for a single character. -/
def takePunct (ch : Char) : List Tree → Option (List Tree)
  | t :: ts => if isPunct ch t then some ts else none
  | [] => none

/-- `peek(token::Brace)`. -/
def isBrace : Tree → Bool
  | .group .brace _ => true
  | _ => false

section
variable (isExpr : RExpr → Bool)

/-- `CssAttributeValue::parse` (`attribute.rs` 60-82). -/
def attrValue : Nat → List Tree → Option (List CV × List IErr × List Tree)
  | 0, _ => none
  | _ + 1, [] => none
  | n + 1, t :: ts =>
    if isPunct ';' t then some ([], [], t :: ts)
    else
      match parseCV isExpr (t :: ts) with
      | none => none
      | some (c, rest) =>
        match attrValue n rest with
        | none => none
        | some (vs, es, rest) =>
          let errs := validAttr c
          some (if errs.isEmpty then c :: vs else vs, errs ++ es, rest)

/-- `CssAttribute::parse` (`attribute.rs` 33-58). -/
def parseAttr (ts : List Tree) : Option (Item × List Tree) :=
  match ts with
  | [] => none
  | ts =>
    match parseCV isExpr ts with
    | none => none
    | some (name, rest) =>
      match attrName name with
      | none => none
      | some name =>
        match takePunct ':' rest with
        | none => none
        | some rest =>
          match attrValue isExpr (rest.length + 1) rest with
          | none => none
          | some (vs, es, rest) =>
            match takePunct ';' rest with
            | none => none
            | some rest => some (.attr name vs es, rest)

/-- `CssBlockQualifier::parse` (`qualifier.rs` 17-38). -/
def qualifier : Nat → List Tree → Option (List CV × List IErr × List Tree)
  | 0, _ => none
  | _ + 1, [] => none
  | n + 1, t :: ts =>
    if isBrace t then some ([], [], t :: ts)
    else
      match parseCV isExpr (t :: ts) with
      | none => none
      | some (c, rest) =>
        match validSel c with
        | none => none
        | some errs =>
          match qualifier n rest with
          | none => none
          | some (qs, es, rest) => some (if errs.isEmpty then c :: qs else qs, errs ++ es, rest)

/-- The loop of `CssAtRule::parse` (`rule.rs` 45-57), up to the `;` or the block. -/
def prelude : Nat → List Tree → Option (List CV × List Tree)
  | 0, _ => none
  | _ + 1, [] => none
  | n + 1, t :: ts =>
    if isPunct ';' t || isBrace t then some ([], t :: ts)
    else
      match parseCV isExpr (t :: ts) with
      | none => none
      | some (c, rest) =>
        match prelude n rest with
        | none => none
        | some (ps, rest) => some (c :: ps, rest)

/-- What `CssScopeContent::parse` (`scope_content.rs` 14-46) decides by looking ahead. -/
inductive Choice where
  | atRule
  | attribute
  | nested

/-- The look-ahead of `CssScopeContent::parse` (`scope_content.rs` 14-43) on a fork of the
input; an error at the second component value is ignored. -/
def choose (ts : List Tree) : Option Choice :=
  match ts with
  | [] => none
  | ts =>
    match parseCV isExpr ts with
    | none => none
    | some (c, rest) =>
      match c with
      | .tok (.punct '@' _) => some .atRule
      | _ =>
        match attrName c with
        | none => some .nested
        | some _ =>
          match rest with
          | [] => some .nested
          | rest =>
            match parseCV isExpr rest with
            | some (.tok (.punct ':' _), _) => some .attribute
            | _ => some .nested

/-- The name check (`rule.rs` 38-43). -/
def atRuleErrors (name : CssIdent) : List IErr :=
  if CssIdent.text name = c! "media" ∨ CssIdent.text name = c! "supports" then [] else [.atRule name]

mutual
/-- `CssScopeContent::parse` (`scope_content.rs` 14-46), with `CssAtRule::parse` (`rule.rs`
25-67), `CssQualifiedRule::parse` (`block.rs` 12-18) and `CssScope::parse` (`scope.rs`
15-25). -/
def item : Nat → List Tree → Option (Item × List Tree)
  | 0, _ => none
  | n + 1, ts =>
    match choose isExpr ts with
    | none => none
    | some .attribute => parseAttr isExpr ts
    | some .atRule =>
      match takePunct '@' ts with
      | none => none
      | some rest =>
        match parseIdent rest with
        | none => none
        | some (name, rest) =>
          match prelude isExpr (rest.length + 1) rest with
          | none => none
          | some (ps, rest) =>
            match rest with
            | .group .brace inner :: rest =>
              match items n inner with
              | none => none
              | some is => some (.atRule name ps (atRuleErrors name) (some is), rest)
            | rest => some (.atRule name ps (atRuleErrors name) none, rest)
    | some .nested =>
      match qualifier isExpr (ts.length + 1) ts with
      | none => none
      | some (qs, es, rest) =>
        match rest with
        | .group .brace inner :: rest =>
          match items n inner with
          | none => none
          | some is => some (.nested qs es is, rest)
        | _ => none
/-- `consume_list_of_rules` (`scope_content.rs` 51-58). -/
def items : Nat → List Tree → Option (List Item)
  | _, [] => some []
  | 0, _ => none
  | n + 1, ts =>
    match item n ts with
    | none => none
    | some (i, rest) =>
      match items n rest with
      | none => none
      | some is => some (i :: is)
end

/-- `CssRootNode::parse` (`root.rs` 12-17). -/
def parseRoot (ts : List Tree) : Option (List Item) := items isExpr (2 * treesSize ts) ts

end

/-! ## Output -/

mutual
/-- `to_output_fragments` (`component_value/mod.rs` 79-114); `none` is the panic of
`unreachable!`. -/
def toFrags : CV → Option (List OFrag)
  | .tok t => some [.token t]
  | .expr _ e => some [.expr e]
  | .block d cs =>
    match d with
    | .brace => none
    | d =>
      match manyFrags cs with
      | none => none
      | some fs => some (.delimiter d true :: fs ++ [.delimiter d false])
  | .func name args =>
    match manyFrags args with
    | none => none
    | some fs => some (.token (.ident name) :: .delimiter .paren true :: fs ++ [.delimiter .paren false])
/-- `flat_map(|p| p.to_output_fragments())`. -/
def manyFrags : List CV → Option (List OFrag)
  | [] => some []
  | c :: cs =>
    match toFrags c, manyFrags cs with
    | some a, some b => some (a ++ b)
    | _, _ => none
end

/-- `left_ends_compound` (`parse/mod.rs` 69-70). -/
def endsCompound : OFrag → Bool
  | .delimiter _ false => true
  | .token (.ident _) => true
  | .token (.lit _ _) => true
  | .token (.punct c _) => (c! "&*").elem c
  | _ => false

/-- `right_starts_compound` (`parse/mod.rs` 71-72). -/
def startsCompound : OFrag → Bool
  | .token (.ident _) => true
  | .token (.lit _ _) => true
  | .token (.punct c _) => (c! "*#").elem c
  | _ => false

/-- `fragment_spacing` (`parse/mod.rs` 66-75). -/
def fragmentSpacing (l r : OFrag) : Option OFrag :=
  if endsCompound l && startsCompound r then some (.str (c! " ")) else none

/-- `.flat_map(..).spaced_with(fragment_spacing)`. -/
def spacedFrags (cs : List CV) : Option (List OFrag) :=
  (manyFrags cs).map (fun fs => Spacing.spaced (fun (s : Unit) l r => (fragmentSpacing l r, s)) fs ())

/-- A result with the errors added to `IntoOutputContext` (`parse/mod.rs` 22-41); `none` is
a panic. -/
abbrev Out (α : Type) := Option (α × List IErr)

/-- `CssAttributeName::into_output` (`attribute.rs` 114-122). -/
def AName.out : AName → OCow
  | .ident i => (OFrag.token (.ident i)).inner
  | .expr _ e => (OFrag.expr e).inner

/-- `CssAttribute::into_output` (`attribute.rs` 96-112). -/
def attrOut (name : AName) (values : List CV) (errors : List IErr) : Out ORBC :=
  match spacedFrags values with
  | none => none
  | some fs => some (.attr name.out fs, errors)

/-- `is_not_comma` (`qualifier.rs` 52-54). -/
def isComma : CV → Bool
  | .tok (.punct c _) => c == ','
  | _ => false

/-- `peeking_take_while(is_not_comma)` and `it.next()` (`qualifier.rs` 63-73). -/
def takeSelector : List CV → List CV × List CV
  | [] => ([], [])
  | c :: cs =>
    if isComma c then ([], cs)
    else
      let (a, b) := takeSelector cs
      (c :: a, b)

/-- The iterator of `CssBlockQualifier::into_output` (`qualifier.rs` 56-76). -/
def selectorsOut : Nat → List CV → Option (List (List OFrag))
  | _, [] => some []
  | 0, _ => none
  | n + 1, cs =>
    let (a, rest) := takeSelector cs
    match spacedFrags a, selectorsOut n rest with
    | some s, some ss => some (s :: ss)
    | _, _ => none

/-- `condition_output` (`rule.rs` 70-84). -/
def conditionOut (name : CssIdent) (ps : List CV) : Option (List OFrag) :=
  (spacedFrags ps).map (fun fs => .str ('@' :: CssIdent.text name ++ [' ']) :: fs)

/-- The state of the loops that group attributes: `attrs` (`root.rs` 23, `scope.rs` 29) as
they are converted by `into_dangling_output` (`block.rs` 29-43), with their errors. As
nothing else is added to the context before they are flushed, they are converted when they
are met. `flush_attrs` (`root.rs` 24-32, `scope.rs` 32-40). -/
def flushAttrs {β : Type} (dangling : List ORBC → β) (attrs : List ORBC) : List β :=
  if attrs.isEmpty then [] else [dangling attrs]

mutual
/-- `CssScope::into_rule_block_output` (`scope.rs` 63-91); an at-rule goes through
`into_rule_block_output` (`rule.rs` 99-110). -/
def blockOut : List Item → Out (List ORBC)
  | [] => some ([], [])
  | .attr name vs es :: is =>
    match attrOut name vs es, blockOut is with
    | some (a, e), some (b, e') => some (a :: b, e ++ e')
    | _, _ => none
  | .atRule name ps es content :: is =>
    match conditionOut name ps, blockOutOpt content, blockOut is with
    | some c, some (a, e), some (b, e') => some (.rule c a :: b, es ++ e ++ e')
    | _, _, _ => none
  | .nested qs _ _ :: is =>
    match blockOut is with
    | some (b, e') => some (b, .nested qs :: e')
    | none => none
/-- The contents of an at-rule (`rule.rs` 105-108). -/
def blockOutOpt : Option (List Item) → Out (List ORBC)
  | none => some ([], [])
  | some is => blockOut is
end

/-- `CssQualifiedRule::into_output` (`block.rs` 21-26). -/
def nestedOut (qs : List CV) (es : List IErr) (scope : List Item) :
    Out (List (List OFrag) × List ORBC) :=
  match selectorsOut qs.length qs, blockOut scope with
  | some c, some (b, e) => some ((c, b), es ++ e)
  | _, _ => none

mutual
/-- `CssScope::into_rule_output` (`scope.rs` 28-61); an at-rule goes through
`into_rule_output` (`rule.rs` 86-97). -/
def ruleOut : List Item → List ORBC → Out (List ORBC)
  | [], attrs => some (flushAttrs (ORBC.block []) attrs, [])
  | .attr name vs es :: is, attrs =>
    match attrOut name vs es with
    | none => none
    | some (a, e) =>
      match ruleOut is (attrs ++ [a]) with
      | some (b, e') => some (b, e ++ e')
      | none => none
  | .atRule name ps es content :: is, attrs =>
    match conditionOut name ps, ruleOutOpt content, ruleOut is [] with
    | some c, some (a, e), some (b, e') =>
      some (flushAttrs (ORBC.block []) attrs ++ .rule c a :: b, es ++ e ++ e')
    | _, _, _ => none
  | .nested qs es scope :: is, attrs =>
    match nestedOut qs es scope, ruleOut is [] with
    | some ((c, a), e), some (b, e') =>
      some (flushAttrs (ORBC.block []) attrs ++ .block c a :: b, e ++ e')
    | _, _ => none
/-- The contents of an at-rule (`rule.rs` 92-95). -/
def ruleOutOpt : Option (List Item) → Out (List ORBC)
  | none => some ([], [])
  | some is => ruleOut is []
end

/-- `CssRootNode::into_output` (`root.rs` 20-51). -/
def rootOut : List Item → List ORBC → Out OSheet
  | [], attrs => some (flushAttrs (OScope.block []) attrs, [])
  | .attr name vs es :: is, attrs =>
    match attrOut name vs es with
    | none => none
    | some (a, e) =>
      match rootOut is (attrs ++ [a]) with
      | some (b, e') => some (b, e ++ e')
      | none => none
  | .atRule name ps es content :: is, attrs =>
    match conditionOut name ps, ruleOutOpt content, rootOut is [] with
    | some c, some (a, e), some (b, e') =>
      some (flushAttrs (OScope.block []) attrs ++ .rule c a :: b, es ++ e ++ e')
    | _, _, _ => none
  | .nested qs es scope :: is, attrs =>
    match nestedOut qs es scope, rootOut is [] with
    | some ((c, a), e), some (b, e') =>
      some (flushAttrs (OScope.block []) attrs ++ .block c a :: b, e ++ e')
    | _, _ => none

/-- What a macro call expands to: the error of the parser, the collected errors with an
empty sheet, or code; or the macro panics (also a compile error, without location). -/
inductive Expansion where
  | parseError
  | errors (es : List IErr)
  | code (c : CSheet)
  | panic

/-- `macro_fn` (`inline/mod.rs` 11-28) with `into_compile_errors` (`parse/mod.rs`
43-63). -/
def macroFn (isExpr : RExpr → Bool) (ts : List Tree) : Expansion :=
  match parseRoot isExpr ts with
  | none => .parseError
  | some is =>
    match rootOut is [] with
    | none => .panic
    | some (_, e :: es) => .errors (e :: es)
    | some (s, []) => .code (reifySheet s)

end Inline
