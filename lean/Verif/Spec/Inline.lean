import Verif.Model.Inline
import Verif.Spec.Token

/-!
# What inline CSS is, and what it stands for

A grammar of inline CSS over Rust tokens, and the output tree of each sheet. Nothing here
uses the functions of the model that parse or emit.
-/

namespace Spec

open Output

/-! ## Spacing -/

/-- `xs` with `f l r` between neighbours `l` and `r`, where it is given; `s` is the state
of `f`. -/
def between {σ α : Type} (f : σ → α → α → Option α × σ) : σ → List α → List α
  | _, [] => []
  | _, [x] => [x]
  | s, x :: y :: xs => x :: (f s x y).1.toList ++ between f (f s x y).2 (y :: xs)

/-! ## Identifiers -/

/-- The token of a part. -/
def partTree : IdentPart → Tree
  | .dash j => .punct '-' j
  | .ident n r => .ident n r

/-- Which parts may follow each other: dashes are followed by identifiers, and by dashes if
there is no blank; identifiers are followed by dashes. -/
def Joins : IdentPart → IdentPart → Prop
  | .dash j, .dash _ => j = true
  | .dash _, .ident _ _ => True
  | .ident _ _, .dash _ => True
  | .ident _ _, .ident _ _ => False

/-- All neighbours join. -/
def Chain : IdentPart → List IdentPart → Prop
  | _, [] => True
  | p, q :: qs => Joins p q ∧ Chain q qs

/-- The parts of an identifier. -/
def IdentOk : CssIdent → Prop
  | [] => False
  | p :: ps => Chain p ps

/-- An identifier is not continued by the tokens `rest`. -/
def Ends (i : CssIdent) (rest : List Tree) : Prop :=
  ∀ last q ts, i.getLast? = some last → rest = partTree q :: ts → ¬ Joins last q

/-! ## Component values -/

mutual
/-- The tokens of a component value. -/
def tokensCV : CV → List Tree
  | .func i args => i.map partTree ++ [.group .paren (tokens args)]
  | .tok (.ident i) => i.map partTree
  | .tok (.punct c j) => [.punct c j]
  | .tok (.lit t s) => [.lit t s]
  | .block d cs => [.group d (tokens cs)]
  | .expr j e => [.punct '$' j, .group .brace e]
/-- The tokens of component values. -/
def tokens : List CV → List Tree
  | [] => []
  | c :: cs => tokensCV c ++ tokens cs
end

/-- A component value that is not continued by the tokens `rest`. A dash on its own is an
identifier only before another dash from which it is separated. -/
def Followed : CV → List Tree → Prop
  | .tok (.ident i), rest =>
    Ends i rest ∧ (∀ a ts, rest ≠ .group .paren a :: ts) ∧
      (∀ j, i = [.dash j] → ∃ j' ts, rest = .punct '-' j' :: ts)
  | .tok (.punct c _), rest =>
    (c = '$' → ∀ e ts, rest ≠ .group .brace e :: ts) ∧ (c = '-' → ∀ q ts, rest ≠ partTree q :: ts)
  | _, _ => True

mutual
/-- Well-formed component values; `isExpr` tells which tokens are a Rust expression. -/
def CVOk (isExpr : RExpr → Bool) : CV → Prop
  | .tok (.ident i) => IdentOk i
  | .tok (.punct c _) => c ≠ '\''
  | .tok (.lit _ _) => True
  | .func i args => IdentOk i ∧ (∀ j, i ≠ [.dash j]) ∧ CVsOk isExpr args []
  | .block _ cs => CVsOk isExpr cs []
  | .expr _ e => isExpr e = true
/-- Well-formed component values before the tokens `rest`. -/
def CVsOk (isExpr : RExpr → Bool) : List CV → List Tree → Prop
  | [], _ => True
  | c :: cs, rest => CVOk isExpr c ∧ Followed c (tokens cs ++ rest) ∧ CVsOk isExpr cs rest
end

/-! ## Values and selectors -/

mutual
/-- What may be in a value. -/
def ValidValue : CV → Prop
  | .expr _ _ => True
  | .tok (.ident _) => True
  | .tok (.lit _ _) => True
  | .tok (.punct c _) => c ∈ c! "-/%:,#"
  | .func _ args => ValidValues args
  | .block _ _ => False
/-- For a list. -/
def ValidValues : List CV → Prop
  | [] => True
  | c :: cs => ValidValue c ∧ ValidValues cs
end

mutual
/-- What may be in a selector. -/
def ValidSelector : CV → Prop
  | .expr _ _ => True
  | .func _ _ => True
  | .tok (.ident _) => True
  | .tok (.lit _ s) => s ≠ none
  | .tok (.punct c _) => c ∈ c! "&>+~|$*=^#.:,"
  | .block d cs => d = .bracket ∧ ValidSelectors cs
/-- For a list. -/
def ValidSelectors : List CV → Prop
  | [] => True
  | c :: cs => ValidSelector c ∧ ValidSelectors cs
end

/-! ## Sheets -/

/-- Declarations, at-rules and blocks. -/
inductive SItem where
  | decl (name : CV) (values : List CV)
  | rule (name : CssIdent) (prelude : List CV) (body : List SItem)
  | block (selectors : List CV) (body : List SItem)

/-- What may be the name of a declaration. -/
def IsName : CV → Prop
  | .tok (.ident _) => True
  | .expr _ _ => True
  | _ => False

/-- Neither a semicolon nor a braced block. -/
def InPrelude : CV → Prop
  | .tok (.punct c _) => c ≠ ';'
  | .block .brace _ => False
  | _ => True

/-- A punctuation character. -/
def IsPunct (c : Char) : CV → Prop
  | .tok (.punct d _) => d = c
  | _ => False

/-- The tokens `ts` are the items `is`; no blocks are allowed if `inBlock`. -/
inductive Sheets (isExpr : RExpr → Bool) : Bool → List Tree → List SItem → Prop where
  | nil (inBlock) : Sheets isExpr inBlock [] []
  | decl (inBlock j j' name vs rest is) :
      IsName name → CVOk isExpr name → Followed name [.punct ':' j] →
      CVsOk isExpr vs [.punct ';' j'] → ValidValues vs → Sheets isExpr inBlock rest is →
      Sheets isExpr inBlock (tokensCV name ++ .punct ':' j :: (tokens vs ++ .punct ';' j' :: rest)) (.decl name vs :: is)
  | rule (inBlock j name ps inner body rest is) :
      cssName name ∈ [c! "media", c! "supports"] → IdentOk name →
      Ends name (tokens ps) → CVsOk isExpr ps [.group .brace inner] → (∀ p ∈ ps, InPrelude p) →
      Sheets isExpr inBlock inner body → Sheets isExpr inBlock rest is →
      Sheets isExpr inBlock
        (.punct '@' j :: (name.map partTree ++ (tokens ps ++ .group .brace inner :: rest))) (.rule name ps body :: is)
  | block (qs inner body rest is) :
      CVsOk isExpr qs [.group .brace inner] → ValidSelectors qs →
      (∀ c d cs, qs = c :: d :: cs → IsName c → ¬ IsPunct ':' d) →
      Sheets isExpr true inner body → Sheets isExpr false rest is →
      Sheets isExpr false (tokens qs ++ .group .brace inner :: rest) (.block qs body :: is)

/-! ## Output -/

mutual
/-- The fragments of a component value. -/
def fragsCV : CV → List OFrag
  | .func i args => .token (.ident i) :: .delimiter .paren true :: (frags args ++ [.delimiter .paren false])
  | .tok t => [.token t]
  | .block d cs => .delimiter d true :: (frags cs ++ [.delimiter d false])
  | .expr _ e => [.expr e]
/-- Of a list. -/
def frags : List CV → List OFrag
  | [] => []
  | c :: cs => fragsCV c ++ frags cs
end

/-- A blank separates `l` and `r`: `l` is an identifier, a literal, `&`, `*` or a closing
delimiter, and `r` is an identifier, a literal, `*` or `#`. -/
def NeedsBlank (l r : OFrag) : Prop :=
  ((∃ d, l = .delimiter d false) ∨ (∃ i, l = .token (.ident i)) ∨ (∃ t s, l = .token (.lit t s)) ∨
    ∃ c j, l = .token (.punct c j) ∧ c ∈ c! "&*") ∧
  ((∃ i, r = .token (.ident i)) ∨ (∃ t s, r = .token (.lit t s)) ∨
    ∃ c j, r = .token (.punct c j) ∧ c ∈ c! "*#")

open Classical in
/-- Fragments with blanks. -/
noncomputable def spacedFrags (cs : List CV) : List OFrag :=
  between (fun (s : Unit) l r => (if NeedsBlank l r then some (.str (c! " ")) else none, s)) () (frags cs)

/-- The parts of a list between commas. -/
def splitCommas : List CV → List (List CV)
  | [] => [[]]
  | .tok (.punct ',' _) :: cs => [] :: splitCommas cs
  | c :: cs =>
    match splitCommas cs with
    | [] => [[c]]
    | p :: ps => (c :: p) :: ps

/-- Without the last part, if that is empty. -/
def dropEmpty : List (List CV) → List (List CV)
  | [] => []
  | [[]] => []
  | p :: ps => p :: dropEmpty ps

/-- The selectors of a list: one may end with a comma. -/
noncomputable def selectors (cs : List CV) : List (List OFrag) :=
  (dropEmpty (splitCommas cs)).map spacedFrags

/-- The key of a declaration. -/
def keyOf : CV → OCow
  | .tok (.ident i) => .str (cssName i)
  | .expr _ [.lit _ (some v)] => .str v
  | .expr _ e => .raw e
  | _ => .str []

/-- The output of a declaration. -/
noncomputable def declOut : SItem → ORBC
  | .decl name vs => .attr (keyOf name) (spacedFrags vs)
  | _ => .attr (.str []) []

/-- The condition of an at-rule. -/
noncomputable def condition (name : CssIdent) (ps : List CV) : List OFrag :=
  .str (c! "@" ++ cssName name ++ c! " ") :: spacedFrags ps

/-- Is it a declaration? -/
def IsDecl : SItem → Prop
  | .decl _ _ => True
  | _ => False

/-- The content of a block: declarations and at-rules as they come. -/
inductive EmitsIn : List SItem → List ORBC → Prop where
  | nil : EmitsIn [] []
  | decl (name vs is out) : EmitsIn is out → EmitsIn (.decl name vs :: is) (declOut (.decl name vs) :: out)
  | rule (name ps body a is out) : EmitsIn body a → EmitsIn is out →
      EmitsIn (.rule name ps body :: is) (.rule (condition name ps) a :: out)

/-- Outside of blocks: each maximal run of declarations becomes one block without
selectors. -/
inductive Emits : List SItem → List ORBC → Prop where
  | nil : Emits [] []
  | decls (ds is out) : ds ≠ [] → (∀ d ∈ ds, IsDecl d) → (∀ i ∈ is.head?, ¬ IsDecl i) → Emits is out →
      Emits (ds ++ is) (.block [] (ds.map declOut) :: out)
  | rule (name ps body a is out) : Emits body a → Emits is out →
      Emits (.rule name ps body :: is) (.rule (condition name ps) a :: out)
  | block (qs body a is out) : EmitsIn body a → Emits is out →
      Emits (.block qs body :: is) (.block (selectors qs) a :: out)

/-- The items of a sheet. -/
def scopeRBC : OScope → ORBC
  | .rule c b => .rule c b
  | .block c b => .block c b

mutual
/-- No braced blocks inside. -/
def NoBraces : CV → Prop
  | .block d cs => d ≠ .brace ∧ NoBracesL cs
  | .func _ args => NoBracesL args
  | _ => True
/-- For a list. -/
def NoBracesL : List CV → Prop
  | [] => True
  | c :: cs => NoBraces c ∧ NoBracesL cs
end

mutual
/-- No braced blocks inside of selectors and conditions. -/
def BraceFree : SItem → Prop
  | .decl _ _ => True
  | .rule _ ps body => NoBracesL ps ∧ BraceFreeL body
  | .block qs body => NoBracesL qs ∧ BraceFreeL body
/-- For a list. -/
def BraceFreeL : List SItem → Prop
  | [] => True
  | i :: is => BraceFree i ∧ BraceFreeL is
end

/-- A braced group. -/
def IsBraceGroup : Tree → Prop
  | .group d _ => d = .brace
  | _ => False

/-- A dollar sign. -/
def IsDollar : Tree → Prop
  | .punct c _ => c = '$'
  | _ => False

mutual
/-- A token without braces inside of parentheses or brackets; `inside` tells if it is
inside of some. -/
def NoInnerBrace (inside : Prop) : Tree → Prop
  | .group d c => (d = .brace → ¬ inside) ∧ NoInnerBraces (inside ∨ d ≠ .brace) False c
  | _ => True
/-- For a list; the braces of `${..}` do not count, `dollar` tells if there is a `$` before
the list. -/
def NoInnerBraces (inside : Prop) : Prop → List Tree → Prop
  | _, [] => True
  | dollar, t :: ts => (dollar ∧ IsBraceGroup t ∨ NoInnerBrace inside t) ∧ NoInnerBraces inside (IsDollar t) ts
end

mutual
/-- All declarations of an item, in order. -/
noncomputable def declsOf : SItem → List (OCow × List OFrag)
  | .decl name vs => [(keyOf name, spacedFrags vs)]
  | .rule _ _ body => declsOfL body
  | .block _ body => declsOfL body
/-- Of a list. -/
noncomputable def declsOfL : List SItem → List (OCow × List OFrag)
  | [] => []
  | i :: is => declsOf i ++ declsOfL is
end

mutual
/-- All attributes of an output tree, in order. -/
def attrsOf : ORBC → List (OCow × List OFrag)
  | .attr k v => [(k, v)]
  | .rule _ b => attrsOfL b
  | .block _ b => attrsOfL b
/-- Of a list. -/
def attrsOfL : List ORBC → List (OCow × List OFrag)
  | [] => []
  | x :: xs => attrsOf x ++ attrsOfL xs
end

end Spec
