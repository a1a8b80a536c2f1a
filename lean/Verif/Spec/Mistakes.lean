import Verif.Spec.Inline

/-!
# What can be wrong in inline CSS

How tokens split into declarations, at-rules and blocks, whatever is in values and
selectors, and the mistakes that there are then. Nothing here uses the functions of the
model that parse, validate or emit; the messages are the data type `IErr` of the model.
-/

namespace Spec

open Inline

/-! ## The shape of a sheet -/

mutual
/-- What is looked at in a value: the arguments of functions, and all else as it is. -/
def valueParts : CV → List CV
  | .func _ args => valuePartsL args
  | c => [c]
/-- For a list. -/
def valuePartsL : List CV → List CV
  | [] => []
  | c :: cs => valueParts c ++ valuePartsL cs
end

mutual
/-- What is looked at in a selector: what is in brackets, and all else as it is. -/
def selectorParts : CV → List CV
  | .block .bracket cs => selectorPartsL cs
  | c => [c]
/-- For a list. -/
def selectorPartsL : List CV → List CV
  | [] => []
  | c :: cs => selectorParts c ++ selectorPartsL cs
end

/-- A block in braces. -/
def IsBraces : CV → Prop
  | .block d _ => d = .brace
  | _ => False

/-- The tokens `ts` are the items `is`. As in `Sheets`, but anything is allowed in values and
selectors (up to the `;` or the `{` that ends them), at-rules may have any name, and blocks
may be in blocks. -/
inductive Written (isExpr : RExpr → Bool) : List Tree → List SItem → Prop where
  | nil : Written isExpr [] []
  | decl (j j' name vs rest is) :
      IsName name → CVOk isExpr name → Followed name [.punct ':' j] →
      CVsOk isExpr vs [.punct ';' j'] → (∀ v ∈ vs, ¬ IsPunct ';' v) → Written isExpr rest is →
      Written isExpr (tokensCV name ++ .punct ':' j :: (tokens vs ++ .punct ';' j' :: rest)) (.decl name vs :: is)
  | rule (j name ps inner body rest is) :
      IdentOk name → Ends name (tokens ps) → CVsOk isExpr ps [.group .brace inner] → (∀ p ∈ ps, InPrelude p) →
      Written isExpr inner body → Written isExpr rest is →
      Written isExpr
        (.punct '@' j :: (name.map partTree ++ (tokens ps ++ .group .brace inner :: rest))) (.rule name ps body :: is)
  | block (qs inner body rest is) :
      CVsOk isExpr qs [.group .brace inner] → (∀ q ∈ qs, ¬ IsBraces q) → (∀ p ∈ selectorPartsL qs, ¬ IsPunct ';' p) →
      (∀ c cs, qs = c :: cs → ¬ IsPunct '@' c) →
      (∀ c d cs, qs = c :: d :: cs → IsName c → ¬ IsPunct ':' d) →
      Written isExpr inner body → Written isExpr rest is →
      Written isExpr (tokens qs ++ .group .brace inner :: rest) (.block qs body :: is)

/-! ## Mistakes -/

/-- What is wrong with a part of a value: blocks, and punctuation other than dashes,
slashes, `%`, `:`, `,` and `#`. -/
def valueMistake : CV → Option IErr
  | .block d cs => some (.attrBlock (.block d cs))
  | .tok (.punct c j) => if c ∈ c! "-/%:,#" then none else some (.attrPunct (.tok (.punct c j)))
  | _ => none

/-- What is wrong with a part of a selector: blocks, literals other than strings, and
punctuation other than `&>+~|$*=^#.:,`. -/
def selectorMistake : CV → Option IErr
  | .block d cs => some (.selBlock (.block d cs))
  | .tok (.lit t none) => some (.selLiteral (.tok (.lit t none)))
  | .tok (.punct c j) => if c ∈ c! "&>+~|$*=^#.:," then none else some (.selPunct (.tok (.punct c j)))
  | _ => none

/-- The mistakes in values. -/
def valueMistakes (vs : List CV) : List IErr := (valuePartsL vs).filterMap valueMistake

/-- The mistakes in selectors. -/
def selectorMistakes (qs : List CV) : List IErr := (selectorPartsL qs).filterMap selectorMistake

/-- The values of a selector in which there is no mistake. -/
def soundSelectors (qs : List CV) : List CV := qs.filter (fun q => (selectorMistakes [q]).isEmpty)

mutual
/-- The mistakes in an item, in the order in which they are written; `inBlock` tells if it is
in a block. A block in a block is one mistake, and what is in it does not count. -/
def mistakes : Bool → SItem → List IErr
  | _, .decl _ vs => valueMistakes vs
  | inBlock, .rule name _ body =>
    (if cssName name ∈ [c! "media", c! "supports"] then [] else [.atRule name]) ++ mistakesL inBlock body
  | false, .block qs body => selectorMistakes qs ++ mistakesL true body
  | true, .block qs _ => [.nested (soundSelectors qs)]
/-- Of a list. -/
def mistakesL : Bool → List SItem → List IErr
  | _, [] => []
  | inBlock, i :: is => mistakes inBlock i ++ mistakesL inBlock is
end

mutual
/-- Whether an item can be printed: no braces in conditions of at-rules, and none in those
values of a selector that have no mistake. Blocks in blocks are not printed. -/
def Printable : Bool → SItem → Prop
  | _, .decl _ _ => True
  | inBlock, .rule _ ps body => NoBracesL ps ∧ PrintableL inBlock body
  | false, .block qs body => NoBracesL (soundSelectors qs) ∧ PrintableL true body
  | true, .block _ _ => True
/-- For a list. -/
def PrintableL : Bool → List SItem → Prop
  | _, [] => True
  | inBlock, i :: is => Printable inBlock i ∧ PrintableL inBlock is
end

end Spec
