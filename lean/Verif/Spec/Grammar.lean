import Verif.Spec.Lex

/-!
# A grammar of css texts

`SheetText css s` says that the text `css` spells the sheet `s`. The grammar reads from
left to right and accounts for every character: it is white space, part of a comment, one
of the punctuation characters `: ; , { }`, or part of a key, value, selector or condition
that appears in the sheet. It does not mention the parser.
-/

namespace Spec

/-- A placeholder `${name}`, possibly with blanks around the name. -/
def Placeholder (t : Str) : Prop :=
  ∃ b1 c name b2, Blank b1 ∧ Blank b2 ∧ isLetter c = true ∧
    (∀ d ∈ name, isLetter d = true ∨ ('0' ≤ d ∧ d ≤ '9') ∨ d = '_') ∧
    t = c! "${" ++ b1 ++ c :: name ++ b2 ++ c! "}"

/-- The raw text of a value: plain characters, strings, placeholders, and `/` when it does
not start a comment. Comments may stand next to strings and placeholders; they stay in the
value. -/
inductive RawValue : Str → Prop
  | nil : RawValue []
  | char (c : Char) (s : Str) : c ∉ (c! "${;}/\"") → RawValue s → RawValue (c :: s)
  | str (body s : Str) : StrBody body → RawValue s → RawValue ('"' :: body ++ '"' :: s)
  | placeholder (t s : Str) : Placeholder t → RawValue s → RawValue (t ++ s)
  | slash (c : Char) (s : Str) : c ∉ (c! "${;}\"*") → RawValue s → RawValue ('/' :: c :: s)
  | blank (b s : Str) : Blank b → RawValue s → RawValue (b ++ s)

/-- The raw text of a selector. -/
inductive RawSelector : Str → Prop
  | nil : RawSelector []
  | run (c : Char) (s u : Str) : c ∉ (c! "$,}@{\"") → (∀ d ∈ s, d ∉ (c! "$,\"{")) →
      RawSelector u → RawSelector (c :: s ++ u)
  | str (body s : Str) : StrBody body → RawSelector s → RawSelector ('"' :: body ++ '"' :: s)
  | placeholder (t s : Str) : Placeholder t → RawSelector s → RawSelector (t ++ s)
  | blank (b s : Str) : Blank b → RawSelector s → RawSelector (b ++ s)

/-- The raw text of the condition of an at-rule. -/
inductive RawCondition : Str → Prop
  | nil : RawCondition []
  | char (c : Char) (s : Str) : c ∉ (c! "${") → RawCondition s → RawCondition (c :: s)
  | placeholder (t s : Str) : Placeholder t → RawCondition s → RawCondition (t ++ s)
  | blank (b s : Str) : Blank b → RawCondition s → RawCondition (b ++ s)

/-- A declaration without its semicolon. -/
inductive DeclText : Str → Str × List Str → Prop
  | intro (b0 key b1 b2 raw b3 : Str) : Blank b0 → Ident key → Blank b1 → Blank b2 →
      RawValue raw → raw ≠ [] → Blank b3 →
      DeclText (b0 ++ key ++ b1 ++ c! ":" ++ b2 ++ raw ++ b3) (Str.trim key, [Str.trim raw])

/-- One or more declarations with semicolons between them. -/
inductive DeclTexts : Str → List (Str × List Str) → Prop
  | one (t : Str) (d : Str × List Str) : DeclText t d → DeclTexts t [d]
  | cons (t u : Str) (d : Str × List Str) (ds : List (Str × List Str)) :
      DeclText t d → DeclTexts u ds → DeclTexts (t ++ c! ";" ++ u) (d :: ds)

/-- Declarations as contents. -/
def declContents (ds : List (Str × List Str)) : List RBC := ds.map (fun d => .attr d.1 d.2)

/-- One or more selectors with commas between them, and possibly one more at the end. -/
inductive SelectorTexts : Str → List Selector → Prop
  | one (b raw b' comma : Str) : Blank b → RawSelector raw → raw ≠ [] → Blank b' →
      (comma = [] ∨ comma = c! ",") →
      SelectorTexts (b ++ raw ++ b' ++ comma) [[Str.trim raw]]
  | cons (b raw b' u : Str) (sels : List Selector) : Blank b → RawSelector raw → raw ≠ [] →
      Blank b' → SelectorTexts u sels →
      SelectorTexts (b ++ raw ++ b' ++ c! "," ++ u) ([Str.trim raw] :: sels)

/-- The head of an at-rule: a name, a space, the condition. -/
inductive AtText (names : List Str) : Str → List Str → Prop
  | intro (b name raw b' : Str) : Blank b → name ∈ names → RawCondition raw → raw ≠ [] →
      Blank b' → AtText names (b ++ name ++ c! " " ++ raw ++ b') [name ++ c! " ", Str.trim raw]

/-- The names of at-rules that are conditions. -/
def conditional : List Str := [c! "@media", c! "@supports", c! "@container"]

/-- The contents of a block or a frame: declarations and conditional at-rules. The last
declaration before an at-rule or before the end need not have a semicolon. -/
inductive ContentText : Str → List RBC → Prop
  | nil : ContentText [] []
  | blank (b u : Str) (rest : List RBC) : Blank b → ContentText u rest →
      ContentText (b ++ u) rest
  | decls (t semi u : Str) (ds : List (Str × List Str)) (rest : List RBC) : DeclTexts t ds →
      (semi = [] ∨ semi = c! ";") → ContentText u rest →
      ContentText (t ++ semi ++ u) (declContents ds ++ rest)
  | rule (t body u : Str) (cond : List Str) (content rest : List RBC) :
      AtText conditional t cond → ContentText body content → ContentText u rest →
      ContentText (t ++ c! "{" ++ body ++ c! "}" ++ u) (.rule cond content :: rest)

/-- The frames of an animation. -/
inductive FrameTexts : Str → List RBC → Prop
  | nil : FrameTexts [] []
  | blank (b u : Str) (rest : List RBC) : Blank b → FrameTexts u rest → FrameTexts (b ++ u) rest
  | frame (t b body u : Str) (sels : List Selector) (content rest : List RBC) :
      SelectorTexts t sels → Blank b → ContentText body content → FrameTexts u rest →
      FrameTexts (t ++ b ++ c! "{" ++ body ++ c! "}" ++ u)
        (.rule [Str.trim (t ++ b)] content :: rest)

/-- A whole text. Declarations outside of blocks need their semicolon. -/
inductive SheetText : Str → Sheet → Prop
  | nil : SheetText [] []
  | blank (b u : Str) (rest : Sheet) : Blank b → SheetText u rest → SheetText (b ++ u) rest
  | decls (t u : Str) (ds : List (Str × List Str)) (rest : Sheet) : DeclTexts t ds →
      SheetText u rest → SheetText (t ++ c! ";" ++ u) (.block [] (declContents ds) :: rest)
  | block (t b body u : Str) (sels : List Selector) (content : List RBC) (rest : Sheet) :
      SelectorTexts t sels → Blank b → ContentText body content → SheetText u rest →
      SheetText (t ++ b ++ c! "{" ++ body ++ c! "}" ++ u) (.block sels content :: rest)
  | rule (t body u : Str) (cond : List Str) (content : Sheet) (rest : Sheet) :
      AtText conditional t cond → SheetText body content → SheetText u rest →
      SheetText (t ++ c! "{" ++ body ++ c! "}" ++ u)
        (.rule cond (content.map ScopeContent.toRBC) :: rest)
  | keyframes (t body u : Str) (cond : List Str) (frames : List RBC) (rest : Sheet) :
      AtText [c! "@keyframes"] t cond → FrameTexts body frames → SheetText u rest →
      SheetText (t ++ c! "{" ++ body ++ c! "}" ++ u) (.rule cond frames :: rest)

end Spec
