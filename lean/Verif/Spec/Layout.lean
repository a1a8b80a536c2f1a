import Verif.Spec.Clean

/-!
# Css in any layout

`Layout css s` says that `css` is written-out css with the sheet `s`: white space and
comments may stand between any two parts, and the last declaration of a block need not
have a semicolon. Nothing here mentions the parser.
-/

namespace Spec

/-- One selector of a list: the blanks in front of it, and its text, which may have white
space at its ends. -/
structure SelSrc where
  before : Str
  sel : Str

/-- Blanks and a selector text. -/
def SelSrc.Ok (s : SelSrc) : Prop := Blank s.before ∧ SelText s.sel ∧ NonBlank s.sel

/-- Selectors with commas between them. -/
def selsText (l : List SelSrc) : Str := Str.join (c! ",") (l.map (fun s => s.before ++ s.sel))

/-- The head of an at-rule: blanks, a name, and the text between the space after the name and
the brace. -/
structure AtSrc where
  before : Str
  name : Str
  cond : Str

/-- The name is one of `names`; the condition has no dollar and no brace, and there is at
least one character. -/
def AtSrc.Ok (names : List Str) (a : AtSrc) : Prop :=
  Blank a.before ∧ a.name ∈ names ∧ a.cond ≠ [] ∧ '$' ∉ a.cond ∧ '{' ∉ a.cond

/-- The text in front of the brace. -/
def AtSrc.text (a : AtSrc) : Str := a.before ++ a.name ++ c! " " ++ a.cond

/-- The condition in the sheet. -/
def AtSrc.value (a : AtSrc) : List Str := [a.name ++ c! " ", Str.trim a.cond]

/-- The contents of a block or of a frame. -/
inductive BodyLayout : Str → List RBC → Prop
  | nil (w : Str) : Blank w → BodyLayout w []
  | last (d : DeclSrc) : d.Ok → BodyLayout d.bare [.attr d.key [d.value]]
  | decl (d : DeclSrc) (u : Str) (rest : List RBC) : d.Ok → BodyLayout u rest →
      BodyLayout (d.text ++ u) (.attr d.key [d.value] :: rest)
  | rule (a : AtSrc) (body u : Str) (content rest : List RBC) : a.Ok conditionalNames →
      BodyLayout body content → (body = [] ∨ content ≠ []) → BodyLayout u rest →
      BodyLayout (a.text ++ c! "{" ++ body ++ c! "}" ++ u) (.rule a.value content :: rest)

/-- The frames of an animation. -/
inductive FramesLayout : Str → List RBC → Prop
  | nil (w : Str) : Blank w → FramesLayout w []
  | frame (b s : Str) (l : List SelSrc) (body u : Str) (content rest : List RBC) :
      Blank b → SelText s → NonBlank s → (∀ x ∈ l, x.Ok) →
      BodyLayout body content → (body = [] ∨ content ≠ []) → FramesLayout u rest →
      FramesLayout (b ++ selsText (⟨[], s⟩ :: l) ++ c! "{" ++ body ++ c! "}" ++ u)
        (.rule [Str.trim (selsText (⟨[], s⟩ :: l))] content :: rest)

/-- An identifier and a colon, with blanks in front of them. -/
def StartsLikeDecl (u : Str) : Prop :=
  ∃ b k b' t, Blank b ∧ Ident k ∧ Blank b' ∧ u = b ++ k ++ b' ++ ':' :: t

/-- A whole text, or the contents of an at-rule. Declarations outside of blocks need their
semicolons, and what follows them must not look like one more. -/
inductive Layout : Str → Sheet → Prop
  | nil (w : Str) : Blank w → Layout w []
  | decls (ds : List DeclSrc) (u : Str) (rest : Sheet) : ds ≠ [] → (∀ d ∈ ds, d.Ok) →
      ¬ StartsLikeDecl u → Layout u rest →
      Layout ((ds.map DeclSrc.text).flatten ++ u)
        (.block [] (ds.map (fun d => .attr d.key [d.value])) :: rest)
  | block (l : List SelSrc) (body u : Str) (content : List RBC) (rest : Sheet) : l ≠ [] →
      (∀ s ∈ l, s.Ok) → BodyLayout body content → Layout u rest →
      Layout (selsText l ++ c! "{" ++ body ++ c! "}" ++ u)
        (.block (l.map (fun s => [Str.trim s.sel])) content :: rest)
  | rule (a : AtSrc) (body u : Str) (content rest : Sheet) : a.Ok conditionalNames →
      Layout body content → Layout u rest →
      Layout (a.text ++ c! "{" ++ body ++ c! "}" ++ u)
        (.rule a.value (content.map ScopeContent.toRBC) :: rest)
  | keyframes (a : AtSrc) (body u : Str) (frames : List RBC) (rest : Sheet) :
      a.Ok [c! "@keyframes"] → FramesLayout body frames → (body = [] ∨ frames ≠ []) →
      Layout u rest →
      Layout (a.text ++ c! "{" ++ body ++ c! "}" ++ u) (.rule a.value frames :: rest)

/-- One sheet after the other. Loose declarations that meet are one block. -/
def sheetsJoined : Sheet → Sheet → Sheet
  | [], t => t
  | [.block [] a], .block [] b :: t => .block [] (a ++ b) :: t
  | x :: s, t => x :: sheetsJoined s t

mutual
/-- No selector is white space only, and animations have a frame with a declaration; their
frames have no at-rules inside and no comments between the steps. -/
def FilledIn : RBC → Prop
  | .attr _ _ => True
  | .rule cond content =>
    (c! "@keyframes " <+: cond.flatten → (∀ x ∈ content, CleanFrameRule x) ∧
      ∃ fc k v rest, .rule fc (.attr k v :: rest) ∈ content) ∧ FilledAll content
  | .block sels content => (∀ s ∈ sels, s.flatten ≠ []) ∧ FilledAll content
/-- The same for a list. -/
def FilledAll : List RBC → Prop
  | [] => True
  | x :: xs => FilledIn x ∧ FilledAll xs
end

/-- The same for a sheet. -/
def FilledSheet (s : Sheet) : Prop := FilledAll (s.map ScopeContent.toRBC)

end Spec
