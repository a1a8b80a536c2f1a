import Verif.Spec.Layout

/-!
# Css in any layout, with or without blanks in empty braces

The same texts as in `Spec/Layout`, but there may be blanks between any two braces. The flag says
whether there are blanks and nothing else between the braces of an at-rule in a block, of a frame
of an animation, or of an animation. Nothing here mentions the parser.
-/

namespace Spec

/-- There is something between the braces, and it says nothing. -/
def onlyBlanks (body : Str) (content : List RBC) : Bool := !body.isEmpty && content.isEmpty

/-- The contents of a block or of a frame. -/
inductive WideBody : Bool → Str → List RBC → Prop
  | nil (w : Str) : Blank w → WideBody false w []
  | last (d : DeclSrc) : d.Ok → WideBody false d.bare [.attr d.key [d.value]]
  | decl (f : Bool) (d : DeclSrc) (u : Str) (rest : List RBC) : d.Ok → WideBody f u rest →
      WideBody f (d.text ++ u) (.attr d.key [d.value] :: rest)
  | rule (f g : Bool) (a : AtSrc) (body u : Str) (content rest : List RBC) : a.Ok conditionalNames →
      WideBody f body content → WideBody g u rest →
      WideBody (onlyBlanks body content || f || g) (a.text ++ c! "{" ++ body ++ c! "}" ++ u) (.rule a.value content :: rest)

/-- The frames of an animation. -/
inductive WideFrames : Bool → Str → List RBC → Prop
  | nil (w : Str) : Blank w → WideFrames false w []
  | frame (f g : Bool) (b s : Str) (l : List SelSrc) (body u : Str) (content rest : List RBC) :
      Blank b → SelText s → NonBlank s → (∀ x ∈ l, x.Ok) →
      WideBody f body content → WideFrames g u rest →
      WideFrames (onlyBlanks body content || f || g) (b ++ selsText (⟨[], s⟩ :: l) ++ c! "{" ++ body ++ c! "}" ++ u)
        (.rule [Str.trim (selsText (⟨[], s⟩ :: l))] content :: rest)

/-- A whole text, or the contents of an at-rule. In the braces of a block and of an at-rule that
is not in a block there may be blanks only. -/
inductive WideLayout : Bool → Str → Sheet → Prop
  | nil (w : Str) : Blank w → WideLayout false w []
  | decls (f : Bool) (ds : List DeclSrc) (u : Str) (rest : Sheet) : ds ≠ [] → (∀ d ∈ ds, d.Ok) →
      ¬ StartsLikeDecl u → WideLayout f u rest →
      WideLayout f ((ds.map DeclSrc.text).flatten ++ u)
        (.block [] (ds.map (fun d => .attr d.key [d.value])) :: rest)
  | block (f g : Bool) (l : List SelSrc) (body u : Str) (content : List RBC) (rest : Sheet) : l ≠ [] →
      (∀ s ∈ l, s.Ok) → WideBody f body content → WideLayout g u rest →
      WideLayout (f || g) (selsText l ++ c! "{" ++ body ++ c! "}" ++ u)
        (.block (l.map (fun s => [Str.trim s.sel])) content :: rest)
  | rule (f g : Bool) (a : AtSrc) (body u : Str) (content rest : Sheet) : a.Ok conditionalNames →
      WideLayout f body content → WideLayout g u rest →
      WideLayout (f || g) (a.text ++ c! "{" ++ body ++ c! "}" ++ u)
        (.rule a.value (content.map ScopeContent.toRBC) :: rest)
  | keyframes (f g : Bool) (a : AtSrc) (body u : Str) (frames : List RBC) (rest : Sheet) :
      a.Ok [c! "@keyframes"] → WideFrames f body frames → WideLayout g u rest →
      WideLayout (onlyBlanks body frames || f || g) (a.text ++ c! "{" ++ body ++ c! "}" ++ u) (.rule a.value frames :: rest)

end Spec
