import Verif.Spec.Layout

/-!
# Css that is not accepted

Texts that are well laid out up to a place at which there is something that is not supported
there, or at which they end although a block or an at-rule is still open.
-/

namespace Spec

/-- An at-rule with none of these names (and a space) begins here. -/
def Unsupported (names : List Str) (e : Str) : Prop := (∃ r, e = '@' :: r) ∧ ∀ n ∈ names, ¬ n ++ c! " " <+: e

/-- Selectors and an opening brace. -/
def OpensBlock (e : Str) : Prop :=
  ∃ l r, l ≠ [] ∧ (∀ s ∈ l, s.Ok) ∧ e = selsText l ++ '{' :: r ∧ ¬ StartsLikeDecl e

/-- The contents of a block or of a frame that go wrong behind some declarations: they end
without a brace, or with an at-rule that is not supported, or with a block inside of the block;
or behind a whole at-rule, or in one. An at-rule with blanks and nothing else between its braces
is not supported either. -/
inductive BrokenBody : Str → Prop
  | here (ds : List DeclSrc) (w e : Str) : (∀ d ∈ ds, d.Ok) → Blank w →
      e = [] ∨ Unsupported conditionalNames e ∨ OpensBlock e → BrokenBody ((ds.map DeclSrc.text).flatten ++ (w ++ e))
  | after (ds : List DeclSrc) (a : AtSrc) (body u : Str) (content : List RBC) : (∀ d ∈ ds, d.Ok) → a.Ok conditionalNames →
      BodyLayout body content → body = [] ∨ content ≠ [] → BrokenBody u →
      BrokenBody ((ds.map DeclSrc.text).flatten ++ (a.text ++ '{' :: (body ++ '}' :: u)))
  | inside (ds : List DeclSrc) (a : AtSrc) (u : Str) : (∀ d ∈ ds, d.Ok) → a.Ok conditionalNames → BrokenBody u →
      BrokenBody ((ds.map DeclSrc.text).flatten ++ (a.text ++ '{' :: u))
  | blank (ds : List DeclSrc) (a : AtSrc) (w u : Str) : (∀ d ∈ ds, d.Ok) → a.Ok conditionalNames → Blank w → w ≠ [] →
      BrokenBody ((ds.map DeclSrc.text).flatten ++ (a.text ++ '{' :: (w ++ '}' :: u)))

/-- The contents of `@keyframes` that go wrong: they end without a brace or with an at-rule,
behind some frames or in one, or with a frame that has blanks and nothing else between its
braces. -/
inductive BrokenFrames : Str → Prop
  | here (w e : Str) : Blank w → (e = [] ∨ ∃ r, e = '@' :: r) → BrokenFrames (w ++ e)
  | after (b s : Str) (l : List SelSrc) (body u : Str) (content : List RBC) : Blank b → SelText s → NonBlank s →
      (∀ x ∈ l, x.Ok) → BodyLayout body content → body = [] ∨ content ≠ [] → BrokenFrames u →
      BrokenFrames (b ++ selsText (⟨[], s⟩ :: l) ++ '{' :: (body ++ '}' :: u))
  | inside (b s : Str) (l : List SelSrc) (u : Str) : Blank b → SelText s → NonBlank s → (∀ x ∈ l, x.Ok) → BrokenBody u →
      BrokenFrames (b ++ selsText (⟨[], s⟩ :: l) ++ '{' :: u)
  | blank (b s : Str) (l : List SelSrc) (w u : Str) : Blank b → SelText s → NonBlank s → (∀ x ∈ l, x.Ok) → Blank w → w ≠ [] →
      BrokenFrames (b ++ selsText (⟨[], s⟩ :: l) ++ '{' :: (w ++ '}' :: u))

/-- The first thing of the text goes wrong: it is an at-rule that is not supported, or it is an
at-rule or a block that is still open at the end or has something in it that is not supported
there, or `@keyframes` with blanks and nothing else between the braces. -/
inductive Broken : Str → Prop
  | atRule (e : Str) : Unsupported (conditionalNames ++ [c! "@keyframes"]) e → Broken e
  | rule (a : AtSrc) (u : Str) (s : Sheet) : a.Ok conditionalNames → Layout u s → Broken (a.text ++ '{' :: u)
  | inRule (a : AtSrc) (u : Str) (s : Sheet) (e : Str) : a.Ok conditionalNames → Layout u s → Broken e →
      Broken (a.text ++ '{' :: (u ++ e))
  | inBlock (l : List SelSrc) (u : Str) : l ≠ [] → (∀ s ∈ l, s.Ok) → BrokenBody u →
      ¬ StartsLikeDecl (selsText l ++ '{' :: u) → Broken (selsText l ++ '{' :: u)
  | inKeyframes (a : AtSrc) (u : Str) : a.Ok [c! "@keyframes"] → BrokenFrames u → Broken (a.text ++ '{' :: u)
  | blank (a : AtSrc) (w u : Str) : a.Ok [c! "@keyframes"] → Blank w → w ≠ [] → Broken (a.text ++ '{' :: (w ++ '}' :: u))

end Spec
