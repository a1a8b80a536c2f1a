import Verif.Spec.Readable
import Verif.Spec.Clean

/-!
# Exactly the css that is accepted

A grammar that is read from left to right, with the rest of the text at hand: `DeclAt i d r`
and its like say that the text `i` begins with the thing, and `r` is left. Values, selectors
and conditions are as long as they can be. There is no other choice in the grammar but this:
a text that begins with declarations and their semicolons is not the selector of a block. The
parser is not mentioned.
-/

namespace Spec

/-- All blanks and comments at the beginning of `i` are left out. -/
def Skips (i r : Str) : Prop := ∃ b, Blank b ∧ i = b ++ r ∧ NoBlanks r

/-- `t` is the longest beginning of `t ++ r` of a kind. -/
def Longest (P : Str → Prop) (t r : Str) : Prop :=
  P t ∧ ∀ t' r', t ++ r = t' ++ r' → P t' → t'.length ≤ t.length

/-- A declaration, without a semicolon. -/
inductive DeclAt : Str → Str × List Str → Str → Prop
  | intro (i key r1 r2 raw r3 r : Str) : Skips i (key ++ r1) → Ident key → Skips r1 (':' :: r2) →
      Skips r2 (raw ++ r3) → raw ≠ [] → Longest ReadableValue raw r3 → Skips r3 r →
      DeclAt i (Str.trim key, [Str.trim raw]) r

/-- Declarations, each with a semicolon, up to something that does not begin with one. -/
inductive DeclsAt : Str → List (Str × List Str) → Str → Prop
  | last (i r1 r : Str) (d : Str × List Str) : DeclAt i d (';' :: r1) → (∀ d' r', ¬ DeclAt r1 d' r') →
      Skips r1 r → DeclsAt i [d] r
  | more (i r1 r : Str) (d : Str × List Str) (ds : List (Str × List Str)) : DeclAt i d (';' :: r1) →
      DeclsAt r1 ds r → DeclsAt i (d :: ds) r

/-- One selector. -/
inductive SelAt : Str → Selector → Str → Prop
  | intro (i raw r1 r : Str) : Skips i (raw ++ r1) → raw ≠ [] → Longest ReadableSelector raw r1 → Skips r1 r →
      SelAt i [Str.trim raw] r

/-- Selectors with commas between them; a comma after the last one is allowed. -/
inductive SelsAt : Str → List Selector → Str → Prop
  | last (i r : Str) (s : Selector) : SelAt i s r → SelsAt i [s] r
  | comma (i r1 r : Str) (s : Selector) : SelAt i s (',' :: r1) → Skips r1 r → SelsAt i [s] r
  | more (i r1 r : Str) (s : Selector) (ss : List Selector) : SelAt i s (',' :: r1) → SelsAt r1 ss r →
      SelsAt i (s :: ss) r

/-- The head of an at-rule: one of the names, one space, and a condition. -/
inductive HeadAt (names : List Str) : Str → List Str → Str → Prop
  | intro (i name raw r1 r : Str) : Skips i (name ++ ' ' :: (raw ++ r1)) → name ∈ names → raw ≠ [] →
      Longest ReadableCondition raw r1 → Skips r1 r → HeadAt names i [name ++ c! " ", Str.trim raw] r

/-- The contents of a block or a frame: declarations, and conditional at-rules. After a
declaration there is a semicolon or none. -/
inductive BodyAt : Str → List RBC → Str → Prop
  | stop (i : Str) : BodyAt i [] i
  | semi (i r1 r2 r : Str) (d : Str × List Str) (rest : List RBC) : DeclAt i d (';' :: r1) → Skips r1 r2 →
      BodyAt r2 rest r → BodyAt i (.attr d.1 d.2 :: rest) r
  | bare (i r1 r : Str) (d : Str × List Str) (rest : List RBC) : DeclAt i d r1 → (∀ c ∈ r1.head?, c ≠ ';') →
      BodyAt r1 rest r → BodyAt i (.attr d.1 d.2 :: rest) r
  | rule (i r1 r2 r3 r : Str) (cond : List Str) (content rest : List RBC) :
      HeadAt conditionalNames i cond ('{' :: r1) → BodyAt r1 content ('}' :: r2) → Skips r2 r3 →
      BodyAt r3 rest r → BodyAt i (.rule cond content :: rest) r

/-- The frames of an animation. The steps are kept as they are written. -/
inductive FramesAt : Str → List RBC → Str → Prop
  | stop (i : Str) : FramesAt i [] i
  | frame (i t r1 r2 r3 r : Str) (ss : List Selector) (content rest : List RBC) : Skips i (t ++ '{' :: r1) →
      SelsAt i ss ('{' :: r1) → BodyAt r1 content ('}' :: r2) → Skips r2 r3 → FramesAt r3 rest r →
      FramesAt i (.rule [Str.trim t] content :: rest) r

/-- The contents of a sheet or an at-rule. -/
inductive ItemsAt : Str → Sheet → Str → Prop
  | stop (i : Str) : ItemsAt i [] i
  | decls (i r1 r : Str) (ds : List (Str × List Str)) (rest : Sheet) : DeclsAt i ds r1 → ItemsAt r1 rest r →
      ItemsAt i (.block [] (declContents ds) :: rest) r
  | block (i r1 r2 r3 r4 r : Str) (ss : List Selector) (content : List RBC) (rest : Sheet) :
      (∀ ds r', ¬ DeclsAt i ds r') → SelsAt i ss ('{' :: r1) → Skips r1 r2 → BodyAt r2 content ('}' :: r3) →
      Skips r3 r4 → ItemsAt r4 rest r → ItemsAt i (.block ss content :: rest) r
  | rule (i r1 r2 r3 r4 r : Str) (cond : List Str) (content rest : Sheet) :
      HeadAt conditionalNames i cond ('{' :: r1) → Skips r1 r2 → ItemsAt r2 content ('}' :: r3) → Skips r3 r4 →
      ItemsAt r4 rest r → ItemsAt i (.rule cond (content.map ScopeContent.toRBC) :: rest) r
  | keyframes (i r1 r2 r3 r : Str) (cond : List Str) (frames : List RBC) (rest : Sheet) :
      HeadAt [c! "@keyframes"] i cond ('{' :: r1) → FramesAt r1 frames ('}' :: r2) → Skips r2 r3 →
      ItemsAt r3 rest r → ItemsAt i (.rule cond frames :: rest) r

/-- A text and the sheet it is read as: after blanks there are items, and nothing is left. -/
def Accepted (css : Str) (s : Sheet) : Prop := ∃ i, Skips css i ∧ ItemsAt i s []

end Spec
