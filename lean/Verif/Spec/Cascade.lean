import Verif.Spec.Select
import Verif.Spec.Page

/-!
# Which declaration wins

The cascade (CSS Cascading and Inheritance Level 4, section 6), as far as style elements are
concerned: among the declarations of a property that apply to an element, important ones come
first, then the ones with the most specific selector, then the last one. Nothing in the first
two sections of this file mentions how stylist prints anything. Left open: what simple
selectors weigh, which at-rules hold, and which values are important. Not here: layers, inline
styles, other style sheets, shorthands.
-/

namespace Spec

/-! ## Specificity -/

/-- Specificity (Selectors Level 4, section 17): ids; classes, attributes and pseudo-classes;
types and pseudo-elements. -/
structure Weight where
  ids : Nat
  classes : Nat
  types : Nat
deriving DecidableEq, Repr

instance : Add Weight := ⟨fun a b => ⟨a.ids + b.ids, a.classes + b.classes, a.types + b.types⟩⟩

/-- Ids are compared first, then classes, then types. -/
def Weight.lt (a b : Weight) : Prop :=
  a.ids < b.ids ∨ a.ids = b.ids ∧ (a.classes < b.classes ∨ a.classes = b.classes ∧ a.types < b.types)

/-- What simple selectors weigh, apart from pseudo-classes with selectors in brackets. -/
def usualWeight : Str → Weight
  | '#' :: _ => ⟨1, 0, 0⟩
  | '.' :: _ => ⟨0, 1, 0⟩
  | '[' :: _ => ⟨0, 1, 0⟩
  | ':' :: ':' :: _ => ⟨0, 0, 1⟩
  | ':' :: _ => ⟨0, 1, 0⟩
  | ['*'] => ⟨0, 0, 0⟩
  | _ => ⟨0, 0, 1⟩

/-- What a selector weighs, given the weights of simple selectors. -/
def weigh (w : Str → Weight) : List Step → Weight
  | [] => ⟨0, 0, 0⟩
  | .simple x :: r => w x + weigh w r
  | .comb _ :: r => weigh w r

/-- The same for the text of a selector. -/
def weightOf (w : Str → Weight) (s : Str) : Option Weight := (readSelector s).map (weigh w)

/-- The highest weight with a property. -/
def Highest (P : Weight → Prop) (n : Weight) : Prop := P n ∧ ∀ m, P m → ¬ n.lt m

/-! ## The winner -/

/-- A document, the weights of simple selectors, the at-rules that hold, and the values that
are important. -/
structure Setting (El : Type) where
  doc : Doc El
  weight : Str → Weight
  holds : Str → Prop
  important : Str → Bool

variable {El : Type}

/-- A declaration applies to an element, all at-rules around it hold, and the most specific
one of the selectors in its list that match the element weighs `n`. -/
def Setting.Strength (S : Setting El) (e : El) (d : Decl) (n : Weight) : Prop :=
  ∃ rules sel, d.path = rules ++ [sel] ∧ sel.head? ≠ some '@' ∧
    (∀ r ∈ rules, ¬ c! "keyframes" <:+: r ∧ S.holds r) ∧
    Highest (fun m => ∃ s ∈ selectorList [] (.out 0) sel, S.doc.Matches s e ∧ weightOf S.weight s = some m) n

/-- The first declaration (important or not, its weight, its place) is stronger than the
second one. -/
def Ahead (important : Bool) (weight : Weight) (place : Nat) (important' : Bool) (weight' : Weight) (place' : Nat) :
    Prop :=
  (important = true ∧ important' = false) ∨
    (important = important' ∧ (weight'.lt weight ∨ (weight = weight' ∧ place' < place)))

/-- The item number `i` of a list has the key `k`, takes part, and none that takes part with
this key is stronger. -/
def Winner {α : Type} (key : α → Str) (important : α → Bool) (strength : α → Weight → Prop) (l : List α) (k : Str)
    (i : Nat) : Prop :=
  ∃ a n, l[i]? = some a ∧ key a = k ∧ strength a n ∧
    ∀ (j : Nat) (b : α) (m : Weight), l[j]? = some b → key b = k → strength b m →
      ¬ Ahead (important b) m j (important a) n i

/-- The declaration number `i` decides about the property `k` of the element `e`. -/
def Setting.Wins (S : Setting El) (ds : List Decl) (e : El) (k : Str) (i : Nat) : Prop :=
  Winner Decl.key (fun d => S.important d.value) (S.Strength e) ds k i

/-! ## What a sheet says -/

/-- A declaration as it is written in a sheet: the at-rules around it, the selectors of the
innermost block with selectors (none of them if it is loose; `none` outside of all blocks, as
in the frames of an animation), the property and the value. -/
structure Said where
  rules : List Str
  selectors : Option (List Selector)
  key : Str
  value : Str
deriving DecidableEq

mutual
/-- The declarations in a part of a sheet that is under some at-rules and in a block. -/
def saidIn (rules : List Str) (outer : Option (List Selector)) : RBC → List Said
  | .attr k v => [⟨rules, outer, k, v.flatten⟩]
  | .rule c b => saidInAll (rules ++ [c.flatten]) outer b
  | .block c b => saidInAll rules (some (if c = [] then outer.getD [] else c)) b
/-- The same for a list of parts. -/
def saidInAll (rules : List Str) (outer : Option (List Selector)) : List RBC → List Said
  | [] => []
  | x :: xs => saidIn rules outer x ++ saidInAll rules outer xs
end

/-- The declarations of a sheet. -/
def said (s : Sheet) : List Said := saidInAll [] none (s.map ScopeContent.toRBC)

/-- What a selector in a style for a class should weigh: the current element weighs as much as
the class, and stands in front if it is not mentioned. In a style for the whole page, `&`
weighs as much as the root. -/
def weightFor (w : Str → Weight) (cls : Option Str) (s : Str) : Option Weight :=
  (readSelector s).map fun r =>
    match cls with
    | some c =>
      if mentionsCurrent s then weigh (fun x => if isCurrent x then w ('.' :: c) else w x) r
      else w ('.' :: c) + weigh w r
    | none => weigh (fun x => if x = c! "&" then w (c! ":root") else w x) r

/-- What a selector should match, in a style for a class or for the whole page. -/
def Doc.MeansFor (D : Doc El) (cls : Option Str) (s : Str) (e : El) : Prop :=
  match cls with
  | some c => D.Means c s e
  | none => D.withRoot.Matches s e

/-- A declaration of a style should apply to an element, with this weight. A loose one is for
the elements of the class, or for the root. -/
def Setting.Should (S : Setting El) (cls : Option Str) (e : El) (x : Said) (n : Weight) : Prop :=
  (∀ r ∈ x.rules, ¬ c! "keyframes" <:+: r ∧ S.holds r) ∧ ∃ sels, x.selectors = some sels ∧
    Highest (fun m =>
      if sels = [] then S.doc.meets e (current cls) ∧ m = S.weight (current cls)
      else ∃ s ∈ sels, S.doc.MeansFor cls s.flatten e ∧ weightFor S.weight cls s.flatten = some m) n

/-- Declarations of styles, each with the class of its style: number `i` should decide about
the property `k` of the element `e`. -/
def Setting.ShouldWin (S : Setting El) (xs : List (Option Str × Said)) (e : El) (k : Str) (i : Nat) : Prop :=
  Winner (fun x => x.2.key) (fun x => S.important x.2.value) (fun x n => S.Should x.1 e x.2 n) xs k i

/-- The selectors for which C70 and C75 say what they mean. -/
def SelectorFor (cls : Option Str) (s : Str) : Prop :=
  match cls with
  | some _ => PlainSelector s
  | none => GlobalSelector s

instance (cls : Option Str) : DecidablePred (SelectorFor cls) := fun s => by
  unfold SelectorFor
  cases cls <;> infer_instance

end Spec

namespace Manager

open Spec

/-- The class of a style, unless it is for the whole page. -/
def Content.cls (c : Content) : Option Str := if c.key.isGlobal then none else some c.id

/-- What a style says. -/
def Content.said (c : Content) : List (Option Str × Said) := (Spec.said c.key.ast).map (fun x => (c.cls, x))

end Manager
