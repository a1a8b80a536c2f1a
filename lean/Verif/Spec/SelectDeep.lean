import Verif.Spec.Select

/-!
# Selectors inside of selectors

Pseudo-classes such as `:not(…)`, `:is(…)` and `:has(…)` have a list of selectors in their brackets.
In `Spec/Select` they are simple selectors like any other. Here they mean what css says: it only
matters which elements the selectors in the brackets match. Nothing in this file mentions how
stylist prints selectors.
-/

namespace Spec

variable {El : Type}

/-- Functional pseudo-classes: `takes f`, if the argument of `f` is a list of selectors, and
`holds f P R e`, if `f(…)` is met by `e`. `P` are the elements that the list matches, and `R a` those
that it matches from the element `a`, if it is a list of relative selectors. -/
structure Funcs (El : Type) where
  takes : Str → Bool
  holds : Str → (El → Prop) → (El → El → Prop) → El → Prop

/-- `:is`, `:where`, `:not` and `:has`. -/
def Funcs.usual : Funcs El where
  takes := fun f => f == c! ":is" || f == c! ":where" || f == c! ":not" || f == c! ":has"
  holds := fun f P R e => if f = c! ":not" then ¬ P e else if f = c! ":has" then ∃ x, R e x else P e

/-- The relative selector `s` matches `e` from `a`: it is about the elements below `a`, unless it
begins with a combinator. -/
def Doc.MatchesRelative (D : Doc El) (a : El) (s : Str) (e : El) : Prop :=
  ∃ r, readSelector s = some r ∧ r ≠ [] ∧
    match r with
    | .simple _ :: _ => D.reach (.comb .below :: r) (fun x => x = a) e
    | _ => D.reach r (fun x => x = a) e

/-- A simple selector of the form `name(argument)`. -/
def asCall (x : Str) : Option (Str × Str) :=
  match x.dropWhile (fun c => c != '(') with
  | _ :: r => if r.getLast? = some ')' then some (x.takeWhile (fun c => c != '('), r.dropLast) else none
  | [] => none

/-- The document, functional pseudo-classes being read as such to the depth `n` of brackets
in brackets. -/
def Doc.deep (F : Funcs El) (D : Doc El) : Nat → Doc El
  | 0 => D
  | n + 1 =>
    let met : El → Str → Prop := fun e x =>
      match asCall x with
      | some (f, arg) =>
        if F.takes f = true then
          F.holds f (fun x => ∃ s ∈ selectorList [] (.out 0) arg, (D.deep F n).Matches s x)
            (fun a x => ∃ s ∈ selectorList [] (.out 0) arg, (D.deep F n).MatchesRelative a s x) e
        else D.meets e x
      | none => D.meets e x
    { D with meets := met }

/-- What a selector in a style for the class `cls` should mean: if it has `&` or `:root`,
these stand for the elements of the class, in brackets as well, otherwise it is written
inside of a rule for each element of the class. -/
def Doc.MeansDeep (F : Funcs El) (n : Nat) (D : Doc El) (cls s : Str) (e : El) : Prop :=
  if '&' ∈ s ∨ c! ":root" <:+: s then ((D.withCurrent cls).deep F n).Matches s e
  else ∃ a, D.meets a ('.' :: cls) ∧ (D.deep F n).MatchesFrom a s e

/-- `&` and `:root` occur as simple selectors of their own only, or in simple selectors with
the property `inner`; `&` does not occur right in front of a name. -/
def currentOkIn (inner : Str → Bool) : List SelPiece → Bool
  | [] => true
  | .simple x :: ps =>
    (isCurrent x || decide ('&' ∉ x ∧ ¬ c! ":root" <:+: x) || inner x) &&
    (!(x == ['&']) || (match ps with
      | .simple (c :: _) :: _ => opensSimple c || c == '&'
      | _ => true)) &&
    currentOkIn inner ps
  | _ :: ps => currentOkIn inner ps

/-- A pseudo-class with a list of selectors that can be read, in which `&` and `:root` are
used in this way, to the depth `n`. -/
def innerOk (takes : Str → Bool) : Nat → Str → Bool
  | 0, _ => false
  | n + 1, x =>
    match asCall x with
    | some (f, arg) =>
      takes f && decide ('&' ∉ f ∧ ¬ c! ":root" <:+: f) &&
        (selectorList [] (.out 0) arg).all (fun s => (pieces [] (.out 0) s).any (currentOkIn (innerOk takes n)))
    | none => false

/-- A selector, without white space and `@` in front, that can be read and in which `&` and
`:root` are used in this way. -/
def NestedSelector (takes : Str → Bool) (n : Nat) (s : Str) : Prop :=
  s ≠ [] ∧ (∀ c ∈ s.head?, cssSpace c = false ∧ c ≠ '@') ∧
    (pieces [] (.out 0) s).any (currentOkIn (innerOk takes n)) = true

instance (takes : Str → Bool) (n : Nat) (s : Str) : Decidable (NestedSelector takes n s) := by
  unfold NestedSelector; infer_instance

/-- The same for `&` only. -/
def ampOkIn (inner : Str → Bool) : List SelPiece → Bool
  | [] => true
  | .simple x :: ps =>
    (x == ['&'] || (decide ('&' ∉ x) && x != [':']) || inner x) &&
    (!(x == ['&']) || (match ps with
      | .simple (c :: _) :: _ => opensSimple c || c == '&'
      | _ => true)) &&
    ampOkIn inner ps
  | _ :: ps => ampOkIn inner ps

/-- The same for `&` only. -/
def innerAmpOk (takes : Str → Bool) : Nat → Str → Bool
  | 0, _ => false
  | n + 1, x =>
    match asCall x with
    | some (f, arg) =>
      takes f && decide ('&' ∉ f) &&
        (selectorList [] (.out 0) arg).all (fun s => (pieces [] (.out 0) s).any (ampOkIn (innerAmpOk takes n)))
    | none => false

/-- The same for `&` only. -/
def NestedGlobalSelector (takes : Str → Bool) (n : Nat) (s : Str) : Prop :=
  s ≠ [] ∧ (∀ c ∈ s.head?, cssSpace c = false ∧ c ≠ '@') ∧
    (pieces [] (.out 0) s).any (ampOkIn (innerAmpOk takes n)) = true

instance (takes : Str → Bool) (n : Nat) (s : Str) : Decidable (NestedGlobalSelector takes n s) := by
  unfold NestedGlobalSelector; infer_instance

end Spec
