import Verif.Spec.Browser

/-!
# What a selector means

Selectors are read as css does (Selectors Level 4, without column combinators; a namespace is
part of a simple selector): simple selectors, compounds of them, combinators and lists. What a simple
selector such as `p`, `.a`, `:hover` or `:not(.b)` means for an element is left open
(`Doc.meets`). Nothing in this file mentions how stylist prints selectors.
-/

namespace Spec

/-- A document: elements with their parents and previous siblings, and the simple selectors
that each element meets. -/
structure Doc (El : Type) where
  parent : El → Option El
  previous : El → Option El
  meets : El → Str → Prop

variable {El : Type}

/-- `Below a e`: the element `e` is somewhere below `a`. -/
inductive Doc.Below (D : Doc El) : El → El → Prop where
  | child {a e} : D.parent e = some a → D.Below a e
  | deeper {a b e} : D.Below a b → D.parent e = some b → D.Below a e

/-- `After a e`: `e` is a later sibling of `a`. -/
inductive Doc.After (D : Doc El) : El → El → Prop where
  | next {a e} : D.previous e = some a → D.After a e
  | later {a b e} : D.After a b → D.previous e = some b → D.After a e

/-- The combinators: white space, `>`, `+` and `~`. -/
inductive Comb where
  | below
  | child
  | next
  | after
deriving DecidableEq, Repr

/-- What the combinators mean. -/
def Doc.rel (D : Doc El) : Comb → El → El → Prop
  | .below, a, e => D.Below a e
  | .child, a, e => D.parent e = some a
  | .next, a, e => D.previous e = some a
  | .after, a, e => D.After a e

/-! ## Reading selectors -/

/-- White space in css. -/
def cssSpace (c : Char) : Bool := c = ' ' ∨ c = '\n' ∨ c = '\t' ∨ c = '\r' ∨ c = '\x0c'

/-- The combinator of a character. -/
def combOf (c : Char) : Option Comb :=
  if c = '>' then some .child else if c = '+' then some .next else if c = '~' then some .after else none

/-- Characters that begin a simple selector. -/
def opensSimple (c : Char) : Bool := c = '.' ∨ c = '#' ∨ c = ':' ∨ c = '[' ∨ c = '*'

/-- What a selector is made of. -/
inductive SelPiece where
  | simple (s : Str)
  | space
  | mark (c : Comb)
deriving DecidableEq, Repr

/-- A simple selector that has been read, if any. -/
def flush (acc : Str) (ps : List SelPiece) : List SelPiece := if acc = [] then ps else .simple acc :: ps

/-- Split a selector. Inside of strings and brackets and after a backslash every character
belongs to the simple selector. `&` is one on its own. `none`: something is not closed, or
there is a comma, so that this is a list of selectors. -/
def pieces : Str → At → Str → Option (List SelPiece)
  | acc, q, [] => if q = .out 0 then some (flush acc []) else none
  | acc, q, c :: s =>
    if q = .out 0 ∧ cssSpace c = true then (pieces [] q s).map (fun ps => flush acc (.space :: ps))
    else if q = .out 0 ∧ c = ',' then none
    else if q = .out 0 ∧ c = '&' then (pieces [] q s).map (fun ps => flush acc (.simple ['&'] :: ps))
    else
      match (if q = .out 0 then combOf c else none) with
      | some k => (pieces [] q s).map (fun ps => flush acc (.mark k :: ps))
      | none =>
        match q.next c with
        | none => none
        | some q' =>
          if q = .out 0 ∧ opensSimple c = true ∧ ¬ (c = ':' ∧ acc = [':']) then
            (pieces [c] q' s).map (fun ps => flush acc ps)
          else pieces (acc ++ [c]) q' s

/-- A step from the left to the right of a selector. -/
inductive Step where
  | simple (s : Str)
  | comb (c : Comb)
deriving DecidableEq, Repr

/-- What was seen since the last simple selector. -/
inductive Gap where
  | start
  | nothing
  | space
  | mark (c : Comb)
deriving DecidableEq, Repr

/-- The steps of a selector: white space is a combinator between simple selectors, and
nothing at the ends or around other combinators. There may be a combinator in front, but
not at the end, nor two of them in a row. -/
def steps : Gap → List SelPiece → Option (List Step)
  | .mark _, [] => none
  | _, [] => some []
  | .mark k, .space :: ps => steps (.mark k) ps
  | .start, .space :: ps => steps .start ps
  | _, .space :: ps => steps .space ps
  | .mark _, .mark _ :: _ => none
  | _, .mark k :: ps => steps (.mark k) ps
  | .mark k, .simple s :: ps => (steps .nothing ps).map (fun r => .comb k :: .simple s :: r)
  | .space, .simple s :: ps => (steps .nothing ps).map (fun r => .comb .below :: .simple s :: r)
  | _, .simple s :: ps => (steps .nothing ps).map (fun r => .simple s :: r)

/-- Read a selector. -/
def readSelector (s : Str) : Option (List Step) := (pieces [] (.out 0) s).bind (steps .start)

/-! ## What they mean -/

/-- The elements that are reached by steps from the elements `P`. -/
def Doc.reach (D : Doc El) : List Step → (El → Prop) → El → Prop
  | [], P => P
  | .simple s :: r, P => D.reach r (fun e => P e ∧ D.meets e s)
  | .comb k :: r, P => D.reach r (fun e => ∃ a, P a ∧ D.rel k a e)

/-- The selector `s` matches `e`. It must begin with a simple selector. -/
def Doc.Matches (D : Doc El) (s : Str) (e : El) : Prop :=
  ∃ first r, readSelector s = some (.simple first :: r) ∧ D.reach (.simple first :: r) (fun _ => True) e

/-- The selector `s`, written inside of a rule for the element `a`, matches `e`: it is about
the elements below `a`, unless it begins with a combinator, or with a pseudo-class, which is
then one of `a` itself. -/
def Doc.MatchesFrom (D : Doc El) (a : El) (s : Str) (e : El) : Prop :=
  ∃ r, readSelector s = some r ∧ r ≠ [] ∧
    match r with
    | .simple (':' :: _) :: _ => D.reach r (fun x => x = a) e
    | .simple _ :: _ => D.reach (.comb .below :: r) (fun x => x = a) e
    | _ => D.reach r (fun x => x = a) e

/-- A simple selector for the current element. -/
def isCurrent (s : Str) : Bool := s = c! "&" ∨ s = c! ":root"

/-- The document, `&` and `:root` being the simple selectors for the elements of a class. -/
def Doc.withCurrent (D : Doc El) (cls : Str) : Doc El :=
  { D with meets := fun e s => if isCurrent s then D.meets e ('.' :: cls) else D.meets e s }

/-- The selector has a simple selector for the current element. -/
def mentionsCurrent (s : Str) : Bool :=
  match pieces [] (.out 0) s with
  | some ps => ps.any (fun | .simple x => isCurrent x | _ => false)
  | none => false

/-- What a selector in a style for the class `cls` should mean: if it has `&` or `:root`,
these stand for the elements of the class, otherwise it is written inside of a rule for
each element of the class. -/
def Doc.Means (D : Doc El) (cls s : Str) (e : El) : Prop :=
  if mentionsCurrent s then (D.withCurrent cls).Matches s e
  else ∃ a, D.meets a ('.' :: cls) ∧ D.MatchesFrom a s e

/-- `&` and `:root` occur as simple selectors of their own only: not in strings or brackets,
not as a part of another name, and `&` not right in front of a name. -/
def currentOk : List SelPiece → Bool
  | [] => true
  | .simple x :: ps =>
    (isCurrent x || decide ('&' ∉ x ∧ ¬ c! ":root" <:+: x)) &&
    (!(x == ['&']) || (match ps with
      | .simple (c :: _) :: _ => opensSimple c || c == '&'
      | _ => true)) &&
    currentOk ps
  | _ :: ps => currentOk ps

/-- A selector that can be read and in which `&` and `:root` are used in this way. -/
def SelectorOk (s : Str) : Prop := ∃ ps, pieces [] (.out 0) s = some ps ∧ currentOk ps = true

/-- Such a selector, without white space and `@` in front. -/
def PlainSelector (s : Str) : Prop := s ≠ [] ∧ (∀ c ∈ s.head?, cssSpace c = false ∧ c ≠ '@') ∧ SelectorOk s

/-- The document, `&` being a simple selector for its root. -/
def Doc.withRoot (D : Doc El) : Doc El :=
  { D with meets := fun e s => if s = c! "&" then D.meets e (c! ":root") else D.meets e s }

/-- `&` occurs as a simple selector of its own only: not in strings or brackets, not right
in front of a name, and not right after a colon that nothing follows. -/
def ampOk : List SelPiece → Bool
  | [] => true
  | .simple x :: ps =>
    (x == ['&'] || (decide ('&' ∉ x) && x != [':'])) &&
    (!(x == ['&']) || (match ps with
      | .simple (c :: _) :: _ => opensSimple c || c == '&'
      | _ => true)) &&
    ampOk ps
  | _ :: ps => ampOk ps

/-- A selector that can be read and in which `&` is used in this way, without white space and
`@` in front. -/
def GlobalSelector (s : Str) : Prop :=
  s ≠ [] ∧ (∀ c ∈ s.head?, cssSpace c = false ∧ c ≠ '@') ∧ ∃ ps, pieces [] (.out 0) s = some ps ∧ ampOk ps = true

instance (s : Str) : Decidable (GlobalSelector s) :=
  decidable_of_iff (s ≠ [] ∧ (∀ c ∈ s.head?, cssSpace c = false ∧ c ≠ '@') ∧ (pieces [] (.out 0) s).any ampOk = true) (by
    unfold GlobalSelector
    cases pieces [] (.out 0) s <;> simp)

instance (s : Str) : Decidable (SelectorOk s) :=
  decidable_of_iff ((pieces [] (.out 0) s).any currentOk = true) (by
    unfold SelectorOk
    cases pieces [] (.out 0) s <;> simp)

instance (s : Str) : Decidable (PlainSelector s) := by unfold PlainSelector; infer_instance

/-! ## Style sheets -/

/-- The selectors of a list, separated by commas outside of strings and brackets. -/
def selectorList : Str → At → Str → List Str
  | acc, _, [] => [acc]
  | acc, q, c :: s =>
    if q = .out 0 ∧ c = ',' then acc :: selectorList [] q s
    else
      match q.next c with
      | some q' => selectorList (acc ++ [c]) q' s
      | none => [acc ++ c :: s]

/-- A declaration applies to an element (if its other conditions are met): it is in a block
with a selector that matches, and not in `@keyframes`. -/
def Doc.Applies (D : Doc El) (d : Decl) (e : El) : Prop :=
  ∃ rules sel, d.path = rules ++ [sel] ∧ sel.head? ≠ some '@' ∧ (∀ r ∈ rules, ¬ c! "keyframes" <:+: r) ∧
    ∃ s ∈ selectorList [] (.out 0) sel, D.Matches s e

/-- The element has the class or is somewhere below an element that has it. -/
def Doc.Inside (D : Doc El) (cls : Str) (e : El) : Prop := ∃ a, D.meets a ('.' :: cls) ∧ (e = a ∨ D.Below a e)

/-- Steps that stay at an element or go down. -/
def inward : Step → Bool
  | .comb .next | .comb .after => false
  | _ => true

/-- From one of the mentions of the current element on, all steps go down. -/
def inwardFromCurrent : List Step → Bool
  | [] => false
  | .simple x :: r => (isCurrent x && r.all inward) || inwardFromCurrent r
  | _ :: r => inwardFromCurrent r

/-- The selector does not go to siblings of the current element. -/
def staysInside (s : Str) : Bool :=
  match readSelector s with
  | some r => if mentionsCurrent s then inwardFromCurrent r else r.all inward
  | none => false

mutual
/-- All selectors of a part of a sheet have the property `P`, and at-rules begin with `@`,
apart from the frames of `@keyframes`. -/
def SelectorsIn (P : Str → Prop) : RBC → Prop
  | .attr _ _ => True
  | .rule c b => c.flatten.head? = some '@' ∧ (c! "keyframes" <:+: c.flatten ∨ SelectorsInAll P b)
  | .block c b => (∀ s ∈ c, P s.flatten) ∧ SelectorsInAll P b
/-- The same for a list of parts. -/
def SelectorsInAll (P : Str → Prop) : List RBC → Prop
  | [] => True
  | x :: xs => SelectorsIn P x ∧ SelectorsInAll P xs
end

/-- The same for a sheet. -/
def SelectorsOf (P : Str → Prop) (s : Sheet) : Prop := SelectorsInAll P (s.map ScopeContent.toRBC)

mutual
instance decSelectorsIn (P : Str → Prop) [DecidablePred P] : (x : RBC) → Decidable (SelectorsIn P x)
  | .attr _ _ => isTrue trivial
  | .rule c b =>
    have := decSelectorsInAll P b
    inferInstanceAs (Decidable (c.flatten.head? = some '@' ∧ (c! "keyframes" <:+: c.flatten ∨ SelectorsInAll P b)))
  | .block c b =>
    have := decSelectorsInAll P b
    inferInstanceAs (Decidable ((∀ s ∈ c, P s.flatten) ∧ SelectorsInAll P b))
instance decSelectorsInAll (P : Str → Prop) [DecidablePred P] : (xs : List RBC) → Decidable (SelectorsInAll P xs)
  | [] => isTrue trivial
  | x :: xs =>
    have := decSelectorsIn P x
    have := decSelectorsInAll P xs
    inferInstanceAs (Decidable (SelectorsIn P x ∧ SelectorsInAll P xs))
end

instance (P : Str → Prop) [DecidablePred P] (s : Sheet) : Decidable (SelectorsOf P s) := by
  unfold SelectorsOf; infer_instance

end Spec
