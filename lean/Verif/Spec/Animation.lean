import Verif.Spec.Page

/-!
# Animations

The frames of an animation are given by a `@keyframes` at-rule and are looked up by the name
of the animation, which belongs to the whole document: CSS Animations Level 1, section 3. If
several at-rules have the name, the last one is used and the others are ignored.
-/

namespace Spec

/-- The lines of a style sheet as a browser finds them: `readCss` without the headers that
are open. -/
def cssTokens : Str → At → Str → Option (List Ev)
  | acc, q, [] => if q = .out 0 ∧ Str.trim acc = [] then some [] else none
  | acc, .opening n, _ :: s => cssTokens acc (.comment n) s
  | acc, .comment n, c :: s =>
    cssTokens acc (if c = '*' ∧ s.head? = some '/' then .closing n else .comment n) s
  | acc, .closing n, _ :: s => cssTokens acc (.out n) s
  | acc, q, c :: s =>
    if q = .out 0 ∧ c = '{' then (cssTokens [] (.out 0) s).map (.opn (Str.trim acc) :: ·)
    else if q = .out 0 ∧ c = '}' then
      if Str.trim acc = [] then (cssTokens [] (.out 0) s).map (.cls :: ·) else none
    else if q = .out 0 ∧ c = ';' then
      match splitColon acc with
      | none => none
      | some (k, v) => (cssTokens [] (.out 0) s).map (.decl (Str.trim k) (Str.trim v) :: ·)
    else if q.isOut = true ∧ c = '/' ∧ s.head? = some '*' then cssTokens acc (.opening q.brackets) s
    else
      match q.next c with
      | none => none
      | some q' => cssTokens (acc ++ [c]) q' s

/-- The header of a `@keyframes` at-rule. -/
def isKeyframes (h : Str) : Prop := c! "@keyframes" <+: h

instance (h : Str) : Decidable (isKeyframes h) := by unfold isKeyframes; infer_instance

/-- A `@keyframes` at-rule: the conditions around it, its header and its declarations, each
with the headers it is under inside the at-rule. -/
structure Animation where
  rules : List Str
  header : Str
  frames : List Decl
deriving DecidableEq, Repr

/-- The name of an animation: what follows `@keyframes`. -/
def Animation.name (a : Animation) : Str := Str.trim (a.header.drop 10)

/-- Read the animations off the lines of a style sheet. `st` are the open headers. While an
animation is read, `a` holds the number of headers down to its own and its declarations so
far. -/
def readAnims : List Str → Option (Nat × List Decl) → List Ev →
    Option (List Animation × List Str × Option (Nat × List Decl))
  | st, a, [] => some ([], st, a)
  | st, a, .opn h :: es =>
    readAnims (st ++ [h]) (if a = none ∧ isKeyframes h then some (st.length + 1, []) else a) es
  | st, a, .cls :: es =>
    if st = [] then none
    else
      match a with
      | none => readAnims st.dropLast none es
      | some (n, ds) =>
        if st.length = n then
          match readAnims st.dropLast none es with
          | none => none
          | some (as, r) => some (⟨st.take (n - 1), st.getLast?.getD [], ds⟩ :: as, r)
        else readAnims st.dropLast (some (n, ds)) es
  | st, a, .decl k v :: es =>
    readAnims st (a.map (fun (n, ds) => (n, ds ++ [⟨st.drop n, k, v⟩]))) es

/-- The animations of a style sheet as a browser reads it, in their order. -/
def browserAnimations (css : Str) : Option (List Animation) :=
  match cssTokens [] (.out 0) css with
  | none => none
  | some evs =>
    match readAnims [] none evs with
    | some (as, [], none) => some as
    | _ => none

mutual
/-- The animations of a piece of a sheet that sits under the at-rules `rules`. -/
def animationsIn (sel : Str → Str) (cur : Str) (rules : List Str) : RBC → List Animation
  | .attr _ _ => []
  | .rule c b =>
    if isKeyframes c.flatten then [⟨rules, c.flatten, declsInAll sel cur [] none b⟩]
    else animationsInAll sel cur (rules ++ [c.flatten]) b
  | .block _ b => animationsInAll sel cur rules b
/-- The same for a list of pieces. -/
def animationsInAll (sel : Str → Str) (cur : Str) (rules : List Str) : List RBC → List Animation
  | [] => []
  | x :: xs => animationsIn sel cur rules x ++ animationsInAll sel cur rules xs
end

/-- The animations of a sheet rendered for class `cls` (or globally). -/
def animations (cls : Option Str) (s : Sheet) : List Animation :=
  animationsInAll (scopeSelector cls) (current cls) [] (s.map ScopeContent.toRBC)

mutual
/-- No `@keyframes` at-rule stands in a block, no selector begins with `@`. -/
def FramesIn (block : Bool) : RBC → Prop
  | .attr _ _ => True
  | .rule c b => if isKeyframes c.flatten then block = false else FramesAll block b
  | .block c b => (∀ s ∈ c, s.flatten.head? ≠ some '@') ∧ FramesAll true b
/-- The same for a list of pieces. -/
def FramesAll (block : Bool) : List RBC → Prop
  | [] => True
  | x :: xs => FramesIn block x ∧ FramesAll block xs
end

mutual
instance decFramesIn : (block : Bool) → (x : RBC) → Decidable (FramesIn block x)
  | _, .attr _ _ => isTrue trivial
  | block, .rule c b =>
    have := decFramesAll block b
    inferInstanceAs (Decidable (if isKeyframes c.flatten then block = false else FramesAll block b))
  | _, .block c b =>
    have := decFramesAll true b
    inferInstanceAs (Decidable ((∀ s ∈ c, s.flatten.head? ≠ some '@') ∧ FramesAll true b))
instance decFramesAll : (block : Bool) → (xs : List RBC) → Decidable (FramesAll block xs)
  | _, [] => isTrue trivial
  | block, x :: xs =>
    have := decFramesIn block x
    have := decFramesAll block xs
    inferInstanceAs (Decidable (FramesIn block x ∧ FramesAll block xs))
end

/-- The `@keyframes` at-rules of a sheet stand outside of blocks, and no selector begins
with `@`. -/
def FramesOutside (s : Sheet) : Prop := FramesAll false (s.map ScopeContent.toRBC)

instance (s : Sheet) : Decidable (FramesOutside s) := by unfold FramesOutside; infer_instance

/-- The at-rule that a browser uses for the animation `name`: the last of those with this
name whose conditions hold. -/
def usedFor (holds : Str → Bool) (name : Str) (as : List Animation) : Option Animation :=
  (as.filter (fun a => decide (a.name = name) && a.rules.all holds)).getLast?

end Spec

namespace Manager

open Spec

/-- The animations that a browser finds in the style elements among some nodes. -/
def pageAnimations : List Child → Option (List Animation)
  | [] => some []
  | .other _ :: cs => pageAnimations cs
  | .style _ text :: cs =>
    match browserAnimations text, pageAnimations cs with
    | some as, some bs => some (as ++ bs)
    | _, _ => none

/-- The animations of a style. -/
def Content.animations (c : Content) : List Animation :=
  Spec.animations (if c.key.isGlobal then none else some c.id) c.key.ast

end Manager

namespace Spec

mutual
/-- The texts of the selectors of a piece of a sheet. -/
def selectorTexts : RBC → List Str
  | .attr _ _ => []
  | .rule _ b => selectorTextsAll b
  | .block c b => c.map List.flatten ++ selectorTextsAll b
/-- The same for a list of pieces. -/
def selectorTextsAll : List RBC → List Str
  | [] => []
  | x :: xs => selectorTexts x ++ selectorTextsAll xs
end

end Spec
