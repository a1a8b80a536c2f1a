import Verif.Spec.Lex
import Verif.Spec.Css

/-!
# Lexically clean sheets

The sheets for which printing and parsing are inverse to each other (C15).
-/

namespace Spec

/-- Inside or outside of a double-quoted string. -/
inductive Lex where
  | out
  | inStr
  | esc
deriving DecidableEq, Repr

/-- Read a text outside of strings, refusing the characters `bad`; inside strings
every character is allowed and a backslash escapes the next one. -/
def lexRun (bad : Str) : Lex → Str → Option Lex
  | q, [] => some q
  | .out, c :: s =>
    if c = '"' then lexRun bad .inStr s
    else if c ∈ bad then none
    else lexRun bad .out s
  | .inStr, c :: s =>
    if c = '"' then lexRun bad .out s
    else if c = '\\' then lexRun bad .esc s
    else lexRun bad .inStr s
  | .esc, _ :: s => lexRun bad .inStr s

/-- Selector texts: no `$ , { } ; @ /` outside of double-quoted strings, and strings
are closed. -/
def SelText (s : Str) : Prop := lexRun (c! "$,{};@/") .out s = some .out

instance (s : Str) : Decidable (SelText s) := by unfold SelText; infer_instance

/-- Not only blanks. -/
def NonBlank (s : Str) : Prop := ∃ c ∈ s, c ∉ (c! " \t\r\n")

instance (s : Str) : Decidable (NonBlank s) := by unfold NonBlank; infer_instance

/-- A single selector: a selector text that is not empty and has no surrounding white
space. -/
def CleanSel (s : Str) : Prop := SelText s ∧ s ≠ [] ∧ Str.trim s = s

/-- The condition of an at-rule: its name, a space, and a text without surrounding
white space, `$` and `{`. -/
def CleanAt (names : List Str) (t : Str) : Prop :=
  ∃ n ∈ names, ∃ r, t = n ++ c! " " ++ r ∧ Str.trim r = r ∧ '$' ∉ r ∧ '{' ∉ r

/-- The conditional at-rules. -/
def conditionalNames : List Str := [c! "@media", c! "@supports", c! "@container"]

/-- The steps of a frame: selector texts separated by commas. -/
def CleanFrame (t : Str) : Prop :=
  ∃ ps : List Str, ps ≠ [] ∧ (∀ p ∈ ps, SelText p ∧ NonBlank p) ∧ t = Str.join (c! ",") ps ∧
    Str.trim t = t

/-- A declaration: an identifier and a value text, both without surrounding white
space. -/
def CleanDecl (k v : Str) : Prop :=
  Ident k ∧ Str.trim k = k ∧ ValueText v ∧ v ≠ [] ∧ Str.trim v = v

/-- What may stand inside a block: declarations, and conditional at-rules around them. -/
inductive CleanItem : RBC → Prop
  | attr (k : Str) (v : List Str) : CleanDecl k v.flatten → CleanItem (.attr k v)
  | rule (cond : List Str) (content : List RBC) : CleanAt conditionalNames cond.flatten →
      (∀ x ∈ content, CleanItem x) → CleanItem (.rule cond content)

/-- A frame of a `@keyframes`: declarations only. -/
def CleanFrameRule (x : RBC) : Prop :=
  ∃ cond content, x = .rule cond content ∧ CleanFrame cond.flatten ∧
    ∀ y ∈ content, ∃ k v, y = .attr k v ∧ CleanDecl k v.flatten

/-- What may stand in a sheet: blocks (also without a selector), conditional at-rules
around them, and `@keyframes` with at least one declaration. -/
inductive CleanScope : RBC → Prop
  | block (sels : List Selector) (content : List RBC) : (∀ s ∈ sels, CleanSel s.flatten) →
      (∀ x ∈ content, CleanItem x) → CleanScope (.block sels content)
  | rule (cond : List Str) (content : List RBC) : CleanAt conditionalNames cond.flatten →
      (∀ x ∈ content, CleanScope x) → CleanScope (.rule cond content)
  | keyframes (cond : List Str) (frames : List RBC) : CleanAt [c! "@keyframes"] cond.flatten →
      (∀ x ∈ frames, CleanFrameRule x) →
      (∃ fc k v rest, .rule fc (.attr k v :: rest) ∈ frames) → CleanScope (.rule cond frames)

/-- Clean sheets. -/
def CleanSheet (s : Sheet) : Prop := ∀ x ∈ s, CleanScope x.toRBC

/-- Class names: one or more identifier characters that are not white space. -/
def CleanClass (c : Str) : Prop :=
  c ≠ [] ∧ ∀ d ∈ c, isIdentChar d = true ∧ Str.isWhitespace d = false

instance (c : Str) : Decidable (CleanClass c) := by unfold CleanClass; infer_instance

end Spec
