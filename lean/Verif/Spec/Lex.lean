import Verif.Model.Ast

/-!
# Lexical specification of css texts

Which texts are blanks, identifiers, strings and plain values, stated as grammars.
-/

namespace Spec

/-- White space and closed comments. -/
inductive Blank : Str → Prop
  | nil : Blank []
  | ws (c : Char) (w : Str) : c ∈ (c! " \t\r\n") → Blank w → Blank (c :: w)
  | comment (body w : Str) : ¬ (c! "*/") <:+: body → Blank w →
      Blank (c! "/*" ++ body ++ c! "*/" ++ w)

/-- ASCII letters. -/
def isLetter (c : Char) : Bool := ('a' ≤ c && c ≤ 'z') || ('A' ≤ c && c ≤ 'Z')

/-- Characters of identifiers: letters, digits, `-`, `_` and everything beyond ASCII. -/
def isIdentChar (c : Char) : Bool :=
  isLetter c || ('0' ≤ c && c ≤ '9') || c == '-' || c == '_' || decide (128 ≤ c.val.toNat)

/-- Identifiers: one or more of these characters, the first one not a digit. -/
def Ident : Str → Prop
  | [] => False
  | c :: t => isIdentChar c = true ∧ ¬ ('0' ≤ c ∧ c ≤ '9') ∧ ∀ d ∈ t, isIdentChar d = true

instance (s : Str) : Decidable (Ident s) := by
  cases s <;> unfold Ident <;> infer_instance

/-- The inside of a double-quoted string: backslash escapes the next character. -/
inductive StrBody : Str → Prop
  | nil : StrBody []
  | char (c : Char) (s : Str) : c ≠ '\\' → c ≠ '"' → StrBody s → StrBody (c :: s)
  | esc (c : Char) (s : Str) : StrBody s → StrBody ('\\' :: c :: s)

/-- Value texts: plain characters, double-quoted strings, and `/` when it does not
start a comment. -/
inductive ValueText : Str → Prop
  | nil : ValueText []
  | char (c : Char) (s : Str) : c ∉ (c! "${;}/\"") → ValueText s → ValueText (c :: s)
  | str (body s : Str) : StrBody body → ValueText s → ValueText ('"' :: body ++ '"' :: s)
  | slash (c : Char) (s : Str) : c ∉ (c! "${;}\"*") → ValueText s → ValueText ('/' :: c :: s)

end Spec

namespace Spec

/-! ## Shape of parsed sheets -/

/-- A declaration: an identifier without surrounding white space (there are white space
characters beyond ASCII) as key, and one trimmed value. -/
def AttrShape (key : Str) (value : List Str) : Prop :=
  (∃ k, Ident k ∧ key = Str.trim k) ∧ ∃ v, value = [v] ∧ Str.trim v = v

/-- The condition of an at-rule: one of the names, a space, and a trimmed text. -/
def AtShape (names : List Str) (cond : List Str) : Prop :=
  ∃ n ∈ names, ∃ t, cond = [n ++ c! " ", t] ∧ Str.trim t = t

/-- The contents of blocks and frames: declarations and conditional at-rules, never
blocks. -/
inductive Item : RBC → Prop
  | attr (k : Str) (v : List Str) : AttrShape k v → Item (.attr k v)
  | rule (cond : List Str) (content : List RBC) :
      AtShape [c! "@media", c! "@supports", c! "@container"] cond →
      (∀ x ∈ content, Item x) → Item (.rule cond content)

/-- The contents of a sheet or of an at-rule at the top. -/
inductive ScopeItem : RBC → Prop
  | dangling (content : List RBC) : content ≠ [] →
      (∀ x ∈ content, ∃ k v, x = .attr k v ∧ AttrShape k v) → ScopeItem (.block [] content)
  | block (sels : List Selector) (content : List RBC) : sels ≠ [] →
      (∀ s ∈ sels, ∃ t, s = [t] ∧ Str.trim t = t) →
      (∀ x ∈ content, Item x) → ScopeItem (.block sels content)
  | rule (cond : List Str) (content : List RBC) :
      AtShape [c! "@media", c! "@supports", c! "@container"] cond →
      (∀ x ∈ content, ScopeItem x) → ScopeItem (.rule cond content)
  | keyframes (cond : List Str) (frames : List RBC) :
      AtShape [c! "@keyframes"] cond →
      (∀ x ∈ frames, ∃ t content, x = .rule [t] content ∧ Str.trim t = t ∧ ∀ y ∈ content, Item y) →
      ScopeItem (.rule cond frames)

end Spec

namespace Spec

/-! ## Declarations as written -/

/-- The parts of a declaration as it is written in a text. -/
structure DeclSrc where
  before : Str
  key : Str
  afterKey : Str
  beforeValue : Str
  value : Str
  after : Str

/-- Blanks around an identifier key and a plain value. After a value that ends in a string
there may be white space but no comment: the parser takes it for a part of the value. -/
def DeclSrc.Ok (d : DeclSrc) : Prop :=
  Blank d.before ∧ Ident d.key ∧ Str.trim d.key = d.key ∧ Blank d.afterKey ∧
  Blank d.beforeValue ∧ ValueText d.value ∧ d.value ≠ [] ∧ Str.trim d.value = d.value ∧
  Blank d.after ∧ (d.value.getLast? = some '"' → ∀ c ∈ d.after, c ∈ (c! " \t\r\n"))

/-- The text of a declaration without a semicolon. -/
def DeclSrc.bare (d : DeclSrc) : Str :=
  d.before ++ d.key ++ d.afterKey ++ c! ":" ++ d.beforeValue ++ d.value ++ d.after

/-- The text of a declaration with its semicolon. -/
def DeclSrc.text (d : DeclSrc) : Str := d.bare ++ c! ";"

end Spec
