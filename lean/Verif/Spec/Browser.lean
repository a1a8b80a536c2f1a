import Verif.Spec.Css

/-!
# Reading a style sheet as a browser does

The lexical rules of CSS Syntax Level 3 that decide where declarations and blocks end:
comments, strings in single and double quotes, escapes, and brackets. Unquoted urls are not
special here. Nothing in this file mentions stylist.
-/

namespace Spec

/-- Where a reader of css is. -/
inductive At where
  /-- Outside of strings, with `n` brackets open. -/
  | out (n : Nat)
  /-- After a backslash outside of strings. -/
  | esc (n : Nat)
  /-- Inside a string in quotes `q`. -/
  | str (q : Char) (n : Nat)
  /-- After a backslash inside a string. -/
  | strEsc (q : Char) (n : Nat)
  /-- After the `/` of a `/*`. -/
  | opening (n : Nat)
  /-- Inside a comment. -/
  | comment (n : Nat)
  /-- After the `*` of a `*/`. -/
  | closing (n : Nat)
deriving DecidableEq, Repr

/-- Outside of strings and comments, and not after a backslash. -/
def At.isOut : At → Bool
  | .out _ => true
  | _ => false

/-- The number of open brackets. -/
def At.brackets : At → Nat
  | .out n | .esc n | .str _ n | .strEsc _ n | .opening n | .comment n | .closing n => n

/-- One character that is not part of a comment and does not end anything. `none`: an
error, that is a line break in a string, or a closing bracket without an opening one. -/
def At.next : At → Char → Option At
  | .out n, c =>
    if c = '"' ∨ c = '\'' then some (.str c n)
    else if c = '\\' then some (.esc n)
    else if c = '(' ∨ c = '[' then some (.out (n + 1))
    else if c = ')' ∨ c = ']' then if n = 0 then none else some (.out (n - 1))
    else some (.out n)
  | .esc n, c => if c = '\n' then none else some (.out n)
  | .str q n, c =>
    if c = q then some (.out n)
    else if c = '\\' then some (.strEsc q n)
    else if c = '\n' then none
    else some (.str q n)
  | .strEsc q n, _ => some (.str q n)
  | _, _ => none

/-- Read a style sheet: text up to `{` is a header, text up to `;` is a declaration, `}`
closes a header, unless these characters are in a string, a comment or brackets, or
escaped. `acc` is the text since the last of them without comments, `st` the open
headers. The result is the list of declarations with the headers they are under, and the
headers open at the end. -/
def readCss : List Str → Str → At → Str → Option (List Decl × List Str)
  | st, acc, q, [] => if q = .out 0 ∧ Str.trim acc = [] then some ([], st) else none
  | st, acc, .opening n, _ :: s => readCss st acc (.comment n) s
  | st, acc, .comment n, c :: s =>
    readCss st acc (if c = '*' ∧ s.head? = some '/' then .closing n else .comment n) s
  | st, acc, .closing n, _ :: s => readCss st acc (.out n) s
  | st, acc, q, c :: s =>
    if q = .out 0 ∧ c = '{' then readCss (st ++ [Str.trim acc]) [] (.out 0) s
    else if q = .out 0 ∧ c = '}' then
      if Str.trim acc = [] ∧ st ≠ [] then readCss st.dropLast [] (.out 0) s else none
    else if q = .out 0 ∧ c = ';' then
      match splitColon acc with
      | none => none
      | some (k, v) =>
        match readCss st [] (.out 0) s with
        | none => none
        | some (ds, st') => some (⟨st, Str.trim k, Str.trim v⟩ :: ds, st')
    else if q.isOut = true ∧ c = '/' ∧ s.head? = some '*' then readCss st acc (.opening q.brackets) s
    else
      match q.next c with
      | none => none
      | some q' => readCss st (acc ++ [c]) q' s

/-- The declarations of a style sheet as a browser reads it, each with the headers it is
under. `none` if something is not closed or a declaration has no colon. -/
def browserReads (css : Str) : Option (List Decl) :=
  match readCss [] [] (.out 0) css with
  | some (ds, []) => some ds
  | _ => none

/-- Go over a text in which nothing ends and no comment begins. -/
def runText : At → Str → Option At
  | q, [] => some q
  | q, c :: s =>
    if q = .out 0 ∧ (c = '{' ∨ c = '}' ∨ c = ';') then none
    else if q.isOut = true ∧ c = '/' ∧ s.head? = some '*' then none
    else
      match q.next c with
      | none => none
      | some q' => runText q' s

/-- A text that is whole on its own: its strings and brackets are closed, it contains no
comment, braces and semicolons occur in strings and brackets only, and there is no white
space at its ends. -/
def Whole (s : Str) : Prop := runText (.out 0) s = some (.out 0) ∧ Str.trim s = s

mutual
/-- All texts of a part of a sheet are whole: conditions, selectors, keys and values.
Selectors are not empty and keys have no colon. -/
def WholeIn : RBC → Prop
  | .attr k v => (Whole k ∧ ':' ∉ k) ∧ Whole v.flatten
  | .rule c b => Whole c.flatten ∧ WholeAll b
  | .block c b => (∀ s ∈ c, Whole s.flatten ∧ s.flatten ≠ []) ∧ WholeAll b
/-- The same for a list of parts. -/
def WholeAll : List RBC → Prop
  | [] => True
  | x :: xs => WholeIn x ∧ WholeAll xs
end

instance (s : Str) : Decidable (Whole s) := by unfold Whole; infer_instance

mutual
instance decWholeIn : (x : RBC) → Decidable (WholeIn x)
  | .attr k v => inferInstanceAs (Decidable ((Whole k ∧ ':' ∉ k) ∧ Whole v.flatten))
  | .rule c b =>
    have := decWholeAll b
    inferInstanceAs (Decidable (Whole c.flatten ∧ WholeAll b))
  | .block c b =>
    have := decWholeAll b
    inferInstanceAs (Decidable ((∀ s ∈ c, Whole s.flatten ∧ s.flatten ≠ []) ∧ WholeAll b))
instance decWholeAll : (xs : List RBC) → Decidable (WholeAll xs)
  | [] => isTrue trivial
  | x :: xs =>
    have := decWholeIn x
    have := decWholeAll xs
    inferInstanceAs (Decidable (WholeIn x ∧ WholeAll xs))
end

/-- All texts of a sheet are whole. -/
def WholeSheet (s : Sheet) : Prop := WholeAll (s.map ScopeContent.toRBC)

instance (s : Sheet) : Decidable (WholeSheet s) := by unfold WholeSheet; infer_instance

end Spec
