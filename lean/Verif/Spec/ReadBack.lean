import Verif.Spec.Browser

/-!
# Declarations that are read back as they are written

A small extension of `Spec/Browser`: what one declaration with its headers needs.
-/

namespace Spec

/-- A declaration that is whole on its own: its headers are whole, and so is the line with
its key and its value. The key has no colon, there is no white space around key and value. -/
def WholeDecl (d : Decl) : Prop :=
  (∀ h ∈ d.path, Whole h) ∧ runText (.out 0) (d.key ++ c! ": " ++ d.value) = some (.out 0) ∧
    ':' ∉ d.key ∧ Str.trim d.key = d.key ∧ Str.trim d.value = d.value

instance (d : Decl) : Decidable (WholeDecl d) := by unfold WholeDecl; infer_instance

/-- A browser that reads a style sheet comes to a comment. -/
def findsComment : At → Str → Bool
  | _, [] => false
  | q, c :: s =>
    if q = .out 0 ∧ (c = '{' ∨ c = '}' ∨ c = ';') then findsComment (.out 0) s
    else if q.isOut = true ∧ c = '/' ∧ s.head? = some '*' then true
    else
      match q.next c with
      | none => false
      | some q' => findsComment q' s

/-- None of the texts of a declaration ends with a backslash. -/
def NoFinalBackslash (d : Decl) : Prop :=
  (∀ h ∈ d.path, h.getLast? ≠ some '\\') ∧ d.key.getLast? ≠ some '\\' ∧ d.value.getLast? ≠ some '\\'

instance (d : Decl) : Decidable (NoFinalBackslash d) := by unfold NoFinalBackslash; infer_instance

end Spec
