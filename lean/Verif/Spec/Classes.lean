import Verif.Spec.Select
import Verif.Model.Dom

/-!
# What a browser makes of a class attribute
-/

namespace Spec

/-- `x` is one of the words of the text, with `space` telling what separates words: it stands
there between white space, or the beginning or the end. -/
def WordOf (space : Char → Bool) (text x : Str) : Prop :=
  x ≠ [] ∧ (∀ c ∈ x, space c = false) ∧ ∃ l r, text = l ++ x ++ r ∧
    (∀ c, l.getLast? = some c → space c = true) ∧ (∀ c, r.head? = some c → space c = true)

/-- The attribute has the class `x` (HTML, "split on ASCII whitespace"). -/
def HasClass (attr x : Str) : Prop := WordOf cssSpace attr x

/-- A document in which the selector `.x` is met by the elements that have the class `x`
(Selectors 4, §6.6), where `attr` gives the class attributes. -/
def ReadsClasses {El : Type} (D : Doc El) (attr : El → Str) : Prop :=
  ∀ e x, cssIdent x = true → (D.meets e ('.' :: x) ↔ HasClass (attr e) x)

/-- No white space. -/
def NoSpace (x : Str) : Prop := ∀ c ∈ x, Str.isWhitespace c = false

instance (x : Str) : Decidable (NoSpace x) := by unfold NoSpace; infer_instance

end Spec
