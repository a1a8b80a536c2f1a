import Verif.Model.Writer
import Verif.Spec.Html

/-!
# Words used for writers that fail, and for pages that end early
-/

namespace Manager

/-- A writer that keeps what it is given: if it returns `Ok` it has added the text, otherwise it
has added the beginning of the text, which may be nothing. `content` is what it has. -/
structure Writer.Keeps {σ : Type} (w : Writer σ) (content : σ → Str) : Prop where
  ok : ∀ st s, (w.writeStr st s).2 = true → content (w.writeStr st s).1 = content st ++ s
  err : ∀ st s, (w.writeStr st s).2 = false → ∃ part, part <+: s ∧ content (w.writeStr st s).1 = content st ++ part

/-- A `String`: it never fails. -/
def stringWriter : Writer Str := ⟨fun st s => (st ++ s, true)⟩

/-- A buffer of `n` characters, which takes what fits. -/
def bufferWriter (n : Nat) : Writer Str :=
  ⟨fun st s => if st.length + s.length ≤ n then (st ++ s, true) else (st ++ s.take (n - st.length), false)⟩

/-- Any writer, together with the list of the texts that it was given. -/
def Writer.logged {σ : Type} (w : Writer σ) : Writer (σ × List Str) :=
  ⟨fun st s => (((w.writeStr st.1 s).1, st.2 ++ [s]), (w.writeStr st.1 s).2)⟩

end Manager

namespace Html

/-- The style elements of a document that may end anywhere, `data-style` attribute and text. A
tag that is not finished is dropped, and an element whose end tag is missing ends with the
document (HTML standard, 13.2.5.3 and 13.2.5.12 ff.: end of file). For texts in which no
`</style` occurs. -/
def readCut : Nat → Str → List (Str × Str)
  | 0, _ => []
  | n + 1, s =>
    match after (c! "<style data-style=\"") s with
    | none => []
    | some s =>
      let id := s.takeWhile (· != '"')
      match after (c! "\">") (s.dropWhile (· != '"')) with
      | none => []
      | some s =>
        let r := rawText s
        match after (c! "</style>") r.2 with
        | none => [(id, r.1 ++ r.2)]
        | some s => (id, r.1) :: readCut n s

end Html
