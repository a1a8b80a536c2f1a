import Verif.Base

/-!
# How a browser reads style elements

A reader for a document that consists of `<style data-style="…">…</style>` elements only.
The text of such an element is raw text, which ends at the first `</style`, in any
capitalization (HTML standard, 13.2.5.2 and 13.2.5.9 ff.).
-/

namespace Html

/-- Does `s` start with `</style`, in any capitalization? -/
def startsEnd (s : Str) : Bool := (s.take 7).map Char.toLower == c! "</style"

/-- The raw text before the first `</style`, and what follows from there. -/
def rawText : Str → Str × Str
  | [] => ([], [])
  | c :: s =>
    if startsEnd (c :: s) then ([], c :: s)
    else
      let r := rawText s
      (c :: r.1, r.2)

/-- `s` without the prefix `p`. -/
def after : Str → Str → Option Str
  | [], s => some s
  | c :: p, d :: s => if c = d then after p s else none
  | _ :: _, [] => none

/-- The elements of the document: `data-style` attribute and text. The number bounds the
number of elements. -/
def readStyles : Nat → Str → Option (List (Str × Str))
  | _, [] => some []
  | 0, _ :: _ => none
  | n + 1, s =>
    match after (c! "<style data-style=\"") s with
    | none => none
    | some s =>
      let id := s.takeWhile (· != '"')
      match after (c! "\">") (s.dropWhile (· != '"')) with
      | none => none
      | some s =>
        let r := rawText s
        match after (c! "</style>") r.2 with
        | none => none
        | some s => (readStyles n s).map ((id, r.1) :: ·)

/-- How often `</style` occurs in `s`, in any capitalization. -/
def endTags : Str → Nat
  | [] => 0
  | c :: s => (if startsEnd (c :: s) then 1 else 0) + endTags s

end Html
