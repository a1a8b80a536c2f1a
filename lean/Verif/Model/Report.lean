import Verif.Model.Parser
import Verif.Model.Manager

/-!
# The report of a parse error

`Parser::parse` gives, for css that it cannot read, the places that `nom` collected in its
`VerboseError`, and their rendering by `nom::error::convert_error`
(`packages/stylist-core/src/parser.rs` 515-545, `packages/stylist-core/src/error.rs` 24-32).
-/

namespace Report
open Nom Css

/-- `nom::multi::many0`, with the place of its error. The only error that leaves it is the one
for a round that succeeds without reading anything: it carries the input of that round. (The
errors of the rounds end the loop.) -/
def many0Loop {α : Type} (p : Parser α) : Nat → Str → Except Str (Str × List α)
  | 0, i => .error i
  | n + 1, i =>
    match p i with
    | none => .ok (i, [])
    | some (r, a) =>
      if r.length = i.length then .error i
      else
        match many0Loop p n r with
        | .error e => .error e
        | .ok (r', as) => .ok (r', a :: as)

/-- `nom::error::VerboseErrorKind`, the two kinds that occur in what is reported: `Nom(Many0)`
and `Context(name)`. -/
inductive Kind where
  | many0
  | context (name : Str)
deriving DecidableEq, Repr

/-- `Parser::sheet` (`parser.rs` 515-523) inside of `Parser::trimmed` (`parser.rs` 92-108): an
error is that of `many0(Self::scope)`, as `Parser::sp` never fails; each `traced_context`
(`parser.rs` 31-64) adds its name and its own input, which is the whole text for both. -/
def sheet (css : Str) : Except (List (Str × Kind)) Sheet :=
  match sp css with
  | none => .error [(css, .context (c! "Trimmed")), (css, .context (c! "StyleSheet"))]
  | some (i, _) =>
    match many0Loop (scope (css.length + 1)) (i.length + 1) i with
    | .error e => .error [(e, .many0), (css, .context (c! "Trimmed")), (css, .context (c! "StyleSheet"))]
    | .ok (_, l) => .ok l.flatten

/-- The number of bytes of a text. -/
def bytes (s : Str) : Nat := (s.map Char.utf8Size).sum

/-- The name that `convert_error` writes: `{:?}` of the kind, or the context. -/
def Kind.text : Kind → Str
  | .many0 => c! "Many0"
  | .context n => n

/-- One entry of `nom::error::convert_error` (nom 7): the number of the line in which `sub`
begins, the line without the blanks at its end, and a caret below the column, which is counted
in bytes. -/
def entry (input : Str) (idx : Nat) (sub : Str) (kind : Kind) : Str :=
  let front := input.take (input.length - sub.length)
  let inLine := (front.reverse.takeWhile (· != '\n')).reverse
  let lineBegin := front.length - inLine.length
  Manager.decimal idx ++ c! ": at line " ++ Manager.decimal (front.count '\n' + 1) ++ c! ", in " ++ kind.text ++ c! ":\n" ++
    Str.trimEnd ((input.drop lineBegin).takeWhile (· != '\n')) ++ c! "\n" ++
    List.replicate (bytes inLine) ' ' ++ c! "^\n\n"

/-- `nom::error::convert_error` from the entry with this number on. -/
def entries (input : Str) : Nat → List (Str × Kind) → Str
  | _, [] => []
  | idx, (sub, kind) :: es => entry input idx sub kind ++ entries input (idx + 1) es

/-- `Parser::parse` (`parser.rs` 526-545): `Ok`, or the `source` and the text of the error
(`error.rs` 27: `Failed to Parse CSS, due to:` and the reason). -/
def parse (css : Str) : Except (List (Str × Kind) × Str) Sheet :=
  match sheet css with
  | .ok s => .ok s
  | .error es => .error (es, c! "Failed to Parse CSS, due to:\n" ++ entries css 0 es)

end Report
