import Verif.Spec.Written

/-!
# The documented rule for blanks in inline css

`/repo/packages/stylist/src/macros.rs` 96-104: "a space is inserted between two tokens `L R` iff
(regardless of the space being present in the macro input): `L` is either a closing bracket `)}]`,
an identifier `red`, a literal string `"\e600"` or number `3px`, or the '*' character. `R` is
either an identifier, a literal string or number, the '*' or '#' character. Spacing around
interpolation is ignored regardless."
-/

namespace Spec

open Output

/-- What the rule tells apart. -/
inductive Word where
  | closing
  | word
  | star
  | hash
  | amp
  | other
deriving DecidableEq, Repr

/-- What may be to the left of a blank. The documentation does not mention `&`; `amp` says
whether it counts. -/
def Word.left (amp : Bool) : Word → Bool
  | .closing | .word | .star => true
  | .amp => amp
  | .hash | .other => false

/-- What may be to the right of a blank. -/
def Word.right : Word → Bool
  | .word | .star | .hash => true
  | .closing | .amp | .other => false

/-- A punctuation character. -/
def wordOfChar (c : Char) : Word := if c = '*' then .star else if c = '#' then .hash else if c = '&' then .amp else .other

mutual
/-- The tokens of a component value with their texts. -/
def wordsCV (ρ : Env) : CV → List (Word × Str)
  | .func i args => (.word, cssName i) :: (.other, c! "(") :: (words ρ args ++ [(.closing, c! ")")])
  | .tok (.ident i) => [(.word, cssName i)]
  | .tok (.lit t _) => [(.word, t)]
  | .tok (.punct c _) => [(wordOfChar c, [c])]
  | .block .paren cs => (.other, c! "(") :: (words ρ cs ++ [(.closing, c! ")")])
  | .block .bracket cs => (.other, c! "[") :: (words ρ cs ++ [(.closing, c! "]")])
  | .block .brace cs => (.other, c! "{") :: (words ρ cs ++ [(.closing, c! "}")])
  | .expr _ e => [(.other, exprText ρ e)]
/-- Of a list. -/
def words (ρ : Env) : List CV → List (Word × Str)
  | [] => []
  | c :: cs => wordsCV ρ c ++ words ρ cs
end

/-- Tokens with blanks just where the rule says. -/
def withBlanks (amp : Bool) : List (Word × Str) → Str
  | [] => []
  | [w] => w.2
  | l :: r :: ws => l.2 ++ (if l.1.left amp && r.1.right then c! " " else []) ++ withBlanks amp (r :: ws)

/-- The text of component values according to the rule. -/
def textBy (amp : Bool) (ρ : Env) (cs : List CV) : Str := withBlanks amp (words ρ cs)

/-- The selectors of a block. -/
def selectorsBy (amp : Bool) (ρ : Env) (qs : List CV) : List Str := (dropEmpty (splitCommas qs)).map (textBy amp ρ)

mutual
/-- The declarations of an item under the at-rules `rules` and the selector `sel`. -/
def rowsByIn (amp : Bool) (cls : Option Str) (ρ : Env) (rules : List Str) (sel : Str) : SItem → List Decl
  | .decl name vs => [⟨rules ++ [sel], declName ρ name, textBy amp ρ vs⟩]
  | .rule name ps body => rowsByAll amp cls ρ (rules ++ [c! "@" ++ cssName name ++ c! " " ++ textBy amp ρ ps]) sel body
  | .block qs body =>
    rowsByAll amp cls ρ rules
      (if selectorsBy amp ρ qs = [] then sel
       else Str.join (c! ", ") ((selectorsBy amp ρ qs).map (scopeSelector cls))) body
/-- The same for a list of items. -/
def rowsByAll (amp : Bool) (cls : Option Str) (ρ : Env) (rules : List Str) (sel : Str) : List SItem → List Decl
  | [] => []
  | i :: is => rowsByIn amp cls ρ rules sel i ++ rowsByAll amp cls ρ rules sel is
end

/-- The declarations of a sheet for a class, with blanks as documented. -/
def documentedRows (cls : Option Str) (ρ : Env) (is : List SItem) : List Decl :=
  rowsByAll false cls ρ [] (current cls) is

/-- The same with `&` among what may be to the left of a blank. -/
def amendedRows (cls : Option Str) (ρ : Env) (is : List SItem) : List Decl :=
  rowsByAll true cls ρ [] (current cls) is

mutual
/-- No `&` is directly before a word, a function, `*` or `#`. -/
def noAmpWord : CV → Bool
  | .func _ args => noAmpWords args
  | .block _ cs => noAmpWords cs
  | .tok _ | .expr _ _ => true
/-- The same for a list. -/
def noAmpWords : List CV → Bool
  | [] => true
  | c :: cs => noAmpWord c && !(decide (punctOf c = some '&') && cs.head?.any wordAfter) && noAmpWords cs
end

mutual
/-- The same in all places of an item. -/
def noAmpItem : SItem → Bool
  | .decl _ vs => noAmpWords vs
  | .rule _ ps body => noAmpWords ps && noAmpItems body
  | .block qs body => noAmpWords qs && noAmpItems body
/-- The same for a list of items. -/
def noAmpItems : List SItem → Bool
  | [] => true
  | i :: is => noAmpItem i && noAmpItems is
end

end Spec
