import Verif.Model.Literal
import Verif.Spec.Token

/-!
# What the macros should do

A reading of texts with `${name}`, of argument lists and of output trees that does not use
the parsers of the model.
-/

namespace Spec

open Output

/-! ## Texts with interpolation -/

/-- The pieces of a text. -/
inductive Piece where
  | run (s : Str)
  | escape
  | hole (before name after : Str)

/-- How a piece is written. -/
def Piece.text : Piece → Str
  | .run s => s
  | .escape => c! "$${"
  | .hole b n a => c! "${" ++ b ++ n ++ a ++ c! "}"

/-- Blanks that may surround a name. -/
def Spaces (s : Str) : Prop := ∀ c ∈ s, c ∈ c! " \t\r\n"

/-- Names of arguments: a letter, then letters, digits and underscores. -/
def ArgName : Str → Prop
  | [] => False
  | c :: s => Nom.isAlpha c ∧ ∀ d ∈ s, Nom.isAlnum d ∨ d = '_'

/-- Well-formed pieces. -/
def Piece.Ok : Piece → Prop
  | .run s => s ≠ [] ∧ '$' ∉ s ∧ '{' ∉ s
  | .escape => True
  | .hole b n a => Spaces b ∧ ArgName n ∧ Spaces a

/-- No two runs are neighbours. -/
def NoTwoRuns : List Piece → Prop
  | .run _ :: .run _ :: _ => False
  | _ :: ps => NoTwoRuns ps
  | [] => True

/-- The fragment that a piece stands for. -/
def Piece.frag : Piece → Literal.Fragment
  | .run s => .literal s
  | .escape => .literal (c! "${")
  | .hole _ n _ => .interpolation n

/-- How a text is made of pieces. -/
def Pieces (s : Str) (ps : List Piece) : Prop := (∀ p ∈ ps, p.Ok) ∧ s = ps.flatMap Piece.text

/-- The text of a piece once the arguments have values. -/
def Piece.value (σ : Str → Option Str) : Piece → Option Str
  | .run s => some s
  | .escape => some (c! "${")
  | .hole _ n _ => σ n

/-- `t` is `s` with each `${name}` replaced by `σ name` and each `$${` by `${`. -/
def Replaced (σ : Str → Option Str) (s t : Str) : Prop :=
  ∃ ps, Pieces s ps ∧ ∃ ts : List Str, ps.map (Piece.value σ) = ts.map some ∧ t = ts.flatten

/-- For the selectors of a condition. -/
def ReplacedSels (σ : Str → Option Str) : List Selector → List Selector → Prop
  | [], [] => True
  | s :: ss, t :: ts => Replaced σ s.flatten t.flatten ∧ ReplacedSels σ ss ts
  | _, _ => False

mutual
/-- The same tree, with the texts of selectors, values and conditions replaced. -/
def ReplacedRBC (σ : Str → Option Str) : RBC → RBC → Prop
  | .attr k v, .attr k' v' => k' = k ∧ Replaced σ v.flatten v'.flatten
  | .rule c b, .rule c' b' => Replaced σ c.flatten c'.flatten ∧ ReplacedRBCs σ b b'
  | .block c b, .block c' b' => ReplacedSels σ c c' ∧ ReplacedRBCs σ b b'
  | _, _ => False
/-- For a list. -/
def ReplacedRBCs (σ : Str → Option Str) : List RBC → List RBC → Prop
  | [], [] => True
  | x :: xs, y :: ys => ReplacedRBC σ x y ∧ ReplacedRBCs σ xs ys
  | _, _ => False
end

/-- For a sheet. -/
def ReplacedSheet (σ : Str → Option Str) : Sheet → Sheet → Prop
  | [], [] => True
  | .block c b :: xs, .block c' b' :: ys => ReplacedSels σ c c' ∧ ReplacedRBCs σ b b' ∧ ReplacedSheet σ xs ys
  | .rule c b :: xs, .rule c' b' :: ys =>
    Replaced σ c.flatten c'.flatten ∧ ReplacedRBCs σ b b' ∧ ReplacedSheet σ xs ys
  | _, _ => False

mutual
/-- The texts of a tree in which interpolation is possible. -/
def textsRBC : RBC → List Str
  | .attr _ v => v
  | .rule c b => c ++ textsRBCs b
  | .block c b => c.flatten ++ textsRBCs b
/-- Of a list. -/
def textsRBCs : List RBC → List Str
  | [] => []
  | x :: xs => textsRBC x ++ textsRBCs xs
end

/-- The texts of a sheet in which interpolation is possible: selectors, values and
conditions. -/
def texts : Sheet → List Str
  | [] => []
  | .block c b :: xs => c.flatten ++ textsRBCs b ++ texts xs
  | .rule c b :: xs => c ++ textsRBCs b ++ texts xs

/-- A text mentions `${name}`. -/
def Mentions (s name : Str) : Prop := ∃ ps b a, Pieces s ps ∧ .hole b name a ∈ ps

/-! ## Argument lists -/

/-- Not a comma. -/
def NotComma : Tree → Prop
  | .punct c _ => c ≠ ','
  | _ => True

/-- The text of an identifier; a raw identifier has its prefix. -/
def nameText (name : Str) : Bool → Str
  | true => c! "r#" ++ name
  | false => name

/-- `, name = tokens` any number of times, perhaps followed by a comma. -/
inductive ArgTokens : List Tree → List (Str × RExpr) → Prop where
  | done : ArgTokens [] []
  | trailing (j) : ArgTokens [.punct ',' j] []
  | more (j name raw j' e rest args) : (∀ t ∈ e, NotComma t) → ArgTokens rest args →
      ArgTokens (.punct ',' j :: .ident name raw :: .punct '=' j' :: (e ++ rest))
        ((nameText name raw, e) :: args)

/-- The text of each argument in an environment. -/
def argText (args : List (Str × RExpr)) (ρ : Env) (name : Str) : Option Str :=
  (args.lookup name).map ρ

/-! ## Output trees -/

/-- The text of a fragment in an environment. -/
def fragText (ρ : Env) : OFrag → Str
  | .expr [.lit _ (some v)] => v
  | .expr e => ρ e
  | .arg _ e => ρ e
  | .token t => tokenText t
  | .delimiter .brace true => c! "{"
  | .delimiter .brace false => c! "}"
  | .delimiter .bracket true => c! "["
  | .delimiter .bracket false => c! "]"
  | .delimiter .paren true => c! "("
  | .delimiter .paren false => c! ")"
  | .str s => s

/-- The text of fragments. -/
def fragsText (ρ : Env) (fs : List OFrag) : Str := (fs.map (fragText ρ)).flatten

/-- The text of a key. -/
def keyText (ρ : Env) : OCow → Str
  | .str s => s
  | .raw e => ρ e

mutual
/-- The tree that an output tree describes, with each selector, value and condition in one
piece. -/
def meaningRBC (ρ : Env) : ORBC → RBC
  | .rule c b => .rule [fragsText ρ c] (meaningRBCs ρ b)
  | .block c b => .block (c.map (fun s => [fragsText ρ s])) (meaningRBCs ρ b)
  | .attr k v => .attr (keyText ρ k) [fragsText ρ v]
/-- Of a list. -/
def meaningRBCs (ρ : Env) : List ORBC → List RBC
  | [] => []
  | x :: xs => meaningRBC ρ x :: meaningRBCs ρ xs
end

/-- The sheet that an output tree describes. -/
def meaning (ρ : Env) : OSheet → Sheet
  | [] => []
  | .rule c b :: xs => .rule [fragsText ρ c] (meaningRBCs ρ b) :: meaning ρ xs
  | .block c b :: xs => .block (c.map (fun s => [fragsText ρ s])) (meaningRBCs ρ b) :: meaning ρ xs

mutual
/-- The same tree with each selector, value and condition in one piece. -/
def joinedRBC : RBC → RBC
  | .attr k v => .attr k [v.flatten]
  | .rule c b => .rule [c.flatten] (joinedRBCs b)
  | .block c b => .block (c.map (fun s => [s.flatten])) (joinedRBCs b)
/-- Of a list. -/
def joinedRBCs : List RBC → List RBC
  | [] => []
  | x :: xs => joinedRBC x :: joinedRBCs xs
end

/-- The same sheet with each selector, value and condition in one piece. -/
def joined : Sheet → Sheet
  | [] => []
  | .rule c b :: xs => .rule [c.flatten] (joinedRBCs b) :: joined xs
  | .block c b :: xs => .block (c.map (fun s => [s.flatten])) (joinedRBCs b) :: joined xs

/-- A fragment whose text depends on an expression. -/
def FragDyn : OFrag → Prop
  | .expr [.lit _ (some _)] => False
  | .expr _ => True
  | .arg _ _ => True
  | _ => False

/-- A key that depends on an expression. -/
def KeyDyn : OCow → Prop
  | .str _ => False
  | .raw _ => True

mutual
/-- Some fragment or key depends on an expression. -/
def DynRBC : ORBC → Prop
  | .rule c b => (∃ f ∈ c, FragDyn f) ∨ DynRBCs b
  | .block c b => (∃ s ∈ c, ∃ f ∈ s, FragDyn f) ∨ DynRBCs b
  | .attr k v => KeyDyn k ∨ ∃ f ∈ v, FragDyn f
/-- Of a list. -/
def DynRBCs : List ORBC → Prop
  | [] => False
  | x :: xs => DynRBC x ∨ DynRBCs xs
end

/-- Some fragment or key of a sheet depends on an expression. -/
def Dyn : OSheet → Prop
  | [] => False
  | .rule c b :: xs => (∃ f ∈ c, FragDyn f) ∨ DynRBCs b ∨ Dyn xs
  | .block c b :: xs => (∃ s ∈ c, ∃ f ∈ s, FragDyn f) ∨ DynRBCs b ∨ Dyn xs

end Spec
