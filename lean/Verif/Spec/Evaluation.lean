import Verif.Model.Evaluation
import Verif.Spec.Inline
import Verif.Spec.Macro

/-!
# Which expressions a macro evaluates, in which order, and where the values go
-/

namespace Spec

open Output

/-- Evaluate expressions from first to last; stop at the first one that has no value. -/
def inOrder {σ : Type} (w : RExpr → Comp σ Str) : List RExpr → σ → Option (List Str) × σ
  | [], s => (some [], s)
  | e :: es, s =>
    match w e s with
    | (none, s') => (none, s')
    | (some v, s') =>
      match inOrder w es s' with
      | (none, s'') => (none, s'')
      | (some vs, s'') => (some (v :: vs), s'')

/-! ## In the tokens of inline CSS -/

/-- The expression between the braces of `${..}`; a string literal is text. -/
def exprIn : RExpr → List RExpr
  | [.lit _ (some _)] => []
  | e => [e]

mutual
/-- The expressions inside of one token. -/
def exprsTree : Tree → List RExpr
  | .group _ c => exprsIn false c
  | _ => []
/-- The expressions of all `${..}` in the tokens, from first to last; the flag tells if the
token before is a `$`. -/
def exprsIn : Bool → List Tree → List RExpr
  | _, [] => []
  | true, .group .brace e :: ts => exprIn e ++ exprsIn false ts
  | _, .punct c _ :: ts => exprsIn (c == '$') ts
  | _, t :: ts => exprsTree t ++ exprsIn false ts
end

/-! ## In an output tree -/

/-- The expression of a fragment. -/
def fragExprs : OFrag → List RExpr
  | .expr e => exprIn e
  | .arg _ e => [e]
  | _ => []

/-- The expression of a key. -/
def keyExprs : OCow → List RExpr
  | .str _ => []
  | .raw e => [e]

/-- The expressions of fragments. -/
def fragsExprs (fs : List OFrag) : List RExpr := fs.flatMap fragExprs

mutual
/-- The expressions of a tree: condition before content, key before value. -/
def exprsRBC : ORBC → List RExpr
  | .rule c b => fragsExprs c ++ exprsRBCs b
  | .block c b => fragsExprs c.flatten ++ exprsRBCs b
  | .attr k v => keyExprs k ++ fragsExprs v
/-- Of a list. -/
def exprsRBCs : List ORBC → List RExpr
  | [] => []
  | x :: xs => exprsRBC x ++ exprsRBCs xs
end

/-- The expressions of a sheet. -/
def exprsOut (s : OSheet) : List RExpr := exprsRBCs (s.map scopeRBC)

/-- Fragments with the texts `vs` in the places of the expressions. -/
def fillFrags : List OFrag → List Str → List OFrag
  | [], _ => []
  | f :: fs, vs =>
    match fragExprs f, vs with
    | _ :: _, v :: vs => .str v :: fillFrags fs vs
    | _, vs => f :: fillFrags fs vs

/-- The same for selectors. -/
def fillSels : List (List OFrag) → List Str → List (List OFrag)
  | [], _ => []
  | s :: ss, vs => fillFrags s vs :: fillSels ss (vs.drop (fragsExprs s).length)

/-- The same for a key. -/
def fillKey : OCow → List Str → OCow
  | .raw _, v :: _ => .str v
  | k, _ => k

mutual
/-- The same for a tree. -/
def fillRBC : ORBC → List Str → ORBC
  | .rule c b, vs => .rule (fillFrags c vs) (fillRBCs b (vs.drop (fragsExprs c).length))
  | .block c b, vs => .block (fillSels c vs) (fillRBCs b (vs.drop (fragsExprs c.flatten).length))
  | .attr k v, vs => .attr (fillKey k vs) (fillFrags v (vs.drop (keyExprs k).length))
/-- For a list. -/
def fillRBCs : List ORBC → List Str → List ORBC
  | [], _ => []
  | x :: xs, vs => fillRBC x vs :: fillRBCs xs (vs.drop (exprsRBC x).length)
end

/-- The same for an item. -/
def fillScope : OScope → List Str → OScope
  | .rule c b, vs => .rule (fillFrags c vs) (fillRBCs b (vs.drop (fragsExprs c).length))
  | .block c b, vs => .block (fillSels c vs) (fillRBCs b (vs.drop (fragsExprs c.flatten).length))

/-- The same for a sheet. -/
def fillOut : OSheet → List Str → OSheet
  | [], _ => []
  | x :: xs, vs => fillScope x vs :: fillOut xs (vs.drop (exprsRBC (scopeRBC x)).length)

/-! ## In a string literal -/

/-- The name in a piece. -/
def Piece.names : Piece → List Str
  | .hole _ n _ => [n]
  | _ => []

/-- `ns` are the names in the `${name}` of the texts, from first to last. -/
inductive Uses : List Str → List Str → Prop where
  | nil : Uses [] []
  | cons (s ps ss ns) : Pieces s ps → Uses ss ns → Uses (s :: ss) (ps.flatMap Piece.names ++ ns)

/-! ## Names in expressions -/

mutual
/-- A name occurs in a token. -/
def Occurs (n : Str) : Tree → Prop
  | .ident m _ => m = n
  | .group _ c => OccursIn n c
  | _ => False
/-- In a list. -/
def OccursIn (n : Str) : List Tree → Prop
  | [] => False
  | t :: ts => Occurs n t ∨ OccursIn n ts
end

/-- What an expression does depends on additional names only if it mentions one of them. -/
def Lexical {σ : Type} (w : World σ) : Prop :=
  ∀ ns e, (∀ n ∈ ns, ¬ OccursIn n e) → w ns e = w [] e

end Spec
