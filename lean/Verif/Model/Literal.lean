import Verif.Model.Parser
import Verif.Model.Output

/-!
# The macros with a string literal

Models `packages/stylist-macros/src/literal/*.rs`.
-/

namespace Literal

open Output

/-! ## Interpolation -/

/-- `Fragment` (`literal/fstring.rs` 14-18). -/
inductive Fragment where
  | literal (s : Str)
  | interpolation (name : Str)
deriving DecidableEq, Repr

/-- `IResult` with both kinds of errors: after `cut` an error is a failure, which `alt` and
`many0` do not recover from. -/
inductive IRes (α : Type) where
  | ok (rest : Str) (a : α)
  | error
  | failure
deriving DecidableEq, Repr

/-- `Parser::sp` (`fstring.rs` 37-42). -/
def sp : Parser Str := fun i =>
  if i.isEmpty then none
  else
    let blank := fun c => (c! " \t\r\n").elem c
    some (i.dropWhile blank, i.takeWhile blank)

/-- `Parser::trimmed` (`fstring.rs` 45-60). -/
def trimmed {α : Type} (p : Parser α) : Parser α := Nom.delimited (Nom.opt sp) p (Nom.opt sp)

/-- The name of an argument (`fstring.rs` 76-79). -/
def argName : Parser Str :=
  Nom.recognize (Nom.preceded Nom.alpha1 (Nom.many0 (Nom.alt Nom.alphanumeric1 (Nom.tag (c! "_")))))

/-- `Parser::interpolation` (`fstring.rs` 63-91). -/
def interpolation (i : Str) : IRes Fragment :=
  if i.isEmpty then .error
  else
    match Nom.tag (c! "${") i with
    | none => .error
    | some (r, _) =>
      match trimmed argName r with
      | none => .failure
      | some (r, name) =>
        match Nom.tag (c! "}") r with
        | none => .error
        | some (r, _) => .ok r (.interpolation name)

/-- `Parser::literal` (`fstring.rs` 94-109). -/
def literal (i : Str) : IRes Fragment :=
  if i.isEmpty then .error
  else
    match Nom.isNot (c! "${") i with
    | none => .error
    | some (r, m) => .ok r (.literal m)

/-- The alternatives of `Parser::fragments` (`fstring.rs` 112-117). -/
def fragment (i : Str) : IRes Fragment :=
  match Nom.tag (c! "$${") i with
  | some (r, _) => .ok r (.literal (c! "${"))
  | none =>
    match literal i with
    | .ok r f => .ok r f
    | .failure => .failure
    | .error => interpolation i

/-- The loop of `many0`: an error ends it, a failure is passed on, a success that consumes
nothing is an error. The budget is the length of the input plus one. -/
def fragmentsLoop : Nat → Str → IRes (List Fragment)
  | 0, _ => .error
  | n + 1, i =>
    match fragment i with
    | .error => .ok i []
    | .failure => .failure
    | .ok r f =>
      if r.length = i.length then .error
      else
        match fragmentsLoop n r with
        | .ok r' fs => .ok r' (f :: fs)
        | .error => .error
        | .failure => .failure

/-- `Parser::fragments` and `Parser::parse` (`fstring.rs` 111-139). -/
def parseFragments (s : Str) : Option (List Fragment) :=
  match fragmentsLoop (s.length + 1) s with
  | .ok [] fs => some fs
  | _ => none

/-! ## Arguments -/

/-- `args: HashMap<String, Argument>`: the entries in the order of insertion; an `Argument`
(`literal/argument.rs`) is its name and tokens. -/
abbrev Args := List (Str × RExpr)

/-- `HashMap::get`. -/
def Args.get (args : Args) (name : Str) : Option RExpr := (args.find? (fun a => a.1 = name)).map Prod.snd

/-- `args.insert(..).is_some()` aborts (`literal/mod.rs` 99-101, 107-109). -/
def Args.insert (args : Args) (name : Str) (e : RExpr) : Option Args :=
  if args.any (fun a => a.1 = name) then none else some (args ++ [(name, e)])

/-- `is_comma` and `is_equal` (`mod.rs` 41-53). -/
def isPunct (ch : Char) : Tree → Bool
  | .punct c _ => c == ch
  | _ => false

/-- `Ident::to_string`. -/
def identText (name : Str) (raw : Bool) : Str := if raw then c! "r#" ++ name else name

/-- The loop `'inner` (`mod.rs` 95-115): the tokens of an argument, and what follows its
comma, if there is one. -/
def argTokens : List Tree → RExpr × Option (List Tree)
  | [] => ([], none)
  | t :: ts =>
    if isPunct ',' t then ([], some ts)
    else
      let (e, rest) := argTokens ts
      (t :: e, rest)

/-- The loop `'outer` after a comma was read (`mod.rs` 69-116). The budget is the number of
tokens plus one. -/
def argLoop : Nat → List Tree → Args → Option Args
  | 0, _, _ => none
  | _ + 1, [], args => some args
  | n + 1, .ident name raw :: t :: ts, args =>
    if isPunct '=' t then
      match argTokens ts with
      | (e, none) => args.insert (identText name raw) e
      | (e, some rest) =>
        match args.insert (identText name raw) e with
        | none => none
        | some args => argLoop n rest args
    else none
  | _ + 1, _, _ => none

/-- The loop `'outer` (`mod.rs` 55-116): the first comma is read here; later ones end an
argument. -/
def parseArgs : List Tree → Option Args
  | [] => some []
  | t :: ts => if isPunct ',' t then argLoop (ts.length + 1) ts [] else none

/-! ## Output -/

/-- A result with the set `args_used` (`literal/mod.rs` 118); `none` is `abort!`. -/
abbrev Used (α : Type) := Option (α × List Str)

/-- `ToOutputWithArgs for StringFragment` after splitting (`to_output_with_args.rs`
130-150). -/
def fragsOut (args : Args) : List Fragment → Used (List OFrag)
  | [] => some ([], [])
  | .literal s :: fs =>
    match fragsOut args fs with
    | none => none
    | some (out, used) => some (.str s :: out, used)
  | .interpolation n :: fs =>
    match args.get n with
    | none => none
    | some e =>
      match fragsOut args fs with
      | none => none
      | some (out, used) => some (.arg n e :: out, n :: used)

/-- `ToOutputWithArgs for StringFragment` (`to_output_with_args.rs` 117-152). -/
def strOut (args : Args) (s : Str) : Used (List OFrag) :=
  match parseFragments s with
  | none => none
  | some fs => fragsOut args fs

/-- `selectors.extend(frag.to_output_with_args(..))` (`to_output_with_args.rs` 33-38,
77-81, 162-166). -/
def strsOut (args : Args) : List Str → Used (List OFrag)
  | [] => some ([], [])
  | s :: ss =>
    match strOut args s, strsOut args ss with
    | some (a, u), some (b, v) => some (a ++ b, u ++ v)
    | _, _ => none

/-- `condition` of a block (`to_output_with_args.rs` 98-102). -/
def selsOut (args : Args) : List Selector → Used (List (List OFrag))
  | [] => some ([], [])
  | s :: ss =>
    match strsOut args s, selsOut args ss with
    | some (a, u), some (b, v) => some (a :: b, u ++ v)
    | _, _ => none

mutual
/-- `ToOutputWithArgs for RuleBlockContent` (`to_output_with_args.rs` 42-65) and its
payloads (67-115, 154-176). -/
def rbcOut (args : Args) : RBC → Used ORBC
  | .rule c b =>
    match strsOut args c, rbcsOut args b with
    | some (c', u), some (b', v) => some (.rule c' b', u ++ v)
    | _, _ => none
  | .block c b =>
    match selsOut args c, rbcsOut args b with
    | some (c', u), some (b', v) => some (.block c' b', u ++ v)
    | _, _ => none
  | .attr k v =>
    match strsOut args v with
    | some (v', u) => some (.attr (.str k) v', u)
    | none => none
/-- Of a list. -/
def rbcsOut (args : Args) : List RBC → Used (List ORBC)
  | [] => some ([], [])
  | x :: xs =>
    match rbcOut args x, rbcsOut args xs with
    | some (a, u), some (b, v) => some (a :: b, u ++ v)
    | _, _ => none
end

/-- `ToOutputWithArgs for ScopeContent` (`to_output_with_args.rs` 178-197). -/
def scopeOut (args : Args) : ScopeContent → Used OScope
  | .block c b =>
    match selsOut args c, rbcsOut args b with
    | some (c', u), some (b', v) => some (.block c' b', u ++ v)
    | _, _ => none
  | .rule c b =>
    match strsOut args c, rbcsOut args b with
    | some (c', u), some (b', v) => some (.rule c' b', u ++ v)
    | _, _ => none

/-- `ToOutputWithArgs for Sheet` (`to_output_with_args.rs` 199-214). -/
def sheetOut (args : Args) : Sheet → Used OSheet
  | [] => some ([], [])
  | x :: xs =>
    match scopeOut args x, sheetOut args xs with
    | some (a, u), some (b, v) => some (a :: b, u ++ v)
    | _, _ => none

/-- `macro_fn` (`literal/mod.rs` 20-134); `none` is a compile error. -/
def macroFn : List Tree → Option CSheet
  | .lit _ (some s) :: rest =>
    match Css.parse s with
    | none => none
    | some sheet =>
      match parseArgs rest with
      | none => none
      | some args =>
        match sheetOut args sheet with
        | none => none
        | some (out, used) =>
          if args.all (fun a => used.elem a.1) then some (reifySheet out) else none
  | _ => none

end Literal
