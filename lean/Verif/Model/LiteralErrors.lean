import Verif.Model.Literal
import Verif.Model.Report

/-!
# Compile errors of the macros with a string literal

`packages/stylist-macros/src/literal/*.rs` again, with the errors: `Model/Literal` has `none`
for each of them. `abort!` and `abort_call_site!` end the macro with one error.
-/

namespace Literal

open Output

/-- The errors, with what their texts and places are made of. -/
inductive LErr where
  /-- `expected at least one argument` (`literal/mod.rs` 25). -/
  | noArgument
  /-- The error of `litrs` at the first token (`mod.rs` 28-31). -/
  | notString (t : Tree)
  /-- The text of the parse error, at the literal (`mod.rs` 33-37). -/
  | css (message : Str)
  /-- `expected ',', got: {}` at this token (`mod.rs` 62). -/
  | comma (t : Tree)
  /-- `expected ident, got: {}` at this token (`mod.rs` 76). -/
  | ident (t : Tree)
  /-- `expected = at the end of this ident`, with the hint `try: {name} = {name}`, at the name
  (`mod.rs` 87-93). -/
  | equals (name : Str)
  /-- `duplicate named argument` at the second name (`mod.rs` 100, 108). -/
  | duplicate (name : Str)
  /-- The text of the error of `fstring::Parser::parse`, at the call
  (`to_output_with_args.rs` 127). The text of the error is made from the input. -/
  | text (s : Str)
  /-- `missing argument: {}`; what is shown is the whole text, at the call
  (`to_output_with_args.rs` 141). -/
  | missing (s : Str)
  /-- `argument {} is not used, arguments must be used` at the name (`mod.rs` 123-128). -/
  | unused (name : Str)

/-- The loop `'outer` after a comma was read (`mod.rs` 69-116). The budget is the number of
tokens plus one. -/
def argLoopE : Nat → List Tree → Args → Except LErr Args
  | 0, _, _ => .error .noArgument
  | _ + 1, [], args => .ok args
  | n + 1, .ident name raw :: ts, args =>
    match ts with
    | [] => .error (.equals (identText name raw))
    | t :: ts =>
      if isPunct '=' t then
        match argTokens ts with
        | (e, none) =>
          match args.insert (identText name raw) e with
          | none => .error (.duplicate (identText name raw))
          | some args => .ok args
        | (e, some rest) =>
          match args.insert (identText name raw) e with
          | none => .error (.duplicate (identText name raw))
          | some args => argLoopE n rest args
      else .error (.equals (identText name raw))
  | _ + 1, t :: _, _ => .error (.ident t)

/-- The loop `'outer` (`mod.rs` 55-116). -/
def parseArgsE : List Tree → Except LErr Args
  | [] => .ok []
  | t :: ts => if isPunct ',' t then argLoopE (ts.length + 1) ts [] else .error (.comma t)

/-- `ToOutputWithArgs for StringFragment` after splitting `s` (`to_output_with_args.rs`
130-150). -/
def fragsOutE (args : Args) (s : Str) : List Fragment → Except LErr (List OFrag × List Str)
  | [] => .ok ([], [])
  | .literal l :: fs =>
    match fragsOutE args s fs with
    | .error e => .error e
    | .ok (out, used) => .ok (.str l :: out, used)
  | .interpolation n :: fs =>
    match args.get n with
    | none => .error (.missing s)
    | some e =>
      match fragsOutE args s fs with
      | .error e => .error e
      | .ok (out, used) => .ok (.arg n e :: out, n :: used)

/-- `ToOutputWithArgs for StringFragment` (`to_output_with_args.rs` 117-152). -/
def strOutE (args : Args) (s : Str) : Except LErr (List OFrag × List Str) :=
  match parseFragments s with
  | none => .error (.text s)
  | some fs => fragsOutE args s fs

/-- One thing after the other; the first error ends it. -/
def both {α β γ : Type} (f : α → β → γ) (a : Except LErr (α × List Str)) (b : Except LErr (β × List Str)) :
    Except LErr (γ × List Str) :=
  match a with
  | .error e => .error e
  | .ok (a, u) =>
    match b with
    | .error e => .error e
    | .ok (b, v) => .ok (f a b, u ++ v)

/-- `selectors.extend(frag.to_output_with_args(..))` (`to_output_with_args.rs` 33-38,
77-81, 162-166). -/
def strsOutE (args : Args) : List Str → Except LErr (List OFrag × List Str)
  | [] => .ok ([], [])
  | s :: ss => both (· ++ ·) (strOutE args s) (strsOutE args ss)

/-- `condition` of a block (`to_output_with_args.rs` 98-102). -/
def selsOutE (args : Args) : List Selector → Except LErr (List (List OFrag) × List Str)
  | [] => .ok ([], [])
  | s :: ss => both (· :: ·) (strsOutE args s) (selsOutE args ss)

mutual
/-- `ToOutputWithArgs for RuleBlockContent` (`to_output_with_args.rs` 42-65) and its
payloads (67-115, 154-176). -/
def rbcOutE (args : Args) : RBC → Except LErr (ORBC × List Str)
  | .rule c b => both .rule (strsOutE args c) (rbcsOutE args b)
  | .block c b => both .block (selsOutE args c) (rbcsOutE args b)
  | .attr k v =>
    match strsOutE args v with
    | .error e => .error e
    | .ok (v', u) => .ok (.attr (.str k) v', u)
/-- Of a list. -/
def rbcsOutE (args : Args) : List RBC → Except LErr (List ORBC × List Str)
  | [] => .ok ([], [])
  | x :: xs => both (· :: ·) (rbcOutE args x) (rbcsOutE args xs)
end

/-- `ToOutputWithArgs for ScopeContent` (`to_output_with_args.rs` 178-197). -/
def scopeOutE (args : Args) : ScopeContent → Except LErr (OScope × List Str)
  | .block c b => both .block (selsOutE args c) (rbcsOutE args b)
  | .rule c b => both .rule (strsOutE args c) (rbcsOutE args b)

/-- `ToOutputWithArgs for Sheet` (`to_output_with_args.rs` 199-214). -/
def sheetOutE (args : Args) : Sheet → Except LErr (OSheet × List Str)
  | [] => .ok ([], [])
  | x :: xs => both (· :: ·) (scopeOutE args x) (sheetOutE args xs)

/-- `macro_fn` (`literal/mod.rs` 20-134) with its error. `order` is the order in which
`args.iter()` gives the entries of the `HashMap` (`mod.rs` 122). -/
def macroFnE (order : Args → Args) : List Tree → Except LErr CSheet
  | [] => .error .noArgument
  | .lit _ (some s) :: rest =>
    match Report.parse s with
    | .error e => .error (.css e.2)
    | .ok sheet =>
      match parseArgsE rest with
      | .error e => .error e
      | .ok args =>
        match sheetOutE args sheet with
        | .error e => .error e
        | .ok (out, used) =>
          match (order args).find? (fun a => !used.elem a.1) with
          | some a => .error (.unused a.1)
          | none => .ok (reifySheet out)
  | t :: _ => .error (.notString t)

end Literal
