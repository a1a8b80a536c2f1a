import Verif.Model.Ast

/-!
# Rendering

Models `packages/stylist-core/src/ast/context.rs` and the `ToStyleStr`
implementations of the syntax tree.

The writer `w: &mut String` is append-only in this code, so each function here
returns the text it appends. A chain of `StyleContext`s linked by `parent_ctx` is
a list: the head is `self`, the tail its ancestors; the interior-mutable
`is_open` flags make each function return the updated chain.
-/

/-- `StyleContext` (`ast/context.rs` 7-16) without the parent link. -/
structure Ctx where
  className : Option Str
  rules : List Str
  selector : Option Str
  isOpen : Bool
deriving DecidableEq, Repr

namespace Ctx

/-- `StyleContext::new` (`ast/context.rs` 20-29). -/
def new (className : Option Str) : Ctx :=
  { className, rules := [], selector := none, isOpen := false }

/-- `conditions` (`ast/context.rs` 59-64). -/
def conditions (c : Ctx) : List Str := c.rules ++ c.selector.toList

/-- `open_parent` (`ast/context.rs` 49-57): the nearest open ancestor. -/
def openParent : List Ctx → Option Ctx
  | [] => none
  | m :: ps => if m.isOpen then some m else openParent ps

/-- The conditions of the open parent, or `empty()` (`ast/context.rs` 67-69, 81-83). -/
def openParentConditions (ps : List Ctx) : List Str :=
  match openParent ps with
  | some m => m.conditions
  | none => []

/-- `common_conditions` (`ast/context.rs` 66-72): a `zip` followed by a `filter_map`
on equality. -/
def commonConditions (c : Ctx) (ps : List Ctx) : List Str :=
  ((openParentConditions ps).zip c.conditions).filterMap
    (fun (m1, m2) => if m1 = m2 then some m1 else none)

/-- `unique_conditions` (`ast/context.rs` 75-77). -/
def uniqueConditions (c : Ctx) (ps : List Ctx) : List Str :=
  c.conditions.drop (commonConditions c ps).length

/-- `differ_conditions` (`ast/context.rs` 80-85). -/
def differConditions (c : Ctx) (ps : List Ctx) : List Str :=
  (openParentConditions ps).drop (commonConditions c ps).length

/-- `write_padding_impl` (`ast/context.rs` 87-91). -/
def writePaddingImpl : Nat → Str
  | 0 => []
  | n + 1 => c! "    " ++ writePaddingImpl n

/-- `write_min_padding` (`ast/context.rs` 93-95). -/
def writeMinPadding (c : Ctx) (ps : List Ctx) : Str :=
  writePaddingImpl (commonConditions c ps).length

/-- The loop of `finish` (`ast/context.rs` 115-119): `i` runs from `n - 1` down to 0. -/
def finishLoop (c : Ctx) (ps : List Ctx) : Nat → Str
  | 0 => []
  | i + 1 =>
    writeMinPadding c ps ++ writePaddingImpl i ++ c! "}\n" ++ finishLoop c ps i

/-- `finish` (`ast/context.rs` 113-122). Returns the context with its new flag, and
the text written. The ancestors are only read. -/
def finish (c : Ctx) (ps : List Ctx) : Ctx × Str :=
  ({ c with isOpen := false },
   if c.isOpen then finishLoop c ps (uniqueConditions c ps).length else [])

/-- `close_until_common_parent` (`ast/context.rs` 40-47). The `while let` looks up the
nearest open ancestor again after each `finish`; as a closed ancestor stays closed
this is one walk up the chain. Returns the updated ancestors. -/
def closeUntilCommonParent (c : Ctx) : List Ctx → List Ctx × Str
  | [] => ([], [])
  | m :: ps =>
    if m.isOpen then
      if (differConditions c (m :: ps)).isEmpty then (m :: ps, [])
      else
        let (m', out) := finish m ps
        let (ps', out') := closeUntilCommonParent c ps
        (m' :: ps', out ++ out')
    else
      let (ps', out') := closeUntilCommonParent c ps
      (m :: ps', out')

/-- The loop of `start` (`ast/context.rs` 102-107). -/
def startLoop (c : Ctx) (ps : List Ctx) : Nat → List Str → Str
  | _, [] => []
  | index, cond :: rest =>
    writeMinPadding c ps ++ writePaddingImpl index ++ cond ++ c! " {\n" ++
      startLoop c ps (index + 1) rest

/-- `start` (`ast/context.rs` 98-110) on a chain. -/
def start : List Ctx → List Ctx × Str
  | [] => ([], [])
  | c :: ps =>
    if c.isOpen then ({ c with isOpen := true } :: ps, [])
    else
      let (ps', out) := closeUntilCommonParent c ps
      ({ c with isOpen := true } :: ps', out ++ startLoop c ps' 0 (uniqueConditions c ps'))

/-- `finish` on a chain. -/
def finishChain : List Ctx → List Ctx × Str
  | [] => ([], [])
  | c :: ps => let (c', out) := finish c ps; (c' :: ps, out)

/-- `write_padding` (`ast/context.rs` 125-127). -/
def writePadding (c : Ctx) : Str := writePaddingImpl c.conditions.length

/-- `with_block_condition` (`ast/context.rs` 130-153). -/
def withBlockCondition (c : Ctx) (cond : Option Str) : Ctx :=
  { className := c.className
    rules := c.rules
    selector :=
      ((cond.or c.selector).or (c.className.map (fun m => '.' :: m))).or (some (c! ":root"))
    isOpen := false }

/-- `with_rule_condition` (`ast/context.rs` 156-168). -/
def withRuleCondition (c : Ctx) (cond : Str) : Ctx :=
  { className := c.className
    rules := c.rules ++ [cond]
    selector := c.selector
    isOpen := false }

end Ctx

/-- `Selector::write_style` (`ast/selector.rs` 18-54); only the class name of the
context is read. -/
def Selector.write (className : Option Str) (sel : Selector) : Str :=
  let joined := sel.flatten
  match className with
  | some m =>
    let scopedClass : Str := '.' :: m
    if Str.containsChar '&' joined || Str.contains (c! ":root") joined then
      Str.replace (c! ":root") scopedClass (Str.replaceChar '&' scopedClass joined)
    else
      scopedClass ++ (if Str.startsWith (c! ":") joined then [] else [' ']) ++ joined
  | none =>
    if Str.containsChar '&' joined then Str.replaceChar '&' (c! ":root") joined
    else joined

/-- `Block::cond_str` (`ast/block.rs` 27-42); the indexed loop that pushes `", "` after
every selector but the last is `join`. -/
def condStr (className : Option Str) (condition : List Selector) : Option Str :=
  if condition.isEmpty then none
  else some (Str.join (c! ", ") (condition.map (Selector.write className)))

mutual
/-- `RuleBlockContent::write_style` (`ast/rule_block_content.rs` 20-28) with
`StyleAttribute::write_style` (`ast/style_attr.rs` 17-32), `Rule::write_style`
(`ast/rule.rs` 26-47) and `Block::write_style` (`ast/block.rs` 45-58). -/
def RBC.write : RBC → List Ctx → List Ctx × Str
  | .attr key value, chain =>
    let (chain', out) := Ctx.start chain
    match chain' with
    | [] => ([], out)
    | c :: ps =>
      (c :: ps, out ++ c.writePadding ++ key ++ c! ": " ++ value.flatten ++ c! ";\n")
  | .rule condition content, chain =>
    match chain with
    | [] => ([], [])
    | c :: ps =>
      let cond := condition.flatten
      let ruleCtx := c.withRuleCondition cond
      let alwaysPrint := Str.startsWith (c! "@keyframes") cond
      let (ch1, o1) :=
        if alwaysPrint then Ctx.start (ruleCtx :: c :: ps) else (ruleCtx :: c :: ps, [])
      let (ch2, o2) := RBC.writes content ch1
      let (ch3, o3) := Ctx.finishChain ch2
      (ch3.tail, o1 ++ o2 ++ o3)
  | .block condition content, chain =>
    match chain with
    | [] => ([], [])
    | c :: ps =>
      let blockCtx := c.withBlockCondition (condStr c.className condition)
      let (ch1, o1) := RBC.writes content (blockCtx :: c :: ps)
      let (ch2, o2) := Ctx.finishChain ch1
      (ch2.tail, o1 ++ o2)
/-- The loops over `content` (`ast/rule.rs` 41-43, `ast/block.rs` 52-54). -/
def RBC.writes : List RBC → List Ctx → List Ctx × Str
  | [], chain => (chain, [])
  | x :: xs, chain =>
    let (ch1, o1) := RBC.write x chain
    let (ch2, o2) := RBC.writes xs ch1
    (ch2, o1 ++ o2)
end

/-- `Sheet::write_style` (`ast/sheet.rs` 73-79). -/
def Sheet.write : Sheet → List Ctx → List Ctx × Str
  | [], chain => (chain, [])
  | x :: xs, chain =>
    let (ch1, o1) := x.toRBC.write chain
    let (ch2, o2) := Sheet.write xs ch1
    (ch2, o1 ++ o2)

/-- `ToStyleStr::to_style_str` (`ast/to_style_str.rs` 6-13) of a sheet. -/
def Sheet.toStyleStr (s : Sheet) (className : Option Str) : Str :=
  (Sheet.write s [Ctx.new className]).2
