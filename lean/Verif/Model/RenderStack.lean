import Verif.Model.Render

/-!
# The stack of rendering

The rendering of `Model/Render` once more, on a stack of limited size. Two functions are
recursive: `write_style`, which a rule or a block calls for each part of its contents
(`ast/rule.rs` 41-43, `ast/block.rs` 52-54), and `StyleContext::open_parent`, which calls itself for
the parent of a context (`ast/context.rs` 49-57). All other functions call each other to a fixed
depth.

A limited function has room for `n` calls of these two that are in progress at the same time.
One more call exhausts the stack, and the program is aborted; `none` stands for this. The calls of
`write_style` for a `RuleBlockContent` and for the rule, block or declaration in it count as one.
-/

namespace Stack

open Ctx

/-- A call of `open_parent` (`ast/context.rs` 49-57), with the ancestors of `self`. -/
def openParent : Nat → List Ctx → Option (Option Ctx)
  | 0, _ => none
  | _ + 1, [] => some none
  | n + 1, m :: ps => if m.isOpen then some (some m) else openParent n ps

/-- The conditions of the open parent, or `empty()` (`ast/context.rs` 67-69, 81-83). -/
def openParentConditions (n : Nat) (ps : List Ctx) : Option (List Str) :=
  (openParent n ps).map (fun m => match m with | some m => m.conditions | none => [])

/-- `common_conditions` (`ast/context.rs` 66-72). -/
def commonConditions (n : Nat) (c : Ctx) (ps : List Ctx) : Option (List Str) :=
  (openParentConditions n ps).map (fun l => (l.zip c.conditions).filterMap
    (fun (m1, m2) => if m1 = m2 then some m1 else none))

/-- `unique_conditions` (`ast/context.rs` 75-77). -/
def uniqueConditions (n : Nat) (c : Ctx) (ps : List Ctx) : Option (List Str) :=
  (commonConditions n c ps).map (fun l => c.conditions.drop l.length)

/-- `differ_conditions` (`ast/context.rs` 80-85). -/
def differConditions (n : Nat) (c : Ctx) (ps : List Ctx) : Option (List Str) :=
  (openParentConditions n ps).bind (fun p => (commonConditions n c ps).map (fun l => p.drop l.length))

/-- `write_min_padding` (`ast/context.rs` 93-95). -/
def writeMinPadding (n : Nat) (c : Ctx) (ps : List Ctx) : Option Str :=
  (commonConditions n c ps).map (fun l => writePaddingImpl l.length)

/-- The loop of `finish` (`ast/context.rs` 115-119). -/
def finishLoop (n : Nat) (c : Ctx) (ps : List Ctx) : Nat → Option Str
  | 0 => some []
  | i + 1 =>
    (writeMinPadding n c ps).bind (fun p =>
      (finishLoop n c ps i).map (fun rest => p ++ writePaddingImpl i ++ c! "}\n" ++ rest))

/-- `finish` (`ast/context.rs` 113-122). -/
def finish (n : Nat) (c : Ctx) (ps : List Ctx) : Option (Ctx × Str) :=
  if c.isOpen then
    (uniqueConditions n c ps).bind (fun u =>
      (finishLoop n c ps u.length).map (fun out => ({ c with isOpen := false }, out)))
  else some ({ c with isOpen := false }, [])

/-- `close_until_common_parent` (`ast/context.rs` 40-47). `open_parent` is called on `self`: it calls
itself for each of the `k` ancestors that are closed by now and nearer than the rest of the list. -/
def closeUntilCommonParent (n : Nat) (c : Ctx) : Nat → List Ctx → Option (List Ctx × Str)
  | k, [] => (openParent (n - k) []).map (fun _ => ([], []))
  | k, m :: ps =>
    if m.isOpen then
      (differConditions (n - k) c (m :: ps)).bind (fun l =>
        if l.isEmpty then some (m :: ps, [])
        else
          (finish n m ps).bind (fun (m', out) =>
            (closeUntilCommonParent n c (k + 1) ps).map (fun (ps', out') => (m' :: ps', out ++ out'))))
    else (closeUntilCommonParent n c (k + 1) ps).map (fun (ps', out') => (m :: ps', out'))

/-- The loop of `start` (`ast/context.rs` 102-107). -/
def startLoop (n : Nat) (c : Ctx) (ps : List Ctx) : Nat → List Str → Option Str
  | _, [] => some []
  | index, cond :: rest =>
    (writeMinPadding n c ps).bind (fun p =>
      (startLoop n c ps (index + 1) rest).map (fun out => p ++ writePaddingImpl index ++ cond ++ c! " {\n" ++ out))

/-- `start` (`ast/context.rs` 98-110) on a chain. -/
def start (n : Nat) : List Ctx → Option (List Ctx × Str)
  | [] => some ([], [])
  | c :: ps =>
    if c.isOpen then some ({ c with isOpen := true } :: ps, [])
    else
      (closeUntilCommonParent n c 0 ps).bind (fun (ps', out) =>
        (uniqueConditions n c ps').bind (fun u =>
          (startLoop n c ps' 0 u).map (fun out' => ({ c with isOpen := true } :: ps', out ++ out'))))

/-- `finish` on a chain. -/
def finishChain (n : Nat) : List Ctx → Option (List Ctx × Str)
  | [] => some ([], [])
  | c :: ps => (finish n c ps).map (fun (c', out) => (c' :: ps, out))

mutual
/-- A call of `RuleBlockContent::write_style` (`ast/rule_block_content.rs` 20-28), with those of
`StyleAttribute::write_style` (`ast/style_attr.rs` 17-32), `Rule::write_style` (`ast/rule.rs` 26-47)
and `Block::write_style` (`ast/block.rs` 45-58). -/
def write : RBC → Nat → List Ctx → Option (List Ctx × Str)
  | _, 0, _ => none
  | .attr key value, n + 1, chain =>
    (start n chain).map (fun (chain', out) =>
      match chain' with
      | [] => ([], out)
      | c :: ps => (c :: ps, out ++ c.writePadding ++ key ++ c! ": " ++ value.flatten ++ c! ";\n"))
  | .rule condition content, n + 1, chain =>
    match chain with
    | [] => some ([], [])
    | c :: ps =>
      let cond := condition.flatten
      let ruleCtx := c.withRuleCondition cond
      let alwaysPrint := Str.startsWith (c! "@keyframes") cond
      (if alwaysPrint then start n (ruleCtx :: c :: ps) else some (ruleCtx :: c :: ps, [])).bind (fun (ch1, o1) =>
        (writes content n ch1).bind (fun (ch2, o2) =>
          (finishChain n ch2).map (fun (ch3, o3) => (ch3.tail, o1 ++ o2 ++ o3))))
  | .block condition content, n + 1, chain =>
    match chain with
    | [] => some ([], [])
    | c :: ps =>
      let blockCtx := c.withBlockCondition (condStr c.className condition)
      (writes content n (blockCtx :: c :: ps)).bind (fun (ch1, o1) =>
        (finishChain n ch1).map (fun (ch2, o2) => (ch2.tail, o1 ++ o2)))
/-- The loops over `content` (`ast/rule.rs` 41-43, `ast/block.rs` 52-54); a loop takes no room. -/
def writes : List RBC → Nat → List Ctx → Option (List Ctx × Str)
  | [], _, chain => some (chain, [])
  | x :: xs, n, chain =>
    (write x n chain).bind (fun (ch1, o1) => (writes xs n ch1).map (fun (ch2, o2) => (ch2, o1 ++ o2)))
end

/-- `Sheet::write_style` (`ast/sheet.rs` 73-79). -/
def writeSheet : Sheet → Nat → List Ctx → Option (List Ctx × Str)
  | [], _, chain => some (chain, [])
  | x :: xs, n, chain =>
    (write x.toRBC n chain).bind (fun (ch1, o1) => (writeSheet xs n ch1).map (fun (ch2, o2) => (ch2, o1 ++ o2)))

/-- `ToStyleStr::to_style_str` (`ast/to_style_str.rs` 6-13) of a sheet, on a stack with room for
`n` calls: `none` when the program is aborted, and else the text. -/
def toStyleStr (n : Nat) (s : Sheet) (className : Option Str) : Option Str :=
  (writeSheet s n [Ctx.new className]).map Prod.snd

end Stack
