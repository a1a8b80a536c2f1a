import Verif.Model.Render

/-!
# The work of rendering

The rendering of `Model/Render` once more, with a counter. Each function returns what it returns
there, and the number of steps: one for each call, one for each round of a loop or of an iterator,
and one for each character that is compared, searched, copied or written.

The counter stands for time up to a constant factor. The search for `:root` is counted with five
steps for each character. Appending to a `String` is counted with the characters that are appended;
copying on growth is in the constant factor.
-/

namespace Work

open Ctx

/-- `open_parent` (`ast/context.rs` 49-57). -/
def openParent : List Ctx → Option Ctx × Nat
  | [] => (none, 1)
  | m :: ps => if m.isOpen then (some m, 1) else ((openParent ps).1, 1 + (openParent ps).2)

/-- The comparison of two texts: up to the first difference. -/
def compareSteps : Str → Str → Nat
  | [], _ => 1
  | _ :: _, [] => 1
  | a :: s, b :: t => if a = b then 1 + compareSteps s t else 1

/-- The comparisons in `common_conditions` (`ast/context.rs` 70-71): a `zip` and a `filter_map`. -/
def zipSteps : List Str → List Str → Nat
  | [], _ => 1
  | _ :: _, [] => 1
  | a :: s, b :: t => 1 + compareSteps a b + zipSteps s t

/-- The conditions of the open parent, or `empty()` (`ast/context.rs` 67-69, 81-83). -/
def openParentConditions (ps : List Ctx) : List Str × Nat :=
  match openParent ps with
  | (some m, k) => (m.conditions, k + 1)
  | (none, k) => ([], k + 1)

/-- `common_conditions` (`ast/context.rs` 66-72), run to its end. -/
def commonConditions (c : Ctx) (ps : List Ctx) : List Str × Nat :=
  let (l, k) := openParentConditions ps
  ((l.zip c.conditions).filterMap (fun (m1, m2) => if m1 = m2 then some m1 else none), k + zipSteps l c.conditions)

/-- `unique_conditions` (`ast/context.rs` 75-77), run to its end. -/
def uniqueConditions (c : Ctx) (ps : List Ctx) : List Str × Nat :=
  let (l, k) := commonConditions c ps
  (c.conditions.drop l.length, k + c.conditions.length + 1)

/-- `differ_conditions` (`ast/context.rs` 80-85), run to its end. -/
def differConditions (c : Ctx) (ps : List Ctx) : List Str × Nat :=
  let (p, k) := openParentConditions ps
  let (l, k') := commonConditions c ps
  (p.drop l.length, k + k' + p.length + 1)

/-- `write_padding_impl` (`ast/context.rs` 87-91). -/
def writePaddingImpl (n : Nat) : Str × Nat := (Ctx.writePaddingImpl n, 5 * n + 1)

/-- `write_min_padding` (`ast/context.rs` 93-95). -/
def writeMinPadding (c : Ctx) (ps : List Ctx) : Str × Nat :=
  let (l, k) := commonConditions c ps
  let (out, k') := writePaddingImpl l.length
  (out, k + k' + 1)

/-- The loop of `finish` (`ast/context.rs` 115-119). -/
def finishLoop (c : Ctx) (ps : List Ctx) : Nat → Str × Nat
  | 0 => ([], 1)
  | i + 1 =>
    let (p, k) := writeMinPadding c ps
    let (q, l) := writePaddingImpl i
    let (rest, r) := finishLoop c ps i
    (p ++ q ++ c! "}\n" ++ rest, k + l + 2 + r + 1)

/-- `finish` (`ast/context.rs` 113-122). -/
def finish (c : Ctx) (ps : List Ctx) : (Ctx × Str) × Nat :=
  if c.isOpen then
    let (u, k) := uniqueConditions c ps
    let (out, l) := finishLoop c ps u.length
    (({ c with isOpen := false }, out), k + l + 1)
  else (({ c with isOpen := false }, []), 1)

/-- `close_until_common_parent` (`ast/context.rs` 40-47). `open_parent` is called on `self` in each
round, and `differ_conditions` calls it again: both pass the `n` ancestors that are closed by now and
nearer than the rest of the list. -/
def closeUntilCommonParent (c : Ctx) : Nat → List Ctx → (List Ctx × Str) × Nat
  | n, [] => (([], []), n + 1)
  | n, m :: ps =>
    if m.isOpen then
      let (l, k) := differConditions c (m :: ps)
      if l.isEmpty then ((m :: ps, []), n + 1 + (2 * n + k))
      else
        let ((m', out), r) := finish m ps
        let ((ps', out'), r') := closeUntilCommonParent c (n + 1) ps
        ((m' :: ps', out ++ out'), n + 1 + (2 * n + k) + r + r')
    else
      let ((ps', out'), r') := closeUntilCommonParent c (n + 1) ps
      ((m :: ps', out'), r')

/-- The loop of `start` (`ast/context.rs` 102-107). -/
def startLoop (c : Ctx) (ps : List Ctx) : Nat → List Str → Str × Nat
  | _, [] => ([], 1)
  | index, cond :: rest =>
    let (p, k) := writeMinPadding c ps
    let (q, l) := writePaddingImpl index
    let (out, r) := startLoop c ps (index + 1) rest
    (p ++ q ++ cond ++ c! " {\n" ++ out, k + l + cond.length + 3 + r + 1)

/-- `start` (`ast/context.rs` 98-110) on a chain. -/
def start : List Ctx → (List Ctx × Str) × Nat
  | [] => (([], []), 1)
  | c :: ps =>
    if c.isOpen then (({ c with isOpen := true } :: ps, []), 1)
    else
      let ((ps', out), k) := closeUntilCommonParent c 0 ps
      let (u, l) := uniqueConditions c ps'
      let (out', r) := startLoop c ps' 0 u
      (({ c with isOpen := true } :: ps', out ++ out'), k + l + r + 1)

/-- `finish` on a chain. -/
def finishChain : List Ctx → (List Ctx × Str) × Nat
  | [] => (([], []), 1)
  | c :: ps => let ((c', out), k) := finish c ps; ((c' :: ps, out), k)

/-- `write_padding` (`ast/context.rs` 125-127). -/
def writePadding (c : Ctx) : Str × Nat :=
  let (out, k) := writePaddingImpl c.conditions.length
  (out, k + c.conditions.length + 1)

/-- The loops over fragments (`ast/rule.rs` 28-30, `ast/selector.rs` 21-23, `ast/style_attr.rs` 26-28):
one call and the characters for each fragment (`ast/str_frag.rs` 13-17). -/
def writeFragments (l : List Str) : Str × Nat := (l.flatten, l.flatten.length + l.length + 1)

/-- The characters of the selector of a context. -/
def selectorChars (c : Ctx) : Nat := (c.selector.getD []).length

/-- `with_block_condition` (`ast/context.rs` 130-153): copies the list of rules and the selector. -/
def withBlockCondition (c : Ctx) (cond : Option Str) : Ctx × Nat :=
  (c.withBlockCondition cond, c.rules.length + selectorChars c + (c.className.getD []).length + 7)

/-- `with_rule_condition` (`ast/context.rs` 156-168). -/
def withRuleCondition (c : Ctx) (cond : Str) : Ctx × Nat :=
  (c.withRuleCondition cond, c.rules.length + selectorChars c + 2)

/-- `Selector::write_style` (`ast/selector.rs` 18-54). -/
def writeSelector (className : Option Str) (sel : Selector) : Str × Nat :=
  let (joined, k) := writeFragments sel
  match className with
  | some m =>
    let scopedClass : Str := '.' :: m
    if Str.containsChar '&' joined || Str.contains (c! ":root") joined then
      let a := Str.replaceChar '&' scopedClass joined
      let b := Str.replace (c! ":root") scopedClass a
      (b, k + scopedClass.length + (joined.length + 1) + 5 * (joined.length + 1) +
        (joined.length + a.length) + (5 * (a.length + 1) + b.length) + b.length)
    else
      let out := scopedClass ++ (if Str.startsWith (c! ":") joined then [] else [' ']) ++ joined
      (out, k + scopedClass.length + (joined.length + 1) + 5 * (joined.length + 1) + 1 + out.length)
  | none =>
    if Str.containsChar '&' joined then
      let out := Str.replaceChar '&' (c! ":root") joined
      (out, k + (joined.length + 1) + (joined.length + out.length) + out.length)
    else (joined, k + (joined.length + 1) + joined.length)

/-- The loop of `Block::cond_str` (`ast/block.rs` 34-39). -/
def writeSelectors (className : Option Str) : List Selector → Str × Nat
  | [] => ([], 1)
  | [s] => let (out, k) := writeSelector className s; (out, k + 2)
  | s :: t =>
    let (out, k) := writeSelector className s
    let (rest, r) := writeSelectors className t
    (out ++ c! ", " ++ rest, k + 2 + r + 1)

/-- `Block::cond_str` (`ast/block.rs` 27-42). -/
def condStr (className : Option Str) (condition : List Selector) : Option Str × Nat :=
  if condition.isEmpty then (none, 1)
  else let (out, k) := writeSelectors className condition; (some out, k + 1)

mutual
/-- `RuleBlockContent::write_style` (`ast/rule_block_content.rs` 20-28) with
`StyleAttribute::write_style` (`ast/style_attr.rs` 17-32), `Rule::write_style`
(`ast/rule.rs` 26-47) and `Block::write_style` (`ast/block.rs` 45-58). -/
def write : RBC → List Ctx → (List Ctx × Str) × Nat
  | .attr key value, chain =>
    let ((chain', out), k) := start chain
    match chain' with
    | [] => (([], out), k + 1)
    | c :: ps =>
      let (p, l) := writePadding c
      let (v, r) := writeFragments value
      ((c :: ps, out ++ p ++ key ++ c! ": " ++ v ++ c! ";\n"), k + l + key.length + 2 + r + 2 + 1)
  | .rule condition content, chain =>
    match chain with
    | [] => (([], []), 1)
    | c :: ps =>
      let (cond, k) := writeFragments condition
      let (ruleCtx, l) := withRuleCondition c cond
      let alwaysPrint := Str.startsWith (c! "@keyframes") cond
      let ((ch1, o1), r) := if alwaysPrint then start (ruleCtx :: c :: ps) else ((ruleCtx :: c :: ps, []), 1)
      let ((ch2, o2), r2) := writes content ch1
      let ((ch3, o3), r3) := finishChain ch2
      ((ch3.tail, o1 ++ o2 ++ o3), k + l + 11 + r + r2 + r3 + 1)
  | .block condition content, chain =>
    match chain with
    | [] => (([], []), 1)
    | c :: ps =>
      let (cond, k) := condStr c.className condition
      let (blockCtx, l) := withBlockCondition c cond
      let ((ch1, o1), r1) := writes content (blockCtx :: c :: ps)
      let ((ch2, o2), r2) := finishChain ch1
      ((ch2.tail, o1 ++ o2), k + l + r1 + r2 + 1)
/-- The loops over `content` (`ast/rule.rs` 41-43, `ast/block.rs` 52-54). -/
def writes : List RBC → List Ctx → (List Ctx × Str) × Nat
  | [], chain => ((chain, []), 1)
  | x :: xs, chain =>
    let ((ch1, o1), k) := write x chain
    let ((ch2, o2), l) := writes xs ch1
    ((ch2, o1 ++ o2), k + l + 1)
end

/-- `Sheet::write_style` (`ast/sheet.rs` 73-79). -/
def writeSheet : Sheet → List Ctx → (List Ctx × Str) × Nat
  | [], chain => ((chain, []), 1)
  | x :: xs, chain =>
    let ((ch1, o1), k) := write x.toRBC chain
    let ((ch2, o2), l) := writeSheet xs ch1
    ((ch2, o1 ++ o2), k + l + 1)

/-- `ToStyleStr::to_style_str` (`ast/to_style_str.rs` 6-13) of a sheet: the text and the number of
steps. -/
def toStyleStr (s : Sheet) (className : Option Str) : Str × Nat :=
  let ((_, out), k) := writeSheet s [Ctx.new className]
  (out, k + 1)

end Work
