import Verif.Model.Parser

/-!
# The stack of the css parser

The parser of `Model/Parser` (`packages/stylist-core/src/parser.rs`) once more, on a stack of
limited size. The parser is recursive: `rule_block` calls itself for its contents
(`parser.rs` 330), `block_contents` and `keyframes` call `rule_block` (`parser.rs` 288, 440),
and `scope_contents` calls itself through `at_rule` (`parser.rs` 472, 506). All other
parsers call each other to a fixed depth.

A limited parser has room for `n` calls of `scope_contents` and `rule_block` that are in
progress at the same time. One more call exhausts the stack, and the program is aborted: no
combinator catches that. The first `Option` is for this; the second is the result of the
parser.
-/

/-- A parser on a limited stack: `none` when the stack is exhausted. -/
abbrev Limited (α : Type) := Str → Option (Option (Str × α))

namespace Depth

/-- A parser that calls others to a fixed depth only. -/
def lift {α : Type} (p : Parser α) : Limited α := fun i => some (p i)

/-- A call for which there is no room. -/
def exhausted {α : Type} : Limited α := fun _ => none

/-- `nom::combinator::map`. -/
def map {α β : Type} (p : Limited α) (f : α → β) : Limited β := fun i =>
  match p i with
  | none => none
  | some none => some none
  | some (some (r, a)) => some (some (r, f a))

/-- `nom::branch::alt` on two alternatives. -/
def alt {α : Type} (p q : Limited α) : Limited α := fun i =>
  match p i with
  | none => none
  | some none => q i
  | some (some x) => some (some x)

/-- `nom::sequence::pair`. -/
def pair {α β : Type} (p : Limited α) (q : Limited β) : Limited (α × β) := fun i =>
  match p i with
  | none => none
  | some none => some none
  | some (some (r, a)) =>
    match q r with
    | none => none
    | some none => some none
    | some (some (r', b)) => some (some (r', (a, b)))

/-- `nom::sequence::preceded`. -/
def preceded {α β : Type} (p : Limited α) (q : Limited β) : Limited β := map (pair p q) Prod.snd

/-- `nom::sequence::terminated`. -/
def terminated {α β : Type} (p : Limited α) (q : Limited β) : Limited α := map (pair p q) Prod.fst

/-- `nom::sequence::delimited`. -/
def delimited {α β γ : Type} (p : Limited α) (q : Limited β) (r : Limited γ) : Limited β :=
  preceded p (terminated q r)

/-- `nom::sequence::separated_pair`. -/
def separatedPair {α β γ : Type} (p : Limited α) (s : Limited β) (q : Limited γ) : Limited (α × γ) :=
  pair p (preceded s q)

/-- The loop of `nom::multi::many0`; a loop takes no room on the stack. -/
def many0Loop {α : Type} (p : Limited α) : Nat → Limited (List α)
  | 0, _ => some none
  | n + 1, i =>
    match p i with
    | none => none
    | some none => some (some (i, []))
    | some (some (r, a)) =>
      if r.length = i.length then some none
      else
        match many0Loop p n r with
        | none => none
        | some none => some none
        | some (some (r', as)) => some (some (r', a :: as))

/-- `nom::multi::many0`. -/
def many0 {α : Type} (p : Limited α) : Limited (List α) := fun i => many0Loop p (i.length + 1) i

/-! ## The parsers of `parser.rs` -/

/-- `expect_non_empty` (`parser.rs` 66-83). -/
def nonEmpty {α : Type} (p : Limited α) : Limited α := fun i =>
  match i with
  | [] => some none
  | _ => p i

/-- `Parser::trimmed` (`parser.rs` 92-108). -/
def trimmed {α : Type} (f : Limited α) : Limited α := delimited (lift Css.sp) f (lift Css.sp)

/-- `many0(alt((attributes, rule_block)))`, flattened (`parser.rs` 280-292, 320-335). -/
def contentsWith (ruleBlock : Limited Css.RuleP) : Limited (List RBC) :=
  map (many0 (alt (lift (Nom.map (Css.attributes false) Css.attrsToRBC))
    (map ruleBlock (fun r => [RBC.rule r.1 r.2])))) List.flatten

/-- `Parser::rule_block_contents` (`parser.rs` 316-337). -/
def ruleBlockContentsWith (ruleBlock : Limited Css.RuleP) : Limited (List RBC) :=
  nonEmpty (contentsWith ruleBlock)

/-- The body shared by both kinds in `Parser::rule_block` (`parser.rs` 350-366). -/
def ruleBlockWith (cond : Parser (List Str)) (ruleBlock : Limited Css.RuleP) : Limited Css.RuleP :=
  trimmed (nonEmpty (separatedPair (lift cond) (lift (Nom.tag (c! "{")))
    (terminated (ruleBlockContentsWith ruleBlock) (lift (Nom.tag (c! "}"))))))

/-- A call of `Parser::rule_block` with `RuleBlockKind::Other` (`parser.rs` 340-367). -/
def ruleBlock : Nat → Limited Css.RuleP
  | 0 => exhausted
  | n + 1 => ruleBlockWith Css.otherCondition (ruleBlock n)

/-- A call of `Parser::rule_block` with `RuleBlockKind::Keyframes` (`parser.rs` 340-367). -/
def ruleBlockKeyframes : Nat → Limited Css.RuleP
  | 0 => exhausted
  | n + 1 => ruleBlockWith (Nom.map (Nom.recognize Css.condition) (fun m => [Str.trim m])) (ruleBlock n)

/-- `Parser::block_contents` (`parser.rs` 276-295). -/
def blockContents (n : Nat) : Limited (List RBC) :=
  trimmed (nonEmpty (contentsWith (ruleBlock n)))

/-- `Parser::block` (`parser.rs` 298-314). -/
def block (n : Nat) : Limited ScopeContent :=
  trimmed (nonEmpty (map
    (pair (lift Css.condition)
      (delimited (lift (Nom.tag (c! "{"))) (trimmed (blockContents n)) (lift (Nom.tag (c! "}")))))
    (fun p => .block p.1 p.2)))

/-- `Parser::keyframes` (`parser.rs` 430-455). -/
def keyframes (n : Nat) : Limited ScopeContent :=
  map (trimmed (separatedPair
      (lift (Css.atRuleCondition (Nom.alt (Nom.tag (c! "@keyframes")) Nom.fail))) (lift (Nom.tag (c! "{")))
      (terminated (many0 (ruleBlockKeyframes n)) (lift (Nom.tag (c! "}"))))))
    (fun p => .rule p.1 (p.2.map (fun r => RBC.rule r.1 r.2)))

/-- `Parser::at_rule` (`parser.rs` 458-494), given the parser of its contents. -/
def atRuleWith (scopeContents : Limited (List ScopeContent)) : Limited ScopeContent :=
  trimmed (nonEmpty (map
    (separatedPair
      (lift (Css.atRuleCondition
        (Nom.alt (Nom.tag (c! "@container")) (Nom.alt (Nom.tag (c! "@supports")) (Nom.tag (c! "@media"))))))
      (lift (Nom.tag (c! "{"))) (terminated scopeContents (lift (Nom.tag (c! "}")))))
    (fun p => .rule p.1 (p.2.map ScopeContent.toRBC))))

/-- The alternatives of `Parser::scope_contents` (`parser.rs` 500-509). -/
def scopeItemWith (n : Nat) (scopeContents : Limited (List ScopeContent)) : Limited ScopeContent :=
  alt (lift Css.danglingBlock) (alt (block n) (alt (atRuleWith scopeContents) (keyframes n)))

/-- A call of `Parser::scope_contents` (`parser.rs` 497-511). -/
def scopeContents : Nat → Limited (List ScopeContent)
  | 0 => exhausted
  | n + 1 => trimmed (nonEmpty (many0 (scopeItemWith n (scopeContents n))))

/-- `Parser::scope` (`parser.rs` 390-395). -/
def scope (n : Nat) : Limited (List ScopeContent) := trimmed (nonEmpty (scopeContents n))

/-- `Parser::sheet` (`parser.rs` 515-523). -/
def sheet (n : Nat) : Limited Sheet := trimmed (map (many0 (scope n)) List.flatten)

/-- `Parser::parse` (`parser.rs` 526-545) on a stack with room for `n` calls: `none` when the
program is aborted, and else the result. -/
def parse (n : Nat) (css : Str) : Option (Option Sheet) := (sheet n css).map (Option.map Prod.snd)

end Depth
