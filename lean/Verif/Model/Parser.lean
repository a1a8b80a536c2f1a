import Verif.Model.Nom
import Verif.Model.Ast

/-!
# The css parser

Models `packages/stylist-core/src/parser.rs`, function by function. `traced_context`
(28-64) only adds error context and is dropped.

`rule_block` and `scope_contents` are recursive. They take a budget for the recursion
depth; `parse` passes the input length plus one, which is never exhausted (C11).
-/

namespace Css
open Nom

/-- `expect_non_empty` (`parser.rs` 66-83). -/
def nonEmpty {α : Type} (p : Parser α) : Parser α := fun i =>
  match i with
  | [] => none
  | _ => p i

/-- `Parser::cmt` (`parser.rs` 113-125). -/
def cmt : Parser Str :=
  delimited (tag (c! "/*"))
    (recognize (many0 (alt (isNot (c! "*")) (terminated (tag (c! "*")) (Nom.not (tag (c! "/")))))))
    (tag (c! "*/"))

/-- `Parser::sp` (`parser.rs` 128-132). -/
def sp : Parser Str :=
  recognize (many0 (alt (takeWhile1 (fun c => (c! " \t\r\n").elem c)) cmt))

/-- `Parser::trimmed` (`parser.rs` 92-108). -/
def trimmed {α : Type} (f : Parser α) : Parser α := delimited sp f sp

/-- `!char::is_ascii`. -/
def nonAscii (c : Char) : Bool := decide (128 ≤ c.val.toNat)

/-- `Parser::ident` (`parser.rs` 137-155). -/
def ident : Parser Str :=
  recognize (preceded
    (alt (tag (c! "-")) (alt (tag (c! "_")) (alt alpha1 (takeWhile1 nonAscii))))
    (many0 (alt (tag (c! "-")) (alt (tag (c! "_")) (alt alphanumeric1 (takeWhile1 nonAscii))))))

/-- `Parser::style_attr_key` (`parser.rs` 157-159). -/
def styleAttrKey : Parser Str := trimmed ident

/-- `Parser::string` (`parser.rs` 222-231). -/
def string : Parser Str :=
  trimmed (nonEmpty (recognize (preceded (tag (c! "\""))
    (terminated
      (many0 (alt (isNot (c! "\\\"")) (recognize (preceded (tag (c! "\\")) anychar))))
      (tag (c! "\""))))))

/-- `Parser::interpolation` (`parser.rs` 235-247). -/
def interpolation : Parser Str :=
  trimmed (nonEmpty (delimited (tag (c! "${"))
    (trimmed (recognize (preceded alpha1 (many0 (alt alphanumeric1 (tag (c! "_")))))))
    (tag (c! "}"))))

/-- The alternatives of `Parser::style_attr_value` (`parser.rs` 166-171). -/
def valuePiece : Parser Str :=
  alt (isNot (c! "${;}/\"")) (alt (recognize interpolation) (alt string
    (recognize (preceded (tag (c! "/")) (noneOf (c! "${;}\"*"))))))

/-- `Parser::style_attr_value` (`parser.rs` 162-177). -/
def styleAttrValue : Parser Str := trimmed (map (recognize (many1 valuePiece)) Str.trim)

/-- `Parser::attribute` (`parser.rs` 180-197): key and the list with the single value
fragment. -/
def styleAttribute : Parser (Str × List Str) :=
  trimmed (nonEmpty (map (separatedPair styleAttrKey (tag (c! ":")) styleAttrValue)
    (fun p => (Str.trim p.1, [p.2]))))

/-- `final_semicolon` (`parser.rs` 203-209). -/
def finalSemicolon (dangling : Bool) : Parser (Option Str) :=
  if dangling then map (tag (c! ";")) some else opt (tag (c! ";"))

/-- `Parser::attributes` (`parser.rs` 199-218). -/
def attributes (dangling : Bool) : Parser (List (Str × List Str)) :=
  trimmed (nonEmpty (terminated (separatedList1 (tag (c! ";")) styleAttribute)
    (preceded (opt sp) (finalSemicolon dangling))))

/-- The alternatives of `Parser::selector` (`parser.rs` 255-259). -/
def selectorPiece : Parser Str :=
  alt (recognize (preceded (noneOf (c! "$,}@{\"")) (opt (isNot (c! "$,\"{")))))
    (alt string (recognize interpolation))

/-- `Parser::selector` (`parser.rs` 251-263). -/
def selector : Parser Selector :=
  trimmed (nonEmpty (map (recognize (many1 selectorPiece)) (fun p => [Str.trim p])))

/-- `Parser::condition` (`parser.rs` 266-274). -/
def condition : Parser (List Selector) :=
  trimmed (nonEmpty (many1 (terminated selector (opt (tag (c! ","))))))

/-- The piece of text after the tag in `Parser::at_rule_condition` (`parser.rs` 412). -/
def atRulePiece : Parser Str := alt (isNot (c! "${")) (recognize interpolation)

/-- `Parser::at_rule_condition` (`parser.rs` 397-428). -/
def atRuleCondition (tags : Parser Str) : Parser (List Str) :=
  trimmed (nonEmpty (map
    (pair (recognize (terminated tags (tag (c! " "))))
      (map (recognize (many1 atRulePiece)) Str.trim))
    (fun p => [p.1, p.2])))

/-- `StyleAttribute`s as contents (`parser.rs` 284, 325, 378-382). -/
def attrsToRBC (l : List (Str × List Str)) : List RBC := l.map (fun a => .attr a.1 a.2)

/-- A `Rule` as it is built by the parser: condition and content. -/
abbrev RuleP := List Str × List RBC

/-- `many0(alt((attributes, rule_block)))`, flattened: the common part of
`block_contents` (`parser.rs` 280-292) and `rule_block_contents` (`parser.rs` 320-335). -/
def contentsWith (ruleBlock : Parser RuleP) : Parser (List RBC) :=
  map (many0 (alt (map (attributes false) attrsToRBC)
    (map ruleBlock (fun r => [RBC.rule r.1 r.2])))) List.flatten

/-- `Parser::rule_block_contents` (`parser.rs` 316-337). -/
def ruleBlockContentsWith (ruleBlock : Parser RuleP) : Parser (List RBC) :=
  nonEmpty (contentsWith ruleBlock)

/-- The body shared by both kinds in `Parser::rule_block` (`parser.rs` 350-366). -/
def ruleBlockWith (cond : Parser (List Str)) (ruleBlock : Parser RuleP) : Parser RuleP :=
  trimmed (nonEmpty (separatedPair cond (tag (c! "{"))
    (terminated (ruleBlockContentsWith ruleBlock) (tag (c! "}")))))

/-- The condition of `RuleBlockKind::Other` (`parser.rs` 342-344). -/
def otherCondition : Parser (List Str) :=
  atRuleCondition (alt (tag (c! "@container")) (alt (tag (c! "@media")) (tag (c! "@supports"))))

/-- `Parser::rule_block` with `RuleBlockKind::Other` (`parser.rs` 340-367). -/
def ruleBlock : Nat → Parser RuleP
  | 0 => fail
  | n + 1 => ruleBlockWith otherCondition (ruleBlock n)

/-- `Parser::rule_block` with `RuleBlockKind::Keyframes` (`parser.rs` 340-367); its
contents are parsed with `RuleBlockKind::Other` (`parser.rs` 330). -/
def ruleBlockKeyframes (n : Nat) : Parser RuleP :=
  ruleBlockWith (map (recognize condition) (fun m => [Str.trim m])) (ruleBlock n)

/-- `Parser::block_contents` (`parser.rs` 276-295). -/
def blockContents (n : Nat) : Parser (List RBC) :=
  trimmed (nonEmpty (contentsWith (ruleBlock n)))

/-- `Parser::block` (`parser.rs` 298-314). -/
def block (n : Nat) : Parser ScopeContent :=
  trimmed (nonEmpty (map
    (pair condition (delimited (tag (c! "{")) (trimmed (blockContents n)) (tag (c! "}"))))
    (fun p => .block p.1 p.2)))

/-- `Parser::dangling_block` (`parser.rs` 370-387). -/
def danglingBlock : Parser ScopeContent :=
  trimmed (nonEmpty (map (attributes true) (fun l => .block [] (attrsToRBC l))))

/-- `Parser::keyframes` (`parser.rs` 430-455). -/
def keyframes (n : Nat) : Parser ScopeContent :=
  map (trimmed (separatedPair (atRuleCondition (alt (tag (c! "@keyframes")) fail)) (tag (c! "{"))
      (terminated (many0 (ruleBlockKeyframes n)) (tag (c! "}")))))
    (fun p => .rule p.1 (p.2.map (fun r => RBC.rule r.1 r.2)))

/-- `Parser::at_rule` (`parser.rs` 458-494), given the parser of its contents. -/
def atRuleWith (scopeContents : Parser (List ScopeContent)) : Parser ScopeContent :=
  trimmed (nonEmpty (map
    (separatedPair
      (atRuleCondition (alt (tag (c! "@container")) (alt (tag (c! "@supports")) (tag (c! "@media")))))
      (tag (c! "{")) (terminated scopeContents (tag (c! "}"))))
    (fun p => .rule p.1 (p.2.map ScopeContent.toRBC))))

/-- The alternatives of `Parser::scope_contents` (`parser.rs` 500-509). -/
def scopeItemWith (n : Nat) (scopeContents : Parser (List ScopeContent)) : Parser ScopeContent :=
  alt danglingBlock (alt (block n) (alt (atRuleWith scopeContents) (keyframes n)))

/-- `Parser::scope_contents` (`parser.rs` 497-511). -/
def scopeContents : Nat → Parser (List ScopeContent)
  | 0 => fail
  | n + 1 => trimmed (nonEmpty (many0 (scopeItemWith n (scopeContents n))))

/-- `Parser::scope` (`parser.rs` 390-395). -/
def scope (n : Nat) : Parser (List ScopeContent) := trimmed (nonEmpty (scopeContents n))

/-- `Parser::sheet` (`parser.rs` 515-523). -/
def sheet (n : Nat) : Parser Sheet := trimmed (map (many0 (scope n)) List.flatten)

/-- `Parser::parse` (`parser.rs` 526-545) with recursion budget `n`: the remaining
input is ignored. -/
def parseWith (n : Nat) (css : Str) : Option Sheet := (sheet n css).map Prod.snd

/-- `Parser::parse` (`parser.rs` 526-545). -/
def parse (css : Str) : Option Sheet := parseWith (css.length + 1) css

end Css
