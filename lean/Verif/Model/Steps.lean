import Verif.Model.Parser

/-!
# The work of the css parser

The parser of `Model/Parser` (`packages/stylist-core/src/parser.rs`) once more, with a
counter. A counted parser returns its result and the number of steps: one for each call of a
combinator, one for each round of a loop, and one for each character that is compared,
skipped or handed to a closure of `map` (which trims and copies the text it gets).

The counter stands for time up to a constant factor. Not counted: building and formatting
error messages, `traced_context` (`parser.rs` 28-64).
-/

/-- A parser with the number of its steps. -/
abbrev Counted (α : Type) := Str → Option (Str × α) × Nat

namespace Steps

/-- `nom::combinator::map`: the closure gets what stands for the text that was read. -/
def map {α β : Type} (p : Counted α) (f : α → β) : Counted β := fun i =>
  match p i with
  | (none, k) => (none, k + 1)
  | (some (r, a), k) => (some (r, f a), k + (i.length - r.length) + 1)

/-- `nom::branch::alt` on two alternatives. -/
def alt {α : Type} (p q : Counted α) : Counted α := fun i =>
  match p i with
  | (some x, k) => (some x, k + 1)
  | (none, k) => ((q i).1, k + (q i).2 + 1)

/-- `nom::combinator::fail`. -/
def fail {α : Type} : Counted α := fun _ => (none, 1)

/-- `nom::bytes::complete::tag`. -/
def tag (t : Str) : Counted Str := fun i => (Nom.tag t i, t.length + 1)

/-- `nom::bytes::complete::take_while1`: looks at the characters it takes and at one more. -/
def takeWhile1 (f : Char → Bool) : Counted Str := fun i => (Nom.takeWhile1 f i, (i.takeWhile f).length + 2)

/-- `nom::bytes::complete::is_not`. -/
def isNot (set : Str) : Counted Str := takeWhile1 (fun c => !set.elem c)

/-- `nom::character::complete::none_of`. -/
def noneOf (set : Str) : Counted Char := fun i => (Nom.noneOf set i, 2)

/-- `nom::character::complete::anychar`. -/
def anychar : Counted Char := fun i => (Nom.anychar i, 2)

/-- `nom::character::complete::alpha1`. -/
def alpha1 : Counted Str := takeWhile1 Nom.isAlpha

/-- `nom::character::complete::alphanumeric1`. -/
def alphanumeric1 : Counted Str := takeWhile1 Nom.isAlnum

/-- `nom::combinator::not`. -/
def not {α : Type} (p : Counted α) : Counted Unit := fun i =>
  match p i with
  | (none, k) => (some (i, ()), k + 1)
  | (some _, k) => (none, k + 1)

/-- `nom::combinator::opt`. -/
def opt {α : Type} (p : Counted α) : Counted (Option α) := fun i =>
  match p i with
  | (none, k) => (some (i, none), k + 1)
  | (some (r, a), k) => (some (r, some a), k + 1)

/-- `nom::combinator::recognize`: makes a slice. -/
def recognize {α : Type} (p : Counted α) : Counted Str := fun i =>
  match p i with
  | (none, k) => (none, k + 1)
  | (some (r, _), k) => (some (r, i.take (i.length - r.length)), k + 1)

/-- `nom::sequence::pair`, with what it makes of the two results. -/
def both {α β γ : Type} (f : α → β → γ) (p : Counted α) (q : Counted β) : Counted γ := fun i =>
  match p i with
  | (none, k) => (none, k + 1)
  | (some (r, a), k) =>
    match q r with
    | (none, l) => (none, k + l + 1)
    | (some (r', b), l) => (some (r', f a b), k + l + 1)

/-- `nom::sequence::pair`. -/
def pair {α β : Type} (p : Counted α) (q : Counted β) : Counted (α × β) := both Prod.mk p q

/-- `nom::sequence::preceded`. -/
def preceded {α β : Type} (p : Counted α) (q : Counted β) : Counted β := both (fun _ b => b) p q

/-- `nom::sequence::terminated`. -/
def terminated {α β : Type} (p : Counted α) (q : Counted β) : Counted α := both (fun a _ => a) p q

/-- `nom::sequence::delimited`. -/
def delimited {α β γ : Type} (p : Counted α) (q : Counted β) (r : Counted γ) : Counted β :=
  preceded p (terminated q r)

/-- `nom::sequence::separated_pair`. -/
def separatedPair {α β γ : Type} (p : Counted α) (s : Counted β) (q : Counted γ) : Counted (α × γ) :=
  pair p (preceded s q)

/-- The loop of `nom::multi::many0`. -/
def many0Loop {α : Type} (p : Counted α) : Nat → Counted (List α)
  | 0, _ => (none, 1)
  | n + 1, i =>
    match p i with
    | (none, k) => (some (i, []), k + 1)
    | (some (r, a), k) =>
      if r.length = i.length then (none, k + 1)
      else
        match many0Loop p n r with
        | (none, l) => (none, k + l + 1)
        | (some (r', as), l) => (some (r', a :: as), k + l + 1)

/-- `nom::multi::many0`. -/
def many0 {α : Type} (p : Counted α) : Counted (List α) := fun i => many0Loop p (i.length + 1) i

/-- `nom::multi::many1`. -/
def many1 {α : Type} (p : Counted α) : Counted (List α) := both List.cons p (many0 p)

/-- The loop of `nom::multi::separated_list1`. -/
def sepLoop {α β : Type} (s : Counted α) (p : Counted β) : Nat → Counted (List β)
  | 0, _ => (none, 1)
  | n + 1, i =>
    match s i with
    | (none, j) => (some (i, []), j + 1)
    | (some (r, _), j) =>
      if r.length = i.length then (none, j + 1)
      else
        match p r with
        | (none, k) => (some (i, []), j + k + 1)
        | (some (r', b), k) =>
          match sepLoop s p n r' with
          | (none, l) => (none, j + k + l + 1)
          | (some (r'', bs), l) => (some (r'', b :: bs), j + k + l + 1)

/-- `nom::multi::separated_list1`. -/
def separatedList1 {α β : Type} (s : Counted α) (p : Counted β) : Counted (List β) :=
  both List.cons p (fun r => sepLoop s p (r.length + 1) r)

/-! ## The parsers of `parser.rs` -/

/-- `expect_non_empty` (`parser.rs` 66-83). -/
def nonEmpty {α : Type} (p : Counted α) : Counted α := fun i =>
  match i with
  | [] => (none, 1)
  | _ => ((p i).1, (p i).2 + 1)

/-- `Parser::cmt` (`parser.rs` 113-125). -/
def cmt : Counted Str :=
  delimited (tag (c! "/*"))
    (recognize (many0 (alt (isNot (c! "*")) (terminated (tag (c! "*")) (Steps.not (tag (c! "/")))))))
    (tag (c! "*/"))

/-- `Parser::sp` (`parser.rs` 128-132). -/
def sp : Counted Str :=
  recognize (many0 (alt (takeWhile1 (fun c => (c! " \t\r\n").elem c)) cmt))

/-- `Parser::trimmed` (`parser.rs` 92-108). -/
def trimmed {α : Type} (f : Counted α) : Counted α := delimited sp f sp

/-- `Parser::ident` (`parser.rs` 137-155). -/
def ident : Counted Str :=
  recognize (preceded
    (alt (tag (c! "-")) (alt (tag (c! "_")) (alt alpha1 (takeWhile1 Css.nonAscii))))
    (many0 (alt (tag (c! "-")) (alt (tag (c! "_")) (alt alphanumeric1 (takeWhile1 Css.nonAscii))))))

/-- `Parser::style_attr_key` (`parser.rs` 157-159). -/
def styleAttrKey : Counted Str := trimmed ident

/-- `Parser::string` (`parser.rs` 222-231). -/
def string : Counted Str :=
  trimmed (nonEmpty (recognize (preceded (tag (c! "\""))
    (terminated
      (many0 (alt (isNot (c! "\\\"")) (recognize (preceded (tag (c! "\\")) anychar))))
      (tag (c! "\""))))))

/-- `Parser::interpolation` (`parser.rs` 235-247). -/
def interpolation : Counted Str :=
  trimmed (nonEmpty (delimited (tag (c! "${"))
    (trimmed (recognize (preceded alpha1 (many0 (alt alphanumeric1 (tag (c! "_")))))))
    (tag (c! "}"))))

/-- The alternatives of `Parser::style_attr_value` (`parser.rs` 166-171). -/
def valuePiece : Counted Str :=
  alt (isNot (c! "${;}/\"")) (alt (recognize interpolation) (alt string
    (recognize (preceded (tag (c! "/")) (noneOf (c! "${;}\"*"))))))

/-- `Parser::style_attr_value` (`parser.rs` 162-177). -/
def styleAttrValue : Counted Str := trimmed (map (recognize (many1 valuePiece)) Str.trim)

/-- `Parser::attribute` (`parser.rs` 180-197). -/
def styleAttribute : Counted (Str × List Str) :=
  trimmed (nonEmpty (map (separatedPair styleAttrKey (tag (c! ":")) styleAttrValue)
    (fun p => (Str.trim p.1, [p.2]))))

/-- `final_semicolon` (`parser.rs` 203-209). -/
def finalSemicolon (dangling : Bool) : Counted (Option Str) :=
  if dangling then map (tag (c! ";")) some else opt (tag (c! ";"))

/-- `Parser::attributes` (`parser.rs` 199-218). -/
def attributes (dangling : Bool) : Counted (List (Str × List Str)) :=
  trimmed (nonEmpty (terminated (separatedList1 (tag (c! ";")) styleAttribute)
    (preceded (opt sp) (finalSemicolon dangling))))

/-- The alternatives of `Parser::selector` (`parser.rs` 255-259). -/
def selectorPiece : Counted Str :=
  alt (recognize (preceded (noneOf (c! "$,}@{\"")) (opt (isNot (c! "$,\"{")))))
    (alt string (recognize interpolation))

/-- `Parser::selector` (`parser.rs` 251-263). -/
def selector : Counted Selector :=
  trimmed (nonEmpty (map (recognize (many1 selectorPiece)) (fun p => [Str.trim p])))

/-- `Parser::condition` (`parser.rs` 266-274). -/
def condition : Counted (List Selector) :=
  trimmed (nonEmpty (many1 (terminated selector (opt (tag (c! ","))))))

/-- The piece of text after the tag in `Parser::at_rule_condition` (`parser.rs` 412). -/
def atRulePiece : Counted Str := alt (isNot (c! "${")) (recognize interpolation)

/-- `Parser::at_rule_condition` (`parser.rs` 397-428). -/
def atRuleCondition (tags : Counted Str) : Counted (List Str) :=
  trimmed (nonEmpty (map
    (pair (recognize (terminated tags (tag (c! " "))))
      (map (recognize (many1 atRulePiece)) Str.trim))
    (fun p => [p.1, p.2])))

/-- `many0(alt((attributes, rule_block)))`, flattened (`parser.rs` 280-292, 320-335). -/
def contentsWith (ruleBlock : Counted Css.RuleP) : Counted (List RBC) :=
  map (many0 (alt (map (attributes false) Css.attrsToRBC)
    (map ruleBlock (fun r => [RBC.rule r.1 r.2])))) List.flatten

/-- `Parser::rule_block_contents` (`parser.rs` 316-337). -/
def ruleBlockContentsWith (ruleBlock : Counted Css.RuleP) : Counted (List RBC) :=
  nonEmpty (contentsWith ruleBlock)

/-- The body shared by both kinds in `Parser::rule_block` (`parser.rs` 350-366). -/
def ruleBlockWith (cond : Counted (List Str)) (ruleBlock : Counted Css.RuleP) : Counted Css.RuleP :=
  trimmed (nonEmpty (separatedPair cond (tag (c! "{"))
    (terminated (ruleBlockContentsWith ruleBlock) (tag (c! "}")))))

/-- The condition of `RuleBlockKind::Other` (`parser.rs` 342-344). -/
def otherCondition : Counted (List Str) :=
  atRuleCondition (alt (tag (c! "@container")) (alt (tag (c! "@media")) (tag (c! "@supports"))))

/-- `Parser::rule_block` with `RuleBlockKind::Other` (`parser.rs` 340-367). -/
def ruleBlock : Nat → Counted Css.RuleP
  | 0 => fail
  | n + 1 => ruleBlockWith otherCondition (ruleBlock n)

/-- `Parser::rule_block` with `RuleBlockKind::Keyframes` (`parser.rs` 340-367). -/
def ruleBlockKeyframes (n : Nat) : Counted Css.RuleP :=
  ruleBlockWith (map (recognize condition) (fun m => [Str.trim m])) (ruleBlock n)

/-- `Parser::block_contents` (`parser.rs` 276-295). -/
def blockContents (n : Nat) : Counted (List RBC) :=
  trimmed (nonEmpty (contentsWith (ruleBlock n)))

/-- `Parser::block` (`parser.rs` 298-314). -/
def block (n : Nat) : Counted ScopeContent :=
  trimmed (nonEmpty (map
    (pair condition (delimited (tag (c! "{")) (trimmed (blockContents n)) (tag (c! "}"))))
    (fun p => .block p.1 p.2)))

/-- `Parser::dangling_block` (`parser.rs` 370-387). -/
def danglingBlock : Counted ScopeContent :=
  trimmed (nonEmpty (map (attributes true) (fun l => .block [] (Css.attrsToRBC l))))

/-- `Parser::keyframes` (`parser.rs` 430-455). -/
def keyframes (n : Nat) : Counted ScopeContent :=
  map (trimmed (separatedPair (atRuleCondition (alt (tag (c! "@keyframes")) fail)) (tag (c! "{"))
      (terminated (many0 (ruleBlockKeyframes n)) (tag (c! "}")))))
    (fun p => .rule p.1 (p.2.map (fun r => RBC.rule r.1 r.2)))

/-- `Parser::at_rule` (`parser.rs` 458-494). -/
def atRuleWith (scopeContents : Counted (List ScopeContent)) : Counted ScopeContent :=
  trimmed (nonEmpty (map
    (separatedPair
      (atRuleCondition (alt (tag (c! "@container")) (alt (tag (c! "@supports")) (tag (c! "@media")))))
      (tag (c! "{")) (terminated scopeContents (tag (c! "}"))))
    (fun p => .rule p.1 (p.2.map ScopeContent.toRBC))))

/-- The alternatives of `Parser::scope_contents` (`parser.rs` 500-509). -/
def scopeItemWith (n : Nat) (scopeContents : Counted (List ScopeContent)) : Counted ScopeContent :=
  alt danglingBlock (alt (block n) (alt (atRuleWith scopeContents) (keyframes n)))

/-- `Parser::scope_contents` (`parser.rs` 497-511). -/
def scopeContents : Nat → Counted (List ScopeContent)
  | 0 => fail
  | n + 1 => trimmed (nonEmpty (many0 (scopeItemWith n (scopeContents n))))

/-- `Parser::scope` (`parser.rs` 390-395). -/
def scope (n : Nat) : Counted (List ScopeContent) := trimmed (nonEmpty (scopeContents n))

/-- `Parser::sheet` (`parser.rs` 515-523). -/
def sheet (n : Nat) : Counted Sheet := trimmed (map (many0 (scope n)) List.flatten)

/-- `Parser::parse` (`parser.rs` 526-545): the result, and the number of steps. -/
def parse (css : Str) : Option Sheet × Nat :=
  (((sheet (css.length + 1) css).1).map Prod.snd, (sheet (css.length + 1) css).2 + 1)

end Steps
