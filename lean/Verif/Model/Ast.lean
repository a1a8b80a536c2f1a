import Verif.Base

/-!
# The syntax tree

Models `packages/stylist-core/src/ast/{sheet,scope_content,block,rule,rule_block_content,
style_attr,selector,str_frag}.rs`. `Arc`, `Cow` and `Bow` are erased: all of them
compare, hash and print through `Deref` (`bow.rs` 39-82); see C54.
-/

/-- `Selector { fragments: Cow<[StringFragment]> }` (`ast/selector.rs` 13-16); a
`StringFragment` is its text (`ast/str_frag.rs` 8-11). -/
abbrev Selector := List Str

/-- `RuleBlockContent` (`ast/rule_block_content.rs` 7-12) with its payloads
`StyleAttribute` (`ast/style_attr.rs` 11-15), `Rule` (`ast/rule.rs` 20-24) and
`Block` (`ast/block.rs` 16-24) inlined. -/
inductive RBC where
  | attr (key : Str) (value : List Str)
  | rule (condition : List Str) (content : List RBC)
  | block (condition : List Selector) (content : List RBC)

/-- `ScopeContent` (`ast/scope_content.rs` 25-29), payloads inlined. -/
inductive ScopeContent where
  | block (condition : List Selector) (content : List RBC)
  | rule (condition : List Str) (content : List RBC)

/-- `Sheet` (`ast/sheet.rs` 11-12). -/
abbrev Sheet := List ScopeContent

/-- The `RuleBlockContent` with the same payload; used because
`ScopeContent::write_style` (`ast/scope_content.rs` 31-38) and
`RuleBlockContent::write_style` (`ast/rule_block_content.rs` 20-28) delegate to the
same `Block::write_style` / `Rule::write_style`. -/
def ScopeContent.toRBC : ScopeContent → RBC
  | .block c b => .block c b
  | .rule c b => .rule c b

mutual
/-- The derived `PartialEq for RuleBlockContent` (`ast/rule_block_content.rs` 7),
structural through `Bow` and `Cow`. -/
def RBC.beq : RBC → RBC → Bool
  | .attr k v, .attr k' v' => decide (k = k') && decide (v = v')
  | .rule c b, .rule c' b' => decide (c = c') && RBC.beqs b b'
  | .block c b, .block c' b' => decide (c = c') && RBC.beqs b b'
  | _, _ => false
/-- Slice equality of contents. -/
def RBC.beqs : List RBC → List RBC → Bool
  | [], [] => true
  | x :: xs, y :: ys => RBC.beq x y && RBC.beqs xs ys
  | _, _ => false
end

mutual
theorem RBC.beq_iff : ∀ x y : RBC, RBC.beq x y = true ↔ x = y
  | .attr k v, y => by cases y <;> simp [RBC.beq]
  | .rule c b, y => by cases y <;> simp [RBC.beq, RBC.beqs_iff b]
  | .block c b, y => by cases y <;> simp [RBC.beq, RBC.beqs_iff b]
theorem RBC.beqs_iff : ∀ x y : List RBC, RBC.beqs x y = true ↔ x = y
  | [], y => by cases y <;> simp [RBC.beqs]
  | x :: xs, y => by cases y <;> simp [RBC.beqs, RBC.beq_iff x, RBC.beqs_iff xs]
end

instance : DecidableEq RBC := fun x y => decidable_of_iff _ (RBC.beq_iff x y)

deriving instance DecidableEq for ScopeContent

deriving instance Repr for RBC
deriving instance Repr for ScopeContent
