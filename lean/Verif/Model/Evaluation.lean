import Verif.Model.Macro

/-!
# Evaluation of emitted code when expressions have effects

`Model/Output.lean` gives each expression one text per evaluation. Here an expression may
also change a state, depend on it, and fail to give a value (a panic, `return`, `?`). The
order of evaluation is that of the emitted tokens: fields of a struct expression and items
of `vec![..]` from first to last. Which code compiles is not repeated here: see
`CSheet.eval` and `Macros.C42_evaluates`.
-/

namespace Output

open Storage

/-- A computation: it changes a state, and gives a value or stops. -/
abbrev Comp (σ α : Type) := σ → Option α × σ

/-- A value without effects. -/
def Comp.pure {σ α : Type} (a : α) : Comp σ α := fun s => (some a, s)

/-- One computation after the other; if the first one stops, the other one is not run. -/
def Comp.bind {σ α β : Type} (m : Comp σ α) (f : α → Comp σ β) : Comp σ β := fun s =>
  match m s with
  | (none, s) => (none, s)
  | (some a, s) => f a s

/-- A function of a result. -/
def Comp.map {σ α β : Type} (f : α → β) (m : Comp σ α) : Comp σ β := m.bind (fun a => .pure (f a))

/-- What expressions do where the macro is called, if some names are imported on top of
those of the surrounding code: `to_string(&(e) as &dyn Display)` (`output/cow_str.rs`
25-29). -/
abbrev World (σ : Type) := List Str → RExpr → Comp σ Str

/-- The names that the emitted block imports (`output/sheet.rs` 18-20). -/
def sheetNames : List Str := [c! "From", c! "Into", c! "Sheet"]

/-- The names that the block around a cached sheet has in addition (`output/sheet.rs`
27-31). -/
def lazyNames : List Str := [c! "Lazy", c! "SHEET_REF"]

section
variable {σ : Type} (w : RExpr → Comp σ Str)

/-- The items of `[..]` and `vec![..]` (`output/maybe_static.rs` 35-37, 45-47). -/
def runAll {α β : Type} (f : α → Comp σ β) : List α → Comp σ (List β)
  | [] => .pure []
  | x :: xs => (f x).bind (fun y => (runAll f xs).map (y :: ·))

/-- `Reify for OutputCowString` (`output/cow_str.rs` 35-52). -/
def runStr : OCow → Comp σ (Cow Str)
  | .str s => .pure ⟨.borrowed, s⟩
  | .raw e => (w e).map (Cow.mk .owned)

/-- `StringFragment { inner: .. }` (`output/str_frag.rs` 101-110). -/
def runFrag (c : OCow) : Comp σ Frag := (runStr w c).map Frag.mk

/-- `into_cow_vec_tokens` (`output/maybe_static.rs` 21-52). -/
def runVec {α β : Type} (f : α → Comp σ β) (v : CVec α) : Comp σ (Cow (List β)) :=
  (runAll f v.items).map (Cow.mk v.place.loc)

/-- `Selector { fragments: .. }` (`output/selector.rs` 19-23). -/
def runSel (v : CVec OCow) : Comp σ Sel := (runVec (runFrag w) v).map Sel.mk

mutual
/-- `Reify for OutputRuleBlockContent` (`output/rule_block_content.rs` 12-66): `condition`
before `content` (`rule.rs` 27-34, `block.rs` 20-25), `key` before `value`
(`style_attr.rs` 23-31). -/
def runRBC : CRBC → Comp σ TRBC
  | .rule bow c place b =>
    (runVec (runFrag w) c).bind (fun c' => (runRBCs b).map (TRBC.rule bow.loc c' place.loc))
  | .block bow c place b =>
    (runVec (runSel w) c).bind (fun c' => (runRBCs b).map (TRBC.block bow.loc c' place.loc))
  | .attr k v => (runStr w k).bind (fun k' => (runVec (runFrag w) v).map (TRBC.attr k'))
/-- Of a list. -/
def runRBCs : List CRBC → Comp σ (List TRBC)
  | [] => .pure []
  | x :: xs => (runRBC x).bind (fun y => (runRBCs xs).map (y :: ·))
end

/-- `Reify for OutputScopeContent` (`output/scope_content.rs` 11-24). -/
def runScope : CScope → Comp σ TScope
  | .rule c place b => (runVec (runFrag w) c).bind (fun c' => (runRBCs w b).map (TScope.rule c' place.loc))
  | .block c place b => (runVec (runSel w) c).bind (fun c' => (runRBCs w b).map (TScope.block c' place.loc))

end

/-- One evaluation of the emitted expression (`output/sheet.rs` 16-38); the cell is that of
`static SHEET_REF`. -/
def CSheet.run {σ : Type} (c : CSheet) (w : World σ) (cell : Cell) : Comp σ (TSheet × Cell) :=
  if c.cached then
    match cell with
    | some t => .pure (t, some t)
    | none => (runVec (runScope (w (lazyNames ++ sheetNames))) c.contents).map (fun t => (t, some t))
  else (runVec (runScope (w sheetNames)) c.contents).map (fun t => (t, cell))

/-- Evaluations of one expansion, one after the other; a failure ends them. -/
def CSheet.runMany {σ : Type} (c : CSheet) (w : World σ) : Nat → Cell → Comp σ (List TSheet)
  | 0, _ => .pure []
  | n + 1, cell => (c.run w cell).bind (fun r => (c.runMany w n r.2).map (r.1 :: ·))

end Output
