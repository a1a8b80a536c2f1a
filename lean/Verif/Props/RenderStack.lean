import Verif.Proofs.RenderStack
import Verif.Props.Depth
import Verif.Props.Parser

/-!
# The stack of rendering

C109: how much stack rendering needs depends on how deep a sheet is nested, and on nothing else.
-/

namespace Stack

open Spec

/-- **C109.** On any stack, rendering gives its text or exhausts the stack: a smaller stack never
changes the text. -/
theorem C109_result (n : Nat) (s : Sheet) (cls : Option Str) :
    toStyleStr n s cls = none ∨ toStyleStr n s cls = some (s.toStyleStr cls) := by
  rw [StackP.toStyleStr_eq]
  unfold StackP.With
  split
  · exact .inr rfl
  · exact .inl rfl

/-- **C109.** Any sheet is rendered on a stack with room for two calls for each of its levels and one
more, however long it is. -/
theorem C109_enough (n : Nat) (s : Sheet) (cls : Option Str) (h : 2 * levels s < n) :
    toStyleStr n s cls = some (s.toStyleStr cls) := by
  rw [StackP.toStyleStr_eq, StackP.with_pos]
  have := StackP.rooms_le (s.map ScopeContent.toRBC) [Ctx.new cls]
  simp only [List.length_singleton] at this
  unfold StackP.roomSheet
  unfold levels at h
  omega

/-- **C109.** With less room than the levels of the sheet it is not. -/
theorem C109_needed (n : Nat) (s : Sheet) (cls : Option Str) (h : n < levels s) : toStyleStr n s cls = none := by
  rw [StackP.toStyleStr_eq, StackP.with_neg]
  have := StackP.le_rooms (s.map ScopeContent.toRBC) [Ctx.new cls] (by simp)
  unfold StackP.roomSheet
  unfold levels at h
  omega

/-- A declaration in `n` at-rules. -/
def tower : Nat → Sheet
  | 0 => [.block [] [.attr (c! "b") [c! "c"]]]
  | n + 1 => [.rule [c! "@media ", c! "a"] ((tower n).map ScopeContent.toRBC)]

theorem tower_levels : ∀ n, levels (tower n) = n + 2
  | 0 => rfl
  | n + 1 => by
    have := tower_levels n
    unfold levels at this ⊢
    simp only [tower, List.map_cons, List.map_nil, ScopeContent.toRBC, levelsRBCs, levelsRBC, this]
    omega

theorem close_closed (c : Ctx) : ∀ ps : List Ctx, (∀ m ∈ ps, m.isOpen = false) → Ctx.closeUntilCommonParent c ps = (ps, [])
  | [], _ => rfl
  | m :: ps, h => by
    have hm := h m List.mem_cons_self
    rw [Ctx.closeUntilCommonParent, close_closed c ps (fun x hx => h x (List.mem_cons_of_mem _ hx))]
    simp [hm]

theorem walk_closed : ∀ ps : List Ctx, (∀ m ∈ ps, m.isOpen = false) → StackP.walk ps = ps.length
  | [], _ => rfl
  | m :: ps, h => by
    have hm := h m List.mem_cons_self
    rw [StackP.walk, walk_closed ps (fun x hx => h x (List.mem_cons_of_mem _ hx))]
    simp only [hm, Bool.false_eq_true, if_false, List.length_cons]
    omega

theorem tower_room : ∀ (n : Nat) (c : Ctx) (ps : List Ctx), (∀ m ∈ c :: ps, m.isOpen = false) →
    2 * n + 3 + (c :: ps).length ≤ StackP.rooms ((tower n).map ScopeContent.toRBC) (c :: ps)
  | 0, c, ps, h => by
    have h1 := close_closed (c.withBlockCondition (condStr c.className [])) _ h
    have h2 := walk_closed _ h
    simp only [tower, List.map_cons, List.map_nil, ScopeContent.toRBC, StackP.rooms, StackP.room, StackP.startNeed, h1]
    rw [h2]
    simp only [Ctx.withBlockCondition, Bool.false_eq_true, if_false]
    omega
  | n + 1, c, ps, h => by
    have h0 : ∀ m ∈ c.withRuleCondition [c! "@media ", c! "a"].flatten :: c :: ps, m.isOpen = false := by
      intro m hm
      rcases List.mem_cons.1 hm with rfl | hm
      · rfl
      · exact h m hm
    have h1 := tower_room n _ _ h0
    have h2 : Str.startsWith (c! "@keyframes") [c! "@media ", c! "a"].flatten = false := by decide
    simp only [tower, List.map_cons, List.map_nil, ScopeContent.toRBC, StackP.rooms, StackP.room, h2, Bool.false_eq_true, if_false,
      List.length_cons] at h1 ⊢
    omega

/-- **C109.** Two calls for each level are needed: for every depth there is a sheet that is not
rendered with less. -/
theorem C109_limit_twice (n : Nat) (cls : Option Str) :
    levels (tower n) = n + 2 ∧ toStyleStr (2 * levels (tower n) - 1) (tower n) cls = none ∧
      toStyleStr (2 * levels (tower n) + 1) (tower n) cls = some ((tower n).toStyleStr cls) := by
  refine ⟨tower_levels n, ?_, C109_enough _ _ _ (by omega)⟩
  have := tower_room n (Ctx.new cls) [] (by simp [Ctx.new])
  rw [tower_levels, StackP.toStyleStr_eq, StackP.with_neg]
  unfold StackP.roomSheet
  simp only [List.length_singleton] at this
  omega

/-! ## Css in a string -/

theorem item_levels : ∀ (x : RBC), Item x → levelsRBC x ≤ bracesRBC x + 1
  | .attr _ _, _ => by simp [levelsRBC, bracesRBC]
  | .rule _ content, h => by
    cases h with
    | rule _ _ _ h =>
      have := levels_le (n := bracesRBCs content + 1) (l := content) (fun x hx => by
        have h1 := item_levels x (h x hx)
        have h2 := braces_mem hx
        omega)
      simp only [levelsRBC, bracesRBC]
      omega
  | .block _ _, h => by cases h
where
  levels_le {n : Nat} : ∀ {l : List RBC}, (∀ x ∈ l, levelsRBC x ≤ n) → levelsRBCs l ≤ n
    | [], _ => Nat.zero_le _
    | x :: xs, h => by
      have h1 := h x List.mem_cons_self
      have h2 := levels_le (l := xs) (fun y hy => h y (List.mem_cons_of_mem _ hy))
      simp only [levelsRBCs]
      omega
  braces_mem : ∀ {l : List RBC} {x : RBC}, x ∈ l → bracesRBC x ≤ bracesRBCs l
    | y :: ys, x, h => by
      simp only [bracesRBCs]
      rcases List.mem_cons.1 h with rfl | h
      · omega
      · have := braces_mem h
        omega

theorem scope_levels : ∀ (x : RBC), ScopeItem x → levelsRBC x ≤ bracesRBC x + 2
  | .attr _ _, h => by cases h
  | .rule _ content, h => by
    cases h with
    | rule _ _ _ h =>
      have := item_levels.levels_le (n := bracesRBCs content + 2) (l := content) (fun x hx => by
        have h1 := scope_levels x (h x hx)
        have h2 := item_levels.braces_mem hx
        omega)
      simp only [levelsRBC, bracesRBC]
      omega
    | keyframes _ _ _ h =>
      have := item_levels.levels_le (n := bracesRBCs content + 1) (l := content) (fun x hx => by
        obtain ⟨t, cs, rfl, -, hc⟩ := h x hx
        have h2 := item_levels.braces_mem hx
        have := item_levels.levels_le (n := bracesRBCs cs + 1) (l := cs) (fun y hy => by
          have h1 := item_levels y (hc y hy)
          have h2 := item_levels.braces_mem hy
          omega)
        simp only [levelsRBC, bracesRBC] at h2 ⊢
        omega)
      simp only [levelsRBC, bracesRBC]
      omega
  | .block sels content, h => by
    cases h with
    | dangling _ _ h =>
      have := item_levels.levels_le (n := 1) (l := content) (fun x hx => by
        obtain ⟨k, v, rfl, -⟩ := h x hx
        simp [levelsRBC])
      simp only [levelsRBC]
      omega
    | block _ _ hne _ h =>
      have := item_levels.levels_le (n := bracesRBCs content + 1) (l := content) (fun x hx => by
        have h1 := item_levels x (h x hx)
        have h2 := item_levels.braces_mem hx
        omega)
      cases sels with
      | nil => exact absurd rfl hne
      | cons => simp only [levelsRBC, bracesRBC]; omega

/-- **C109.** What could be read can be rendered: if the parser had room for `n` calls (C95), room for
`2 * n + 3` calls is enough for the text. -/
theorem C109_parsed (n : Nat) (hn : 0 < n) (css : Str) (s : Sheet) (h : Depth.parse n css = some (some s)) (cls : Option Str) :
    toStyleStr (2 * n + 3) s cls = some (s.toStyleStr cls) := by
  have hp : Css.parse css = some s := by
    rcases Depth.C95_result n css with e | e
    · rw [e] at h; cases h
    · rw [e] at h; exact Option.some.inj h
  have h0 : levels s ≤ nesting s + 2 := item_levels.levels_le (fun x hx => by
    obtain ⟨y, hy, rfl⟩ := List.mem_map.1 hx
    have h1 := scope_levels _ (C14_shape css s hp y hy)
    have h2 := item_levels.braces_mem hx
    unfold nesting
    omega)
  have h1 := (Depth.C95_exact n hn css s hp).1 h
  exact C109_enough _ _ _ (by omega)

-- three blocks after each other need as much as one; each at-rule around them needs two calls more
example :
    let s : Sheet := [.block [[c! "a"]] [.attr (c! "b") [c! "c"], .attr (c! "d") [c! "e"]], .block [[c! "f"]] [.attr (c! "g") [c! "h"]],
      .block [] [.attr (c! "i") [c! "j"]]]
    let t : Sheet := [.rule [c! "@media ", c! "x"] (s.map ScopeContent.toRBC)]
    levels s = 2 ∧ toStyleStr 3 s (some (c! "k")) = none ∧ (toStyleStr 4 s (some (c! "k"))).isSome = true ∧
      levels t = 3 ∧ toStyleStr 5 t (some (c! "k")) = none ∧ (toStyleStr 6 t (some (c! "k"))).isSome = true := by
  decide +kernel

end Stack
