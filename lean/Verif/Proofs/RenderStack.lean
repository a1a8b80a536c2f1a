import Verif.Model.RenderStack
import Verif.Spec.RenderStack

/-!
# The stack of rendering

How many calls each function of `Model/RenderStack` needs.
-/

namespace StackP

open Ctx Spec

/-- The closed contexts before the first open one. -/
def walk : List Ctx → Nat
  | [] => 0
  | m :: ps => if m.isOpen then 0 else 1 + walk ps

theorem walk_le : ∀ ps, walk ps ≤ ps.length
  | [] => Nat.le_refl _
  | m :: ps => by
    have := walk_le ps
    simp only [walk, List.length_cons]
    split <;> omega

/-- A result that needs room for `k` calls. -/
def With {α : Type} (k n : Nat) (a : α) : Option α := if k ≤ n then some a else none

theorem with_pos {α : Type} {k n : Nat} {a : α} (h : k ≤ n) : With k n a = some a := if_pos h

theorem with_neg {α : Type} {k n : Nat} {a : α} (h : ¬ k ≤ n) : With k n a = none := if_neg h

theorem with_map {α β : Type} (k n : Nat) (a : α) (f : α → β) : (With k n a).map f = With k n (f a) := by
  unfold With; split <;> rfl

theorem with_bind {α β : Type} (k l n : Nat) (a : α) (b : β) (f : α → Option β) (h : f a = With l n b) :
    (With k n a).bind f = With (max k l) n b := by
  unfold With at *
  by_cases h1 : k ≤ n
  · rw [if_pos h1]
    simp only [Option.bind_some, h]
    by_cases h2 : l ≤ n
    · rw [if_pos h2, if_pos (by omega)]
    · rw [if_neg h2, if_neg (by omega)]
  · rw [if_neg h1, if_neg (by omega)]
    rfl

theorem openParent_eq : ∀ (n : Nat) (ps : List Ctx), Stack.openParent n ps = With (1 + walk ps) n (Ctx.openParent ps)
  | 0, ps => by rw [with_neg (by omega)]; cases ps <;> rfl
  | n + 1, [] => by rw [with_pos (by simp [walk])]; rfl
  | n + 1, m :: ps => by
    simp only [Stack.openParent, Ctx.openParent, walk]
    by_cases h : m.isOpen = true
    · simp [h, With]
    · simp only [h, Bool.false_eq_true, if_false]
      rw [openParent_eq n ps]
      unfold With
      by_cases h1 : 1 + walk ps ≤ n
      · rw [if_pos h1, if_pos (by omega)]
      · rw [if_neg h1, if_neg (by omega)]

theorem openParentConditions_eq (n : Nat) (ps : List Ctx) :
    Stack.openParentConditions n ps = With (1 + walk ps) n (Ctx.openParentConditions ps) := by
  rw [Stack.openParentConditions, openParent_eq, with_map]
  rfl

theorem commonConditions_eq (n : Nat) (c : Ctx) (ps : List Ctx) :
    Stack.commonConditions n c ps = With (1 + walk ps) n (Ctx.commonConditions c ps) := by
  rw [Stack.commonConditions, openParentConditions_eq, with_map]
  rfl

theorem uniqueConditions_eq (n : Nat) (c : Ctx) (ps : List Ctx) :
    Stack.uniqueConditions n c ps = With (1 + walk ps) n (Ctx.uniqueConditions c ps) := by
  rw [Stack.uniqueConditions, commonConditions_eq, with_map]
  rfl

theorem differConditions_eq (n : Nat) (c : Ctx) (ps : List Ctx) :
    Stack.differConditions n c ps = With (1 + walk ps) n (Ctx.differConditions c ps) := by
  rw [Stack.differConditions, openParentConditions_eq, commonConditions_eq,
    with_bind (l := 1 + walk ps) (b := Ctx.differConditions c ps)]
  · rw [Nat.max_self]
  · rw [with_map]
    rfl

theorem writeMinPadding_eq (n : Nat) (c : Ctx) (ps : List Ctx) :
    Stack.writeMinPadding n c ps = With (1 + walk ps) n (Ctx.writeMinPadding c ps) := by
  rw [Stack.writeMinPadding, commonConditions_eq, with_map]
  rfl

theorem finishLoop_eq {n : Nat} (c : Ctx) {ps : List Ctx} (h : 1 + walk ps ≤ n) :
    ∀ i, Stack.finishLoop n c ps i = some (Ctx.finishLoop c ps i)
  | 0 => rfl
  | i + 1 => by
    rw [Stack.finishLoop, writeMinPadding_eq, with_pos h, Option.bind_some, finishLoop_eq c h i]
    rfl

theorem startLoop_eq {n : Nat} (c : Ctx) {ps : List Ctx} (h : 1 + walk ps ≤ n) :
    ∀ (l : List Str) i, Stack.startLoop n c ps i l = some (Ctx.startLoop c ps i l)
  | [], _ => rfl
  | x :: l, i => by
    rw [Stack.startLoop, writeMinPadding_eq, with_pos h, Option.bind_some, startLoop_eq c h l (i + 1)]
    rfl

/-- The room that `finish` needs. -/
def finishNeed (c : Ctx) (ps : List Ctx) : Nat := if c.isOpen then 1 + walk ps else 0

theorem finish_eq (n : Nat) (c : Ctx) (ps : List Ctx) :
    Stack.finish n c ps = With (finishNeed c ps) n (Ctx.finish c ps) := by
  unfold Stack.finish finishNeed Ctx.finish
  by_cases h : c.isOpen = true
  · simp only [h, if_true]
    rw [uniqueConditions_eq]
    by_cases h1 : 1 + walk ps ≤ n
    · rw [with_pos h1, with_pos h1, Option.bind_some, finishLoop_eq c h1]
      rfl
    · rw [with_neg h1, with_neg h1]
      rfl
  · simp only [h, Bool.false_eq_true, if_false]
    rw [with_pos (Nat.zero_le _)]

theorem finish_closed (c : Ctx) (ps : List Ctx) : (Ctx.finish c ps).1.isOpen = false := rfl

theorem close_eq (n : Nat) (c : Ctx) : ∀ (ps : List Ctx) (k : Nat),
    Stack.closeUntilCommonParent n c k ps =
      With (k + 1 + walk (Ctx.closeUntilCommonParent c ps).1) n (Ctx.closeUntilCommonParent c ps)
  | [], k => by
    rw [Stack.closeUntilCommonParent, openParent_eq, with_map]
    have hw : walk [] = 0 := rfl
    rw [hw]
    by_cases h : 1 ≤ n - k
    · rw [with_pos (by omega), with_pos (by rw [show walk (Ctx.closeUntilCommonParent c []).1 = 0 from rfl]; omega)]
      rfl
    · rw [with_neg (by omega), with_neg (by omega)]
  | m :: ps, k => by
    have ih := close_eq n c ps (k + 1)
    rw [Stack.closeUntilCommonParent, Ctx.closeUntilCommonParent]
    by_cases ho : m.isOpen = true
    · simp only [ho, if_true]
      rw [differConditions_eq]
      simp only [walk, ho, if_true, Nat.add_zero]
      by_cases hk : 1 ≤ n - k
      · rw [with_pos hk, Option.bind_some]
        by_cases hd : (Ctx.differConditions c (m :: ps)).isEmpty = true
        · simp only [hd, if_true, walk, ho]
          rw [with_pos (by omega)]
        · simp only [hd, Bool.false_eq_true, if_false]
          rw [finish_eq, ih]
          have hw : walk ps ≤ walk (Ctx.closeUntilCommonParent c ps).1 := by
            clear ih
            induction ps with
            | nil => exact Nat.le_refl _
            | cons p ps ihp =>
              rw [Ctx.closeUntilCommonParent]
              by_cases hp : p.isOpen = true
              · simp only [walk, hp, if_true]
                exact Nat.zero_le _
              · simp only [walk, hp, Bool.false_eq_true, if_false]
                have : ∀ ps, walk ps ≤ walk (Ctx.closeUntilCommonParent c ps).1 := by
                  intro ps
                  induction ps with
                  | nil => exact Nat.le_refl _
                  | cons p ps ihp =>
                    rw [Ctx.closeUntilCommonParent]
                    by_cases hp : p.isOpen = true
                    · simp only [walk, hp, if_true]
                      exact Nat.zero_le _
                    · simp only [walk, hp, Bool.false_eq_true, if_false]
                      omega
                have := this ps
                omega
          simp only [finishNeed, ho, if_true]
          by_cases hn : k + 1 + 1 + walk (Ctx.closeUntilCommonParent c ps).1 ≤ n
          · rw [with_pos (by omega), Option.bind_some, with_pos hn]
            simp only [Option.map_some, walk, finish_closed, Bool.false_eq_true, if_false]
            rw [with_pos (by omega)]
          · rw [with_neg hn]
            simp only [walk, finish_closed, Bool.false_eq_true, if_false, Option.map_none]
            rw [with_neg (k := k + 1 + (1 + walk (Ctx.closeUntilCommonParent c ps).1)) (by omega)]
            unfold With
            split <;> rfl
      · rw [with_neg hk, with_neg (by omega)]
        rfl
    · simp only [ho, Bool.false_eq_true, if_false]
      rw [ih, with_map]
      simp only [walk, ho, Bool.false_eq_true, if_false]
      congr 1
      omega

/-- The room that `start` needs. -/
def startNeed : List Ctx → Nat
  | [] => 0
  | c :: ps => if c.isOpen then 0 else 1 + walk (Ctx.closeUntilCommonParent c ps).1

theorem start_eq (n : Nat) : ∀ chain, Stack.start n chain = With (startNeed chain) n (Ctx.start chain)
  | [] => (with_pos (Nat.zero_le _)).symm
  | c :: ps => by
    rw [Stack.start, Ctx.start, startNeed]
    by_cases h : c.isOpen = true
    · simp only [h, if_true]
      rw [with_pos (Nat.zero_le _)]
    · simp only [h, Bool.false_eq_true, if_false]
      rw [close_eq]
      by_cases hn : 1 + walk (Ctx.closeUntilCommonParent c ps).1 ≤ n
      · rw [with_pos (by omega), Option.bind_some, with_pos hn]
        rw [uniqueConditions_eq, with_pos hn, Option.bind_some, startLoop_eq c hn]
        rfl
      · rw [with_neg (by omega), with_neg hn]
        rfl

/-- The room that `finish` on a chain needs. -/
def finishChainNeed : List Ctx → Nat
  | [] => 0
  | c :: ps => finishNeed c ps

theorem finishChain_eq (n : Nat) : ∀ chain, Stack.finishChain n chain = With (finishChainNeed chain) n (Ctx.finishChain chain)
  | [] => (with_pos (Nat.zero_le _)).symm
  | c :: ps => by
    rw [Stack.finishChain, finish_eq, with_map]
    rfl

mutual
/-- The room that `write_style` needs. -/
def room : RBC → List Ctx → Nat
  | .attr _ _, chain => 1 + startNeed chain
  | .rule condition content, chain =>
    match chain with
    | [] => 1
    | c :: ps =>
      let ruleCtx := c.withRuleCondition condition.flatten
      let always := Str.startsWith (c! "@keyframes") condition.flatten
      let ch1 := if always then (Ctx.start (ruleCtx :: c :: ps)).1 else ruleCtx :: c :: ps
      1 + max (if always then startNeed (ruleCtx :: c :: ps) else 0)
        (max (rooms content ch1) (finishChainNeed (RBC.writes content ch1).1))
  | .block condition content, chain =>
    match chain with
    | [] => 1
    | c :: ps =>
      let blockCtx := c.withBlockCondition (condStr c.className condition)
      1 + max (rooms content (blockCtx :: c :: ps)) (finishChainNeed (RBC.writes content (blockCtx :: c :: ps)).1)
/-- The same for a list. -/
def rooms : List RBC → List Ctx → Nat
  | [], _ => 0
  | x :: xs, chain => max (room x chain) (rooms xs (RBC.write x chain).1)
end

theorem with_succ {α : Type} (k n : Nat) (a : α) : With (1 + k) (n + 1) a = With k n a := by
  unfold With
  by_cases h : k ≤ n
  · rw [if_pos h, if_pos (by omega)]
  · rw [if_neg h, if_neg (by omega)]

mutual
theorem write_eq : ∀ (x : RBC) (n : Nat) (chain : List Ctx), Stack.write x n chain = With (room x chain) n (RBC.write x chain)
  | x, 0, chain => by
    rw [with_neg]
    · cases x <;> rfl
    · have : 1 ≤ room x chain := by
        cases x <;> cases chain <;> simp only [room] <;> omega
      omega
  | .attr k v, n + 1, chain => by
    rw [Stack.write, start_eq, with_map, room, with_succ, RBC.write]
    rfl
  | .rule condition content, n + 1, [] => by
    rw [Stack.write, room, with_pos (by omega)]
    rfl
  | .rule condition content, n + 1, c :: ps => by
    rw [Stack.write, room, with_succ, RBC.write]
    by_cases h : Str.startsWith (c! "@keyframes") condition.flatten = true
    · simp only [h, if_true]
      rw [start_eq]
      refine with_bind _ _ _ _ _ _ ?_
      rw [writes_eq content n]
      refine with_bind _ _ _ _ _ _ ?_
      rw [finishChain_eq, with_map]
    · simp only [h, Bool.false_eq_true, if_false]
      rw [Option.bind_some, Nat.zero_max]
      simp only
      rw [writes_eq content n]
      refine with_bind _ _ _ _ _ _ ?_
      rw [finishChain_eq, with_map]
  | .block condition content, n + 1, [] => by
    rw [Stack.write, room, with_pos (by omega)]
    rfl
  | .block condition content, n + 1, c :: ps => by
    rw [Stack.write, room, with_succ, RBC.write]
    simp only
    rw [writes_eq content n]
    refine with_bind _ _ _ _ _ _ ?_
    rw [finishChain_eq, with_map]
theorem writes_eq : ∀ (xs : List RBC) (n : Nat) (chain : List Ctx), Stack.writes xs n chain = With (rooms xs chain) n (RBC.writes xs chain)
  | [], n, chain => by
    rw [Stack.writes, rooms, with_pos (Nat.zero_le _)]
    rfl
  | x :: xs, n, chain => by
    rw [Stack.writes, rooms, RBC.writes, write_eq x n chain]
    refine with_bind _ _ _ _ _ _ ?_
    simp only
    rw [writes_eq xs n, with_map]
end

theorem writeSheet_eq : ∀ (s : Sheet) (n : Nat) (chain : List Ctx),
    Stack.writeSheet s n chain = With (rooms (s.map ScopeContent.toRBC) chain) n (Sheet.write s chain)
  | [], n, chain => by
    rw [Stack.writeSheet, List.map_nil, rooms, with_pos (Nat.zero_le _)]
    rfl
  | x :: xs, n, chain => by
    rw [Stack.writeSheet, List.map_cons, rooms, Sheet.write, write_eq]
    refine with_bind _ _ _ _ _ _ ?_
    simp only
    rw [writeSheet_eq xs n, with_map]

/-- The room for a sheet. -/
def roomSheet (s : Sheet) (cls : Option Str) : Nat := rooms (s.map ScopeContent.toRBC) [Ctx.new cls]

theorem toStyleStr_eq (n : Nat) (s : Sheet) (cls : Option Str) :
    Stack.toStyleStr n s cls = With (roomSheet s cls) n (s.toStyleStr cls) := by
  rw [Stack.toStyleStr, writeSheet_eq, with_map]
  rfl

/-! ## Bounds -/

theorem close_length (c : Ctx) : ∀ ps, (Ctx.closeUntilCommonParent c ps).1.length = ps.length
  | [] => rfl
  | m :: ps => by
    have := close_length c ps
    rw [Ctx.closeUntilCommonParent]
    split
    · split
      · rfl
      · simp [this]
    · simp [this]

theorem start_length : ∀ chain, (Ctx.start chain).1.length = chain.length
  | [] => rfl
  | c :: ps => by
    rw [Ctx.start]
    split
    · rfl
    · simp [close_length]

theorem finishChain_length : ∀ chain, (Ctx.finishChain chain).1.length = chain.length
  | [] => rfl
  | _ :: _ => rfl

mutual
theorem write_length : ∀ (x : RBC) (chain : List Ctx), (RBC.write x chain).1.length = chain.length
  | .attr k v, chain => by
    have := start_length chain
    simp only [RBC.write]
    split
    · next h => rw [h] at this; simpa using this
    · next h => rw [h] at this; simpa using this
  | .rule condition content, [] => rfl
  | .rule condition content, c :: ps => by
    simp only [RBC.write, List.length_tail, finishChain_length, writes_length content]
    split <;> simp [start_length]
  | .block condition content, [] => rfl
  | .block condition content, c :: ps => by
    simp only [RBC.write, List.length_tail, finishChain_length, writes_length content]
    simp
theorem writes_length : ∀ (xs : List RBC) (chain : List Ctx), (RBC.writes xs chain).1.length = chain.length
  | [], _ => rfl
  | x :: xs, chain => by
    simp only [RBC.writes, writes_length xs, write_length x]
end

theorem startNeed_le : ∀ chain, startNeed chain ≤ chain.length
  | [] => Nat.le_refl _
  | c :: ps => by
    have := walk_le (Ctx.closeUntilCommonParent c ps).1
    rw [close_length] at this
    simp only [startNeed, List.length_cons]
    split <;> omega

theorem finishChainNeed_le : ∀ chain, finishChainNeed chain ≤ chain.length
  | [] => Nat.le_refl _
  | c :: ps => by
    have := walk_le ps
    simp only [finishChainNeed, finishNeed, List.length_cons]
    split <;> omega

mutual
theorem room_le : ∀ (x : RBC) (chain : List Ctx), room x chain ≤ chain.length + 2 * levelsRBC x
  | .attr k v, chain => by
    have := startNeed_le chain
    simp only [room, levelsRBC]
    omega
  | .rule condition content, [] => by
    simp only [room, levelsRBC]
    omega
  | .rule condition content, c :: ps => by
    simp only [room, levelsRBC]
    have h1 := startNeed_le (c.withRuleCondition condition.flatten :: c :: ps)
    have h2 := start_length (c.withRuleCondition condition.flatten :: c :: ps)
    simp only [List.length_cons] at h1 h2
    split
    · have h3 := rooms_le content (Ctx.start (c.withRuleCondition condition.flatten :: c :: ps)).1
      have h4 := finishChainNeed_le (RBC.writes content (Ctx.start (c.withRuleCondition condition.flatten :: c :: ps)).1).1
      rw [writes_length] at h4
      simp only [List.length_cons]
      omega
    · have h3 := rooms_le content (c.withRuleCondition condition.flatten :: c :: ps)
      have h4 := finishChainNeed_le (RBC.writes content (c.withRuleCondition condition.flatten :: c :: ps)).1
      rw [writes_length] at h4
      simp only [List.length_cons] at h3 h4 ⊢
      omega
  | .block condition content, [] => by
    simp only [room, levelsRBC]
    omega
  | .block condition content, c :: ps => by
    simp only [room, levelsRBC]
    have h3 := rooms_le content (c.withBlockCondition (condStr c.className condition) :: c :: ps)
    have h4 := finishChainNeed_le (RBC.writes content (c.withBlockCondition (condStr c.className condition) :: c :: ps)).1
    rw [writes_length] at h4
    simp only [List.length_cons] at h3 h4 ⊢
    omega
theorem rooms_le : ∀ (xs : List RBC) (chain : List Ctx), rooms xs chain ≤ chain.length + 2 * levelsRBCs xs
  | [], _ => by simp only [rooms]; omega
  | x :: xs, chain => by
    have h1 := room_le x chain
    have h2 := rooms_le xs (RBC.write x chain).1
    rw [write_length] at h2
    simp only [rooms, levelsRBCs]
    omega
end

mutual
theorem le_room : ∀ (x : RBC) (chain : List Ctx), chain ≠ [] → levelsRBC x ≤ room x chain
  | .attr k v, chain, _ => by
    simp only [room, levelsRBC]
    omega
  | .rule condition content, [], h => absurd rfl h
  | .rule condition content, c :: ps, _ => by
    simp only [room, levelsRBC]
    split
    · have h3 := le_rooms content (Ctx.start (c.withRuleCondition condition.flatten :: c :: ps)).1 (by
        intro h
        have := congrArg List.length h
        rw [start_length] at this
        simp at this)
      omega
    · have h3 := le_rooms content (c.withRuleCondition condition.flatten :: c :: ps) (by simp)
      omega
  | .block condition content, [], h => absurd rfl h
  | .block condition content, c :: ps, _ => by
    simp only [room, levelsRBC]
    have h3 := le_rooms content (c.withBlockCondition (condStr c.className condition) :: c :: ps) (by simp)
    omega
theorem le_rooms : ∀ (xs : List RBC) (chain : List Ctx), chain ≠ [] → levelsRBCs xs ≤ rooms xs chain
  | [], _, _ => by simp only [rooms, levelsRBCs]; omega
  | x :: xs, chain, h => by
    have h1 := le_room x chain h
    have h2 := le_rooms xs (RBC.write x chain).1 (by
      intro h'
      have := congrArg List.length h'
      rw [write_length] at this
      exact h (List.eq_nil_of_length_eq_zero this))
    simp only [rooms, levelsRBCs]
    omega
end

end StackP
