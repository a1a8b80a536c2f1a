import Verif.Spec.Size
import Verif.Model.Render

/-! # A family of sheets with a long text -/

namespace LadderP
open Spec

theorem size_ladder : ∀ d, sizeInAll (ladder d) = 12 * d + 3
  | 0 => rfl
  | d + 1 => by
    simp only [ladder, sizeInAll, sizeIn, size_ladder d]
    simp only [List.flatten_cons, List.flatten_nil, List.append_nil, List.length_append, List.length_cons, List.length_nil]
    omega

theorem openParent_closed : ∀ (ps : List Ctx), (∀ m ∈ ps, m.isOpen = false) → Ctx.openParent ps = none
  | [], _ => rfl
  | m :: ps, h => by
    rw [Ctx.openParent, h m (.head _)]
    exact openParent_closed ps fun x hx => h x (.tail _ hx)

theorem close_closed (c : Ctx) : ∀ (ps : List Ctx), (∀ m ∈ ps, m.isOpen = false) →
    Ctx.closeUntilCommonParent c ps = (ps, [])
  | [], _ => rfl
  | m :: ps, h => by
    rw [Ctx.closeUntilCommonParent, h m (.head _)]
    simp only [Bool.false_eq_true, if_false, close_closed c ps fun x hx => h x (.tail _ hx)]

theorem common_closed (c : Ctx) (ps : List Ctx) (h : ∀ m ∈ ps, m.isOpen = false) :
    Ctx.commonConditions c ps = [] := by
  simp [Ctx.commonConditions, Ctx.openParentConditions, openParent_closed ps h]

theorem padding_length : ∀ n, (Ctx.writePaddingImpl n).length = 4 * n
  | 0 => rfl
  | n + 1 => by simp only [Ctx.writePaddingImpl, List.length_append, padding_length n, List.length_cons, List.length_nil]; omega

/-- Half of what opening `n` headers writes at least. -/
def tri : Nat → Nat
  | 0 => 0
  | n + 1 => tri n + 2 * n

theorem startLoop_length (c : Ctx) (ps : List Ctx) : ∀ (l : List Str) (i : Nat),
    2 * tri (i + l.length) ≤ (Ctx.startLoop c ps i l).length + 2 * tri i
  | [], i => by simp [Ctx.startLoop]
  | x :: l, i => by
    have ih := startLoop_length c ps l (i + 1)
    have e : i + 1 + l.length = i + (l.length + 1) := by omega
    rw [e, tri] at ih
    simp only [Ctx.startLoop, List.length_append, padding_length, List.length_cons]
    omega

/-- A chain in which only the parent may be open, and then with a header that is not above the child. -/
def Ready (c : Ctx) (ps : List Ctx) : Prop :=
  c.isOpen = false ∧ (∀ m ∈ ps, m.isOpen = false ∨ (ps.head? = some m ∧ Ctx.differConditions c ps ≠ [])) ∧
    ∀ m ∈ ps.tail, m.isOpen = false

theorem start_ready {c : Ctx} {ps : List Ctx} (h : Ready c ps) :
    ∃ ps' out, Ctx.start (c :: ps) = ({ c with isOpen := true } :: ps', out) ∧ (∀ m ∈ ps', m.isOpen = false) ∧
      2 * tri c.conditions.length ≤ out.length := by
  obtain ⟨h1, h2, h3⟩ := h
  have key : ∃ ps' o, Ctx.closeUntilCommonParent c ps = (ps', o) ∧ ∀ m ∈ ps', m.isOpen = false := by
    cases ps with
    | nil => exact ⟨[], [], rfl, by simp⟩
    | cons m ps =>
      simp only [List.tail_cons] at h3
      rcases h2 m (.head _) with hm | ⟨_, hd⟩
      · have hall : ∀ x ∈ m :: ps, x.isOpen = false := by
          intro x hx
          rcases List.mem_cons.1 hx with rfl | hx
          · exact hm
          · exact h3 x hx
        exact ⟨_, _, close_closed c _ hall, hall⟩
      · rw [Ctx.closeUntilCommonParent]
        have hdi : (Ctx.differConditions c (m :: ps)).isEmpty = false := by
          cases h : Ctx.differConditions c (m :: ps) with
          | nil => exact absurd h hd
          | cons _ _ => rfl
        rw [hdi]
        simp only [Bool.false_eq_true, if_false, close_closed c ps h3, Ctx.finish]
        split
        · refine ⟨_, _, rfl, ?_⟩
          intro x hx
          rcases List.mem_cons.1 hx with rfl | hx
          · rfl
          · exact h3 x hx
        · rename_i hm
          refine ⟨_, _, rfl, ?_⟩
          intro x hx
          rcases List.mem_cons.1 hx with rfl | hx
          · simpa using hm
          · exact h3 x hx
  obtain ⟨ps', o, he, hc⟩ := key
  refine ⟨ps', o ++ Ctx.startLoop c ps' 0 (Ctx.uniqueConditions c ps'), ?_, hc, ?_⟩
  · rw [Ctx.start, h1]
    simp only [Bool.false_eq_true, if_false, he]
  · have := startLoop_length c ps' (Ctx.uniqueConditions c ps') 0
    have e : Ctx.uniqueConditions c ps' = c.conditions := by
      rw [Ctx.uniqueConditions, common_closed c ps' hc]; rfl
    rw [e] at this ⊢
    simp only [tri, Nat.zero_add, Nat.mul_zero, Nat.add_zero] at this
    rw [List.length_append]
    omega

/-- A context is not above the one with another at-rule condition. -/
theorem differ (c : Ctx) (ps : List Ctx) (x s : Str) (hs : c.selector = some s) (hne : s ≠ x) (ho : c.isOpen = true) :
    Ctx.differConditions (c.withRuleCondition x) (c :: ps) ≠ [] := by
  have e1 : Ctx.openParentConditions (c :: ps) = c.rules ++ [s] := by
    simp [Ctx.openParentConditions, Ctx.openParent, ho, Ctx.conditions, hs]
  have e2 : (c.withRuleCondition x).conditions = c.rules ++ [x, s] := by
    simp [Ctx.withRuleCondition, Ctx.conditions, hs]
  have e3 : (Ctx.commonConditions (c.withRuleCondition x) (c :: ps)).length ≤ c.rules.length := by
    rw [Ctx.commonConditions, e1, e2, List.zip_append rfl, List.filterMap_append, List.length_append]
    have h1 := Nat.le_trans (List.length_filterMap_le (fun (m1, m2) => if m1 = m2 then some m1 else none)
      (c.rules.zip c.rules)) (List.length_zip ▸ Nat.min_le_left _ _)
    have h3 : ((([s] : List Str).zip [x, s]).filterMap
        (fun (m1, m2) => if m1 = m2 then some m1 else none)).length = 0 := by simp [hne]
    exact Nat.le_trans (Nat.add_le_add h1 (Nat.le_of_eq h3)) (Nat.le_refl _)
  rw [Ctx.differConditions, e1]
  intro h
  have := congrArg List.length h
  simp only [List.length_drop, List.length_append, List.length_cons, List.length_nil] at this
  omega

/-- Half of what a ladder under `n` headers writes at least. -/
def tet (n : Nat) : Nat → Nat
  | 0 => tri n
  | d + 1 => tri n + tet (n + 1) d

theorem ladder_length : ∀ (d : Nat) (c : Ctx) (ps : List Ctx) (s : Str), c.selector = some s → s ≠ c! "@media x" →
    Ready c ps → 2 * tet c.conditions.length d ≤ (RBC.writes (ladder d) (c :: ps)).2.length
  | 0, c, ps, s, hs, hne, hr => by
    obtain ⟨ps', out, h1, h2, h3⟩ := start_ready hr
    simp only [ladder, RBC.writes, RBC.write, h1, tet, List.length_append]
    omega
  | d + 1, c, ps, s, hs, hne, hr => by
    obtain ⟨ps', out, h1, h2, h3⟩ := start_ready hr
    have hk : Str.startsWith (c! "@keyframes") (([c! "@media ", c! "x"] : List Str).flatten) = false := by decide
    have hf : ([c! "@media ", c! "x"] : List Str).flatten = c! "@media x" := by decide
    have ih := ladder_length d (Ctx.withRuleCondition { c with isOpen := true } (c! "@media x"))
      ({ c with isOpen := true } :: ps') s hs hne ⟨rfl, by
        intro m hm
        rcases List.mem_cons.1 hm with rfl | hm
        · exact .inr ⟨rfl, differ _ _ _ s hs hne rfl⟩
        · exact .inl (h2 m hm), h2⟩
    have e : (Ctx.withRuleCondition { c with isOpen := true } (c! "@media x")).conditions.length =
        c.conditions.length + 1 := by
      simp only [Ctx.withRuleCondition, Ctx.conditions, List.length_append, List.length_cons, List.length_nil]
      omega
    rw [e] at ih
    simp only [ladder, RBC.writes, RBC.write, h1, hk, tet, List.length_append, Bool.false_eq_true, if_false]
    rw [hf]
    omega

theorem tri_eq : ∀ n, tri (n + 1) = n * (n + 1)
  | 0 => rfl
  | n + 1 => by
    rw [tri, tri_eq n, Nat.mul_comm (n + 1) (n + 1 + 1), ← Nat.add_mul]

theorem tet_eq : ∀ (d n : Nat), 3 * tet (n + 1) d + n * n * n + (n + 1 + d) =
    (n + 1 + d) * (n + 1 + d) * (n + 1 + d) + n
  | 0, n => by
    rw [tet, tri_eq]
    simp only [Nat.add_zero]
    grind
  | d + 1, n => by
    have ih := tet_eq d (n + 1)
    rw [tet, tri_eq]
    have e : n + 1 + (d + 1) = n + 1 + 1 + d := by omega
    rw [e]
    generalize (n + 1 + 1 + d) * (n + 1 + 1 + d) * (n + 1 + 1 + d) = M at ih ⊢
    have cube : (n + 1) * (n + 1) * (n + 1) = n * n * n + 3 * (n * (n + 1)) + 1 := by grind
    rw [cube] at ih
    omega

/-- A block with a ladder in it. -/
theorem sheet_ladder (cls : Option Str) (d : Nat) :
    sizeOfSheet [.block [[c! "p"]] (ladder d)] = 12 * d + 6 ∧
      2 * ((d + 1) * (d + 1) * (d + 1)) ≤ 3 * (Sheet.toStyleStr [.block [[c! "p"]] (ladder d)] cls).length + 2 * (d + 1) := by
  constructor
  · simp only [sizeOfSheet, List.map_cons, List.map_nil, ScopeContent.toRBC, sizeInAll, sizeIn, size_ladder]
    simp only [List.sum_cons, List.sum_nil, List.flatten_cons, List.flatten_nil,
      List.append_nil, List.length_cons, List.length_nil]
    omega
  · have hw : ∃ s, condStr cls [[c! "p"]] = some s ∧ s ≠ c! "@media x" := by
      cases cls with
      | none => exact ⟨c! "p", by decide, by decide⟩
      | some c => exact ⟨'.' :: (c ++ c! " p"), by simp [condStr, Str.join, Selector.write, Str.containsChar, Str.contains, Str.startsWith], by simp⟩
    obtain ⟨s, hs, hne⟩ := hw
    have hl := ladder_length d ((Ctx.new cls).withBlockCondition (some s)) [Ctx.new cls] s rfl hne
      ⟨rfl, by intro m hm; rw [List.mem_singleton] at hm; subst hm; exact .inl rfl, by simp⟩
    have e : ((Ctx.new cls).withBlockCondition (some s)).conditions.length = 1 := rfl
    rw [e] at hl
    have ht := tet_eq d 0
    simp only [Nat.zero_mul, Nat.zero_add, Nat.add_zero] at ht
    have hc : (Ctx.new cls).className = cls := rfl
    simp only [Sheet.toStyleStr, Sheet.write, ScopeContent.toRBC, RBC.write, hc, hs, List.length_append]
    have e1 : (1 + d) = d + 1 := by omega
    rw [e1] at ht
    omega

end LadderP
