import Verif.Model.RenderSteps
import Verif.Spec.RenderSteps
import Verif.Proofs.Size

/-!
# The work of rendering

`Model/RenderSteps` gives the same results as `Model/Render`, and its counters are bounded.
-/

namespace WorkP

open Ctx Spec

/-! ## The results -/

theorem openParent_res : ∀ ps, (Work.openParent ps).1 = Ctx.openParent ps
  | [] => rfl
  | m :: ps => by
    rw [Work.openParent, Ctx.openParent]
    split
    · rfl
    · exact openParent_res ps

theorem openParentConditions_res (ps : List Ctx) : (Work.openParentConditions ps).1 = Ctx.openParentConditions ps := by
  have := openParent_res ps
  unfold Work.openParentConditions Ctx.openParentConditions
  split
  · next h => rw [h] at this; rw [← this]
  · next h => rw [h] at this; rw [← this]

theorem commonConditions_res (c : Ctx) (ps : List Ctx) : (Work.commonConditions c ps).1 = Ctx.commonConditions c ps := by
  simp only [Work.commonConditions, openParentConditions_res]
  rfl

theorem uniqueConditions_res (c : Ctx) (ps : List Ctx) : (Work.uniqueConditions c ps).1 = Ctx.uniqueConditions c ps := by
  simp only [Work.uniqueConditions, commonConditions_res]
  rfl

theorem differConditions_res (c : Ctx) (ps : List Ctx) : (Work.differConditions c ps).1 = Ctx.differConditions c ps := by
  simp only [Work.differConditions, commonConditions_res, openParentConditions_res]
  rfl

theorem writeMinPadding_res (c : Ctx) (ps : List Ctx) : (Work.writeMinPadding c ps).1 = Ctx.writeMinPadding c ps := by
  simp only [Work.writeMinPadding, commonConditions_res]
  rfl

theorem finishLoop_res (c : Ctx) (ps : List Ctx) : ∀ i, (Work.finishLoop c ps i).1 = Ctx.finishLoop c ps i
  | 0 => rfl
  | i + 1 => by
    simp only [Work.finishLoop, writeMinPadding_res, finishLoop_res c ps i]
    rfl

theorem finish_res (c : Ctx) (ps : List Ctx) : (Work.finish c ps).1 = Ctx.finish c ps := by
  unfold Work.finish Ctx.finish
  split
  · next h => simp only [uniqueConditions_res, finishLoop_res]
  · rfl

theorem close_res (c : Ctx) : ∀ (ps : List Ctx) (n : Nat), (Work.closeUntilCommonParent c n ps).1 = Ctx.closeUntilCommonParent c ps
  | [], _ => rfl
  | m :: ps, n => by
    have ih := close_res c ps (n + 1)
    simp only [Work.closeUntilCommonParent, Ctx.closeUntilCommonParent, differConditions_res]
    split
    · split
      · rfl
      · simp only [finish_res, ih]
    · simp only [ih]

theorem startLoop_res (c : Ctx) (ps : List Ctx) : ∀ (l : List Str) (i : Nat), (Work.startLoop c ps i l).1 = Ctx.startLoop c ps i l
  | [], _ => rfl
  | x :: l, i => by
    simp only [Work.startLoop, writeMinPadding_res, startLoop_res c ps l (i + 1)]
    rfl

theorem start_res : ∀ chain, (Work.start chain).1 = Ctx.start chain
  | [] => rfl
  | c :: ps => by
    simp only [Work.start, Ctx.start]
    split
    · rfl
    · simp only [close_res, uniqueConditions_res, startLoop_res]

theorem finishChain_res : ∀ chain, (Work.finishChain chain).1 = Ctx.finishChain chain
  | [] => rfl
  | c :: ps => by
    simp only [Work.finishChain, Ctx.finishChain, finish_res]

theorem writeSelector_res (cls : Option Str) (s : Selector) : (Work.writeSelector cls s).1 = Selector.write cls s := by
  unfold Work.writeSelector Selector.write Work.writeFragments
  cases cls with
  | none =>
    simp only
    split <;> rfl
  | some m =>
    simp only
    split <;> rfl

theorem writeSelectors_res (cls : Option Str) : ∀ l : List Selector,
    (Work.writeSelectors cls l).1 = Str.join (c! ", ") (l.map (Selector.write cls))
  | [] => rfl
  | [s] => by simp only [Work.writeSelectors, writeSelector_res]; rfl
  | s :: t :: l => by
    simp only [Work.writeSelectors, writeSelector_res]
    rw [writeSelectors_res cls (t :: l)]
    rfl

theorem condStr_res (cls : Option Str) (l : List Selector) : (Work.condStr cls l).1 = _root_.condStr cls l := by
  unfold Work.condStr _root_.condStr
  split
  · rfl
  · simp only [writeSelectors_res]

mutual
theorem write_res : ∀ (x : RBC) (chain : List Ctx), (Work.write x chain).1 = RBC.write x chain
  | .attr k v, chain => by
    have h := start_res chain
    simp only [Work.write, RBC.write, h]
    split
    · next hc => rw [hc]
    · next hc => rw [hc]; rfl
  | .rule condition content, [] => rfl
  | .rule condition content, c :: ps => by
    simp only [Work.write, RBC.write, Work.writeFragments, Work.withRuleCondition]
    by_cases h : Str.startsWith (c! "@keyframes") condition.flatten = true
    · simp only [h, if_true, start_res, writes_res content, finishChain_res]
    · simp only [h, Bool.false_eq_true, if_false, writes_res content, finishChain_res]
  | .block condition content, [] => rfl
  | .block condition content, c :: ps => by
    simp only [Work.write, RBC.write, Work.withBlockCondition, condStr_res, writes_res content, finishChain_res]
theorem writes_res : ∀ (xs : List RBC) (chain : List Ctx), (Work.writes xs chain).1 = RBC.writes xs chain
  | [], _ => rfl
  | x :: xs, chain => by
    simp only [Work.writes, RBC.writes, write_res x, writes_res xs]
end

theorem writeSheet_res : ∀ (s : Sheet) (chain : List Ctx), (Work.writeSheet s chain).1 = Sheet.write s chain
  | [], _ => rfl
  | x :: xs, chain => by
    simp only [Work.writeSheet, Sheet.write, write_res, writeSheet_res xs]

theorem toStyleStr_res (s : Sheet) (cls : Option Str) : (Work.toStyleStr s cls).1 = s.toStyleStr cls := by
  simp only [Work.toStyleStr, writeSheet_res]
  rfl

/-! ## The counters -/

/-- The characters of the conditions, and one for each. -/
def load (l : List Str) : Nat := (l.map (fun s => s.length + 1)).sum

theorem load_append (a b : List Str) : load (a ++ b) = load a + load b := by simp [load]

theorem length_le_load : ∀ l : List Str, l.length ≤ load l
  | [] => Nat.le_refl _
  | x :: l => by
    have := length_le_load l
    simp only [load, List.length_cons, List.map_cons, List.sum_cons] at this ⊢
    omega

theorem mem_le_load {x : Str} : ∀ {l : List Str}, x ∈ l → x.length + 1 ≤ load l
  | y :: l, h => by
    simp only [load, List.map_cons, List.sum_cons]
    rcases List.mem_cons.1 h with rfl | h
    · omega
    · have := mem_le_load h
      unfold load at this
      omega

/-- What is known of the contexts of a chain. -/
def Ok (M : Nat) (ps : List Ctx) : Prop := ∀ m ∈ ps, load m.conditions ≤ M

theorem compare_le : ∀ a b : Str, Work.compareSteps a b ≤ a.length + 1
  | [], _ => by simp [Work.compareSteps]
  | _ :: _, [] => by simp [Work.compareSteps]
  | a :: s, b :: t => by
    have := compare_le s t
    simp only [Work.compareSteps, List.length_cons]
    split <;> omega

theorem zip_le : ∀ a b : List Str, Work.zipSteps a b ≤ 2 * load a + 1
  | [], _ => by simp [Work.zipSteps]
  | _ :: _, [] => by simp [Work.zipSteps]
  | a :: s, b :: t => by
    have h1 := compare_le a b
    have h2 := zip_le s t
    simp only [Work.zipSteps, load, List.map_cons, List.sum_cons] at h2 ⊢
    omega

theorem openParent_le : ∀ ps, (Work.openParent ps).2 ≤ ps.length + 1
  | [] => by simp [Work.openParent]
  | m :: ps => by
    have := openParent_le ps
    simp only [Work.openParent, List.length_cons]
    split
    · simp only; omega
    · simp only; omega

theorem openParent_mem {m : Ctx} : ∀ {ps : List Ctx}, Ctx.openParent ps = some m → m ∈ ps
  | p :: ps, h => by
    rw [Ctx.openParent] at h
    split at h
    · cases h; exact List.mem_cons_self
    · exact List.mem_cons_of_mem _ (openParent_mem h)

theorem opc_load {M : Nat} {ps : List Ctx} (h : Ok M ps) : load (Ctx.openParentConditions ps) ≤ M := by
  unfold Ctx.openParentConditions
  split
  · next hm => exact h _ (openParent_mem hm)
  · exact Nat.zero_le _

theorem opc_le (ps : List Ctx) : (Work.openParentConditions ps).2 ≤ ps.length + 2 := by
  have := openParent_le ps
  unfold Work.openParentConditions
  split <;> next h => rw [h] at this; simp only at this ⊢; omega

theorem common_count (c : Ctx) (ps : List Ctx) : (Ctx.commonConditions c ps).length ≤ c.conditions.length := by
  unfold Ctx.commonConditions
  refine Nat.le_trans (List.length_filterMap_le _ _) ?_
  rw [List.length_zip]
  exact Nat.min_le_right _ _

section
variable {M : Nat} {c : Ctx} {ps : List Ctx} (hM : 1 ≤ M) (hc : load c.conditions ≤ M) (hp : Ok M ps) (hl : ps.length ≤ M)
include hM hc hp hl

theorem common_le : (Work.commonConditions c ps).2 ≤ 6 * M := by
  have h1 := opc_le ps
  have h2 := zip_le (Ctx.openParentConditions ps) c.conditions
  have h3 := opc_load hp
  simp only [Work.commonConditions, openParentConditions_res]
  omega

theorem unique_le : (Work.uniqueConditions c ps).2 ≤ 8 * M := by
  have h1 := common_le hM hc hp hl
  have h2 := length_le_load c.conditions
  simp only [Work.uniqueConditions]
  omega

theorem unique_count : (Ctx.uniqueConditions c ps).length ≤ M := by
  have h2 := length_le_load c.conditions
  simp only [Ctx.uniqueConditions, List.length_drop]
  omega

theorem differ_le : (Work.differConditions c ps).2 ≤ 11 * M := by
  have h1 := common_le hM hc hp hl
  have h2 := length_le_load (Ctx.openParentConditions ps)
  have h3 := opc_load hp
  have h4 := opc_le ps
  simp only [Work.differConditions, openParentConditions_res]
  omega

theorem minPadding_le : (Work.writeMinPadding c ps).2 ≤ 13 * M := by
  have h1 := common_le hM hc hp hl
  have h2 := length_le_load c.conditions
  have h3 := common_count c ps
  simp only [Work.writeMinPadding, Work.writePaddingImpl, commonConditions_res]
  omega

theorem finishLoop_le : ∀ i, i ≤ M → (Work.finishLoop c ps i).2 ≤ i * (22 * M) + 1
  | 0, _ => by simp [Work.finishLoop]
  | i + 1, hi => by
    have h1 := minPadding_le hM hc hp hl
    have h2 := finishLoop_le i (by omega)
    have h3 : (i + 1) * (22 * M) = i * (22 * M) + 22 * M := Nat.succ_mul _ _
    simp only [Work.finishLoop, Work.writePaddingImpl]
    omega

theorem finish_le : (Work.finish c ps).2 ≤ 32 * (M * M) := by
  have h1 := unique_le hM hc hp hl
  have h2 := unique_count hM hc hp hl
  have h3 := finishLoop_le hM hc hp hl _ h2
  have h4 : (Ctx.uniqueConditions c ps).length * (22 * M) ≤ M * (22 * M) := Nat.mul_le_mul_right _ h2
  have h5 : M * (22 * M) = 22 * (M * M) := Nat.mul_left_comm _ _ _
  have h6 : M ≤ M * M := Nat.le_mul_of_pos_left _ hM
  unfold Work.finish
  split
  · simp only [uniqueConditions_res]
    omega
  · simp only
    omega

theorem startLoop_le : ∀ (l : List Str) (i : Nat), i + l.length ≤ M → load l ≤ M →
    (Work.startLoop c ps i l).2 ≤ l.length * (24 * M) + 1
  | [], _, _, _ => by simp [Work.startLoop]
  | x :: l, i, hi, hx => by
    have h1 := minPadding_le hM hc hp hl
    simp only [load, List.map_cons, List.sum_cons, List.length_cons] at hx hi
    have h2 := startLoop_le l (i + 1) (by omega) (by unfold load; omega)
    have h3 : (l.length + 1) * (24 * M) = l.length * (24 * M) + 24 * M := Nat.succ_mul _ _
    simp only [Work.startLoop, Work.writePaddingImpl, List.length_cons]
    omega
end

theorem load_drop (l : List Str) (n : Nat) : load (l.drop n) ≤ load l := by
  have h := load_append (l.take n) (l.drop n)
  rw [List.take_append_drop] at h
  omega

theorem close_le {M : Nat} {c : Ctx} (hM : 1 ≤ M) (hc : load c.conditions ≤ M) : ∀ (ps : List Ctx) (n : Nat), Ok M ps →
    n + ps.length ≤ M → (Work.closeUntilCommonParent c n ps).2 ≤ ps.length * (47 * (M * M)) + 2 * M
  | [], n, _, hn => by
    simp only [Work.closeUntilCommonParent, List.length_nil] at hn ⊢
    omega
  | m :: ps, n, hp, hn => by
    simp only [List.length_cons] at hn
    have hm : load m.conditions ≤ M := hp m List.mem_cons_self
    have hps : Ok M ps := fun x hx => hp x (List.mem_cons_of_mem _ hx)
    have ih := close_le hM hc ps (n + 1) hps (by omega)
    have h1 := differ_le hM hc hp (by simp only [List.length_cons]; omega)
    have h2 := finish_le hM hm hps (by omega)
    have h6 : M ≤ M * M := Nat.le_mul_of_pos_left _ hM
    have h3 : (ps.length + 1) * (47 * (M * M)) = ps.length * (47 * (M * M)) + 47 * (M * M) := Nat.succ_mul _ _
    simp only [Work.closeUntilCommonParent, List.length_cons]
    split
    · split
      · simp only; omega
      · simp only; omega
    · simp only; omega

/-- What a context says, but for whether it is open. -/
def static (c : Ctx) : Option Str × List Str := (c.className, c.conditions)

theorem close_static (c : Ctx) : ∀ ps, (Ctx.closeUntilCommonParent c ps).1.map static = ps.map static
  | [] => rfl
  | m :: ps => by
    have := close_static c ps
    rw [Ctx.closeUntilCommonParent]
    split
    · split
      · rfl
      · simp only [List.map_cons, this]
        rfl
    · simp only [List.map_cons, this]

theorem start_static : ∀ chain, (Ctx.start chain).1.map static = chain.map static
  | [] => rfl
  | c :: ps => by
    rw [Ctx.start]
    split
    · rfl
    · simp only [List.map_cons, close_static]
      rfl

theorem finishChain_static : ∀ chain, (Ctx.finishChain chain).1.map static = chain.map static
  | [] => rfl
  | _ :: _ => rfl

theorem static_tail {a b : List Ctx} (h : a.map static = b.map static) : a.tail.map static = b.tail.map static := by
  cases a <;> cases b <;> simp_all

mutual
theorem write_static : ∀ (x : RBC) (chain : List Ctx), (RBC.write x chain).1.map static = chain.map static
  | .attr k v, chain => by
    have := start_static chain
    simp only [RBC.write]
    split
    · next h => rw [h] at this; exact this
    · next h => rw [h] at this; exact this
  | .rule condition content, [] => rfl
  | .rule condition content, c :: ps => by
    simp only [RBC.write]
    have h : ∀ ch, ch.map static = (c.withRuleCondition condition.flatten :: c :: ps).map static →
        (Ctx.finishChain (RBC.writes content ch).1).1.tail.map static = (c :: ps).map static := by
      intro ch hch
      have := static_tail ((finishChain_static (RBC.writes content ch).1).trans ((writes_static content ch).trans hch))
      simpa using this
    split
    · exact h _ (start_static _)
    · exact h _ rfl
  | .block condition content, [] => rfl
  | .block condition content, c :: ps => by
    simp only [RBC.write]
    have := static_tail ((finishChain_static (RBC.writes content (c.withBlockCondition (condStr c.className condition) :: c :: ps)).1).trans
      (writes_static content _))
    simpa using this
theorem writes_static : ∀ (xs : List RBC) (chain : List Ctx), (RBC.writes xs chain).1.map static = chain.map static
  | [], _ => rfl
  | x :: xs, chain => by
    simp only [RBC.writes]
    rw [writes_static xs, write_static x]
end

theorem ok_static {M : Nat} : ∀ {a b : List Ctx}, a.map static = b.map static → Ok M b → Ok M a
  | [], _, _, _ => by intro m hm; cases hm
  | x :: a, [], h, _ => by simp at h
  | x :: a, y :: b, h, hb => by
    simp only [List.map_cons, List.cons.injEq] at h
    intro m hm
    rcases List.mem_cons.1 hm with rfl | hm
    · have := hb y List.mem_cons_self
      rw [show m.conditions = y.conditions from congrArg Prod.snd h.1]
      exact this
    · exact ok_static h.2 (fun z hz => hb z (List.mem_cons_of_mem _ hz)) m hm

theorem length_static {a b : List Ctx} (h : a.map static = b.map static) : a.length = b.length := by
  simpa using congrArg List.length h

theorem start_le {M : Nat} (hM : 1 ≤ M) {chain : List Ctx} (h : Ok M chain) (hl : chain.length ≤ M) :
    (Work.start chain).2 ≤ 90 * (M * (M * M)) := by
  have h6 : M ≤ M * M := Nat.le_mul_of_pos_left _ hM
  have h7 : M * M ≤ M * (M * M) := Nat.le_mul_of_pos_left _ hM
  cases chain with
  | nil => simp only [Work.start]; omega
  | cons c ps =>
    simp only [List.length_cons] at hl
    have hc := h c List.mem_cons_self
    have hp : Ok M ps := fun x hx => h x (List.mem_cons_of_mem _ hx)
    have h1 := close_le hM hc ps 0 hp (by omega)
    have h2 : ps.length * (47 * (M * M)) ≤ M * (47 * (M * M)) := Nat.mul_le_mul_right _ (by omega)
    have h3 : M * (47 * (M * M)) = 47 * (M * (M * M)) := Nat.mul_left_comm _ _ _
    have hp' : Ok M (Ctx.closeUntilCommonParent c ps).1 := ok_static (close_static c ps) hp
    have hl' := length_static (close_static c ps)
    have h4 := unique_le hM hc hp' (by omega)
    have h5 := unique_count hM hc hp' (by omega)
    have h8 : load (Ctx.uniqueConditions c (Ctx.closeUntilCommonParent c ps).1) ≤ M := Nat.le_trans (load_drop _ _) hc
    have h9 := startLoop_le hM hc hp' (by omega) _ 0 (by omega) h8
    have h10 : (Ctx.uniqueConditions c (Ctx.closeUntilCommonParent c ps).1).length * (24 * M) ≤ M * (24 * M) :=
      Nat.mul_le_mul_right _ h5
    have h11 : M * (24 * M) = 24 * (M * M) := Nat.mul_left_comm _ _ _
    simp only [Work.start]
    split
    · simp only; omega
    · simp only [close_res, uniqueConditions_res]
      omega

theorem finishChain_le {M : Nat} (hM : 1 ≤ M) {chain : List Ctx} (h : Ok M chain) (hl : chain.length ≤ M) :
    (Work.finishChain chain).2 ≤ 32 * (M * M) := by
  have h6 : M ≤ M * M := Nat.le_mul_of_pos_left _ hM
  cases chain with
  | nil => simp only [Work.finishChain]; omega
  | cons c ps =>
    simp only [List.length_cons] at hl
    exact finish_le hM (h c List.mem_cons_self) (fun x hx => h x (List.mem_cons_of_mem _ hx)) (by omega)

/-! ## Selectors -/

open SizeP (clsLen)

theorem writeSelector_le (cls : Option Str) (hcls : ∀ c ∈ cls, ':' ∉ c) (s : Selector) :
    (Work.writeSelector cls s).2 ≤ 40 * ((clsLen cls + 8) * (1 + fragmentsSize s)) := by
  have hK : clsLen cls + 8 ≤ (clsLen cls + 8) * (1 + fragmentsSize s) := Nat.le_mul_of_pos_right _ (by omega)
  have hq : 1 + fragmentsSize s ≤ (clsLen cls + 8) * (1 + fragmentsSize s) := Nat.le_mul_of_pos_left _ (by omega)
  have hj : (clsLen cls + 8) * s.flatten.length ≤ (clsLen cls + 8) * (1 + fragmentsSize s) :=
    Nat.mul_le_mul_left _ (by unfold fragmentsSize; omega)
  have hf : fragmentsSize s = s.flatten.length + s.length := rfl
  generalize (clsLen cls + 8) * (1 + fragmentsSize s) = B at hK hq hj ⊢
  unfold Work.writeSelector Work.writeFragments
  cases cls with
  | none =>
    have h1 := SizeP.expandAmp_length (c! ":root") s.flatten
    rw [← SelectorP.amp_pass] at h1
    have h2 : ((c! ":root").length + 1) * s.flatten.length ≤ (clsLen none + 8) * s.flatten.length :=
      Nat.mul_le_mul_right _ (by simp [clsLen])
    simp only
    split
    · simp only; omega
    · simp only; omega
  | some m =>
    have hk : clsLen (some m) = m.length := rfl
    have h1 := SizeP.expandAmp_length ('.' :: m) s.flatten
    have h2 := SizeP.expand_length ('.' :: m) s.flatten
    rw [← SelectorP.amp_pass] at h1
    rw [← SelectorP.two_pass m (hcls m rfl)] at h2
    have h3 : (('.' :: m).length + 1) * s.flatten.length ≤ (clsLen (some m) + 8) * s.flatten.length :=
      Nat.mul_le_mul_right _ (by simp [clsLen])
    simp only
    split
    · simp only [List.length_cons] at *
      omega
    · simp only [List.length_append, List.length_cons]
      have : (if Str.startsWith (c! ":") s.flatten = true then [] else [' ']).length ≤ 1 := by split <;> simp
      omega

theorem writeSelectors_le (cls : Option Str) (hcls : ∀ c ∈ cls, ':' ∉ c) : ∀ l : List Selector,
    (Work.writeSelectors cls l).2 ≤ 43 * ((clsLen cls + 8) * (l.map (fun s => 1 + fragmentsSize s)).sum) + 1
  | [] => by simp [Work.writeSelectors]
  | [s] => by
    have := writeSelector_le cls hcls s
    have hq : 1 ≤ (clsLen cls + 8) * (1 + fragmentsSize s) := Nat.mul_pos (by omega) (by omega)
    simp only [Work.writeSelectors, List.map_cons, List.map_nil, List.sum_cons, List.sum_nil, Nat.add_zero]
    omega
  | s :: t :: l => by
    have h1 := writeSelector_le cls hcls s
    have h2 := writeSelectors_le cls hcls (t :: l)
    have hq : 1 ≤ (clsLen cls + 8) * (1 + fragmentsSize s) := Nat.mul_pos (by omega) (by omega)
    have e : ((s :: t :: l).map (fun s : Selector => 1 + fragmentsSize s)).sum =
      (1 + fragmentsSize s) + ((t :: l).map (fun s : Selector => 1 + fragmentsSize s)).sum := rfl
    rw [e, Nat.mul_add]
    generalize ((t :: l).map (fun s : Selector => 1 + fragmentsSize s)).sum = X at h2 ⊢
    simp only [Work.writeSelectors]
    omega

theorem condStr_le (cls : Option Str) (hcls : ∀ c ∈ cls, ':' ∉ c) (l : List Selector) :
    (Work.condStr cls l).2 ≤ 43 * ((clsLen cls + 8) * (l.map (fun s => 1 + fragmentsSize s)).sum) + 2 := by
  have := writeSelectors_le cls hcls l
  unfold Work.condStr
  split
  · simp only; omega
  · simp only; omega

theorem sum_fragments : ∀ l : List Selector,
    (l.map (fun s => 1 + s.flatten.length)).sum ≤ (l.map (fun s => 1 + fragmentsSize s)).sum
  | [] => Nat.le_refl _
  | s :: l => by
    have := sum_fragments l
    simp only [List.map_cons, List.sum_cons, fragmentsSize] at this ⊢
    omega

/-- The conditions of a block. -/
theorem block_load {c : Ctx} (hcls : ∀ x ∈ c.className, ':' ∉ x) (l : List Selector) :
    load (c.withBlockCondition (condStr c.className l)).conditions ≤
      load c.conditions + (clsLen c.className + 8) * (1 + (l.map (fun s => 1 + fragmentsSize s)).sum) := by
  have e : load c.conditions = load c.rules + load c.selector.toList := load_append _ _
  have e' : load (c.withBlockCondition (condStr c.className l)).conditions =
      load c.rules + load (c.withBlockCondition (condStr c.className l)).selector.toList := load_append _ _
  rw [e, e', Nat.mul_add, Nat.mul_one]
  by_cases hl : l = []
  · subst hl
    have : condStr c.className [] = none := rfl
    rw [this]
    simp only [Ctx.withBlockCondition]
    cases hs : c.selector with
    | some t => simp
    | none =>
      cases hk : c.className with
      | none => simp [load]
      | some m => simp [load, clsLen]
  · have h1 : condStr c.className l = some (Str.join (c! ", ") (l.map (Selector.write c.className))) := by
      unfold condStr
      rw [if_neg (by simpa using hl)]
    have h2 : l.map (Selector.write c.className) = l.map (fun s => scopeSelector c.className s.flatten) := by
      refine List.map_congr_left (fun s _ => ?_)
      exact SelectorP.write_spec c.className hcls s
    have h3 := SizeP.join_length c.className l
    have h4 := Nat.mul_le_mul_left (clsLen c.className + 8) (sum_fragments l)
    rw [h1, h2]
    simp only [Ctx.withBlockCondition, Option.some_or, Option.toList_some, load, List.map_cons, List.map_nil, List.sum_cons,
      List.sum_nil]
    omega

theorem rule_load (c : Ctx) (cond : Str) : load (c.withRuleCondition cond).conditions = load c.conditions + (cond.length + 1) := by
  have e : load c.conditions = load c.rules + load c.selector.toList := load_append _ _
  have e' : load (c.withRuleCondition cond).conditions = load (c.rules ++ [cond]) + load c.selector.toList := load_append _ _
  rw [e, e', load_append]
  simp only [load, List.map_cons, List.map_nil, List.sum_cons, List.sum_nil]
  omega

/-! ## All of it -/

/-- The chain in which something of size `w` is written. -/
structure Fits (cls : Option Str) (M w : Nat) (chain : List Ctx) : Prop where
  ok : Ok M chain
  long : chain.length + w ≤ M
  head : ∀ c ∈ chain.head?, c.className = cls ∧ load c.conditions + (clsLen cls + 8) * w ≤ M

theorem Fits.static {cls : Option Str} {M w : Nat} {a b : List Ctx} (h : a.map static = b.map static) (hb : Fits cls M w b) : Fits cls M w a := by
  refine ⟨ok_static h hb.ok, by rw [length_static h]; exact hb.long, ?_⟩
  intro c hc
  cases a with
  | nil => cases hc
  | cons x a =>
    cases hc
    cases b with
    | nil => simp at h
    | cons y b =>
      simp only [List.map_cons, List.cons.injEq] at h
      have h1 : c.className = y.className := congrArg Prod.fst h.1
      have h2 : c.conditions = y.conditions := congrArg Prod.snd h.1
      rw [h1, h2]
      exact hb.head y rfl

theorem Fits.mono {cls : Option Str} {M w v : Nat} {a : List Ctx} (h : v ≤ w) (ha : Fits cls M w a) : Fits cls M v a := by
  refine ⟨ha.ok, by have := ha.long; omega, fun c hc => ⟨(ha.head c hc).1, ?_⟩⟩
  have h1 := (ha.head c hc).2
  have h2 := Nat.mul_le_mul_left (clsLen cls + 8) h
  omega

theorem Fits.cons {cls : Option Str} {M w v : Nat} {a : List Ctx} {c : Ctx} (ha : Fits cls M w a) (hv : v < w) (hc : c.className = cls)
    (hl : load c.conditions + (clsLen cls + 8) * v ≤ M) : Fits cls M v (c :: a) := by
  refine ⟨?_, by have := ha.long; simp only [List.length_cons]; omega, ?_⟩
  · intro m hm
    rcases List.mem_cons.1 hm with rfl | hm
    · omega
    · exact ha.ok m hm
  · intro x hx
    cases hx
    exact ⟨hc, hl⟩

theorem selectorChars_le (c : Ctx) : c.rules.length + Work.selectorChars c ≤ 2 * load c.conditions := by
  have h1 := length_le_load c.conditions
  have h2 : c.rules.length ≤ c.conditions.length := by simp [Ctx.conditions]
  have h3 : Work.selectorChars c ≤ load c.conditions := by
    unfold Work.selectorChars
    cases hs : c.selector with
    | none => simp
    | some t =>
      have : t ∈ c.conditions := by simp [Ctx.conditions, hs]
      have := mem_le_load this
      simp only [Option.getD_some]
      omega
  omega

section
variable {cls : Option Str} (hcls : ∀ c ∈ cls, ':' ∉ c) {M : Nat} (hM : 1 ≤ M)
include hcls hM

mutual
theorem write_le : ∀ (x : RBC) (chain : List Ctx), Fits cls M (weightIn x) chain →
    (Work.write x chain).2 + 1 ≤ 250 * (M * (M * M) * weightIn x)
  | .attr k v, chain, h => by
    have h6 : M ≤ M * M := Nat.le_mul_of_pos_left _ hM
    have h7 : M * M ≤ M * (M * M) := Nat.le_mul_of_pos_left _ hM
    have h1 := start_le hM h.ok (by have := h.long; omega)
    have h2 : Ok M (Ctx.start chain).1 := ok_static (start_static chain) h.ok
    have h3 := h.long
    have h4 : M * (M * M) ≤ M * (M * M) * weightIn (.attr k v) := Nat.le_mul_of_pos_right _ (by simp only [weightIn]; omega)
    generalize M * (M * M) * weightIn (.attr k v) = R at h4 ⊢
    simp only [weightIn, fragmentsSize] at h3
    simp only [Work.write, start_res, Work.writePadding, Work.writePaddingImpl, Work.writeFragments]
    split
    · simp only; omega
    · next c ps hc =>
      rw [hc] at h2
      have h5 := h2 c List.mem_cons_self
      have h8 := length_le_load c.conditions
      simp only
      omega
  | .rule condition content, [], h => by
    have h4 : M * (M * M) ≤ M * (M * M) * weightIn (.rule condition content) :=
      Nat.le_mul_of_pos_right _ (by simp only [weightIn]; omega)
    have h7 : 1 ≤ M * (M * M) := Nat.mul_pos hM (Nat.mul_pos hM hM)
    simp only [Work.write]
    omega
  | .rule condition content, c :: ps, h => by
    have h6 : M ≤ M * M := Nat.le_mul_of_pos_left _ hM
    have h7 : M * M ≤ M * (M * M) := Nat.le_mul_of_pos_left _ hM
    have hw : weightIn (.rule condition content) = 1 + (fragmentsSize condition + weightInAll content) := by
      simp only [weightIn]; omega
    have hw' : M * (M * M) * (1 + (fragmentsSize condition + weightInAll content)) =
        M * (M * M) + (M * (M * M) * fragmentsSize condition + M * (M * M) * weightInAll content) := by
      rw [Nat.mul_add, Nat.mul_one, Nat.mul_add]
    rw [hw, hw']
    obtain ⟨hk, hl⟩ := h.head c rfl
    rw [hw] at hl
    have hlong := h.long
    rw [hw] at hlong
    have hs := selectorChars_le c
    have hload := h.ok c List.mem_cons_self
    have hsub : Fits cls M (weightInAll content) (c.withRuleCondition condition.flatten :: c :: ps) := by
      refine h.cons (by omega) hk ?_
      rw [rule_load]
      rw [Nat.mul_add, Nat.mul_add, Nat.mul_one] at hl
      have : fragmentsSize condition ≤ (clsLen cls + 8) * fragmentsSize condition := Nat.le_mul_of_pos_left _ (by omega)
      have : condition.flatten.length ≤ fragmentsSize condition := by unfold fragmentsSize; omega
      omega
    have key : ∀ ch : List Ctx, ch.map static = (c.withRuleCondition condition.flatten :: c :: ps).map static →
        (Work.writes content ch).2 ≤ 250 * (M * (M * M) * weightInAll content) + 1 ∧
        (Work.finishChain (RBC.writes content ch).1).2 ≤ 32 * (M * M) := by
      intro ch hch
      have h1 := Fits.static hch hsub
      refine ⟨writes_le content ch h1, ?_⟩
      have h2 := Fits.static (writes_static content ch) h1
      exact finishChain_le hM h2.ok (by have := h2.long; omega)
    have hf : Work.writeFragments condition = (condition.flatten, fragmentsSize condition + 1) := rfl
    generalize M * (M * M) * fragmentsSize condition = R1
    generalize M * (M * M) * weightInAll content = R2 at key ⊢
    simp only [Work.write, hf, Work.withRuleCondition]
    by_cases ha : Str.startsWith (c! "@keyframes") condition.flatten = true
    · simp only [ha, if_true, start_res, writes_res]
      obtain ⟨h1, h2⟩ := key _ (start_static _)
      have h3 := start_le hM hsub.ok (by have := hsub.long; omega)
      omega
    · simp only [ha, Bool.false_eq_true, if_false, writes_res]
      obtain ⟨h1, h2⟩ := key _ rfl
      omega
  | .block condition content, [], h => by
    have h4 : M * (M * M) ≤ M * (M * M) * weightIn (.block condition content) :=
      Nat.le_mul_of_pos_right _ (by simp only [weightIn]; omega)
    have h7 : 1 ≤ M * (M * M) := Nat.mul_pos hM (Nat.mul_pos hM hM)
    simp only [Work.write]
    omega
  | .block condition content, c :: ps, h => by
    have h6 : M ≤ M * M := Nat.le_mul_of_pos_left _ hM
    have h7 : M * M ≤ M * (M * M) := Nat.le_mul_of_pos_left _ hM
    obtain ⟨hk, hl⟩ := h.head c rfl
    have hlong := h.long
    have hs := selectorChars_le c
    have hload := h.ok c List.mem_cons_self
    have hcond := condStr_le cls hcls condition
    have hb := block_load (c := c) (by rw [hk]; exact hcls) condition
    rw [hk] at hb
    simp only [weightIn] at hl hlong ⊢
    rw [Nat.mul_add] at hl ⊢
    rw [Nat.mul_add (M * (M * M)) 1, Nat.mul_one]
    have hsub : Fits cls M (weightInAll content) (c.withBlockCondition (condStr cls condition) :: c :: ps) :=
      h.cons (by simp only [weightIn]; omega) hk (by omega)
    have h1 := writes_le content _ hsub
    have h2 := Fits.static (writes_static content _) hsub
    have h3 := finishChain_le hM h2.ok (by have := h2.long; omega)
    have h8 : (clsLen cls + 8) * (1 + (condition.map (fun s => 1 + fragmentsSize s)).sum) =
      clsLen cls + 8 + (clsLen cls + 8) * (condition.map (fun s => 1 + fragmentsSize s)).sum := by rw [Nat.mul_add, Nat.mul_one]
    rw [h8] at hl
    have h9 : (cls.getD []).length = clsLen cls := rfl
    generalize M * (M * M) * (condition.map (fun s => 1 + fragmentsSize s)).sum = R1
    generalize M * (M * M) * weightInAll content = R2 at h1 ⊢
    simp only [Work.write, Work.withBlockCondition, hk, condStr_res, writes_res]
    omega
theorem writes_le : ∀ (xs : List RBC) (chain : List Ctx), Fits cls M (weightInAll xs) chain →
    (Work.writes xs chain).2 ≤ 250 * (M * (M * M) * weightInAll xs) + 1
  | [], _, _ => by simp only [Work.writes]; omega
  | x :: xs, chain, h => by
    have h1 := write_le x chain (h.mono (by simp only [weightInAll]; omega))
    have h2 := writes_le xs (RBC.write x chain).1
      (Fits.static (write_static x chain) (h.mono (by simp only [weightInAll]; omega)))
    have h3 : M * (M * M) * weightInAll (x :: xs) = M * (M * M) * weightIn x + M * (M * M) * weightInAll xs := by
      rw [weightInAll, Nat.mul_add]
    rw [h3]
    simp only [Work.writes, write_res]
    omega
end
end

theorem writeSheet_eq : ∀ (s : Sheet) (chain : List Ctx), Work.writeSheet s chain = Work.writes (s.map ScopeContent.toRBC) chain
  | [], _ => rfl
  | x :: xs, chain => by
    simp only [Work.writeSheet, List.map_cons, Work.writes, writeSheet_eq xs]

theorem toStyleStr_le (s : Sheet) (cls : Option Str) (hcls : ∀ c ∈ cls, ':' ∉ c) :
    (Work.toStyleStr s cls).2 ≤ 252 * (((clsLen cls + 8) * (weightOfSheet s + 1)) ^ 3 * (weightOfSheet s + 1)) := by
  have hM : 1 ≤ (clsLen cls + 8) * (weightOfSheet s + 1) := Nat.mul_pos (by omega) (by omega)
  have hsize : weightOfSheet s + 1 ≤ (clsLen cls + 8) * (weightOfSheet s + 1) := Nat.le_mul_of_pos_left _ (by omega)
  have hfit : Fits cls ((clsLen cls + 8) * (weightOfSheet s + 1)) (weightInAll (s.map ScopeContent.toRBC)) [Ctx.new cls] := by
    refine ⟨?_, ?_, ?_⟩
    · intro m hm
      rw [List.mem_singleton] at hm
      subst hm
      exact Nat.zero_le _
    · simp only [List.length_singleton]
      unfold weightOfSheet at hsize ⊢
      omega
    · intro c hc
      cases hc
      refine ⟨rfl, ?_⟩
      have : load (Ctx.new cls).conditions = 0 := rfl
      rw [this, Nat.zero_add]
      exact Nat.mul_le_mul_left _ (Nat.le_succ _)
  have h1 := writes_le hcls hM _ _ hfit
  rw [← writeSheet_eq] at h1
  have h2 : ((clsLen cls + 8) * (weightOfSheet s + 1)) ^ 3 * (weightOfSheet s + 1) =
      (clsLen cls + 8) * (weightOfSheet s + 1) * ((clsLen cls + 8) * (weightOfSheet s + 1) * ((clsLen cls + 8) * (weightOfSheet s + 1))) *
        weightInAll (s.map ScopeContent.toRBC) +
      (clsLen cls + 8) * (weightOfSheet s + 1) * ((clsLen cls + 8) * (weightOfSheet s + 1) * ((clsLen cls + 8) * (weightOfSheet s + 1))) := by
    generalize (clsLen cls + 8) * (weightOfSheet s + 1) = M
    rw [Nat.mul_add, Nat.mul_one, Nat.pow_succ, Nat.pow_two, Nat.mul_assoc M M M]
    rfl
  rw [h2]
  generalize (clsLen cls + 8) * (weightOfSheet s + 1) = M at h1 hM
  have h3 : 1 ≤ M * (M * M) := Nat.mul_pos hM (Nat.mul_pos hM hM)
  simp only [Work.toStyleStr]
  omega

end WorkP
