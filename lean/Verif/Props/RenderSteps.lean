import Verif.Proofs.RenderSteps
import Verif.Props.Size

/-!
# The work of rendering

C110: a sheet of any shape is rendered in a number of steps that is polynomial in its size,
however deep it is nested and however its blocks follow each other.
-/

namespace Work

open Spec

/-- **C110.** Rendering with a counter is rendering: it gives the same text for every sheet. -/
theorem C110_result (s : Sheet) (cls : Option Str) : (toStyleStr s cls).1 = s.toStyleStr cls :=
  WorkP.toStyleStr_res s cls

/-- **C110.** Rendering a sheet of size `n` (`Spec/RenderSteps`) under a class of `k` characters takes
at most `252 (k + 8)³ (n + 1)⁴` steps. -/
theorem C110_polynomial (s : Sheet) (cls : Option Str) (hcls : ∀ c ∈ cls, ':' ∉ c) :
    (toStyleStr s cls).2 ≤ 252 * ((cls.getD []).length + 8) ^ 3 * (weightOfSheet s + 1) ^ 4 := by
  refine Nat.le_trans (WorkP.toStyleStr_le s cls hcls) (Nat.le_of_eq ?_)
  rw [Nat.mul_pow, Nat.mul_assoc, ← Nat.pow_succ, ← Nat.mul_assoc]
  rfl

/-- The fragments of parsed sheets are few. -/
theorem weight_all {n : Nat} : ∀ {l : List RBC}, (∀ x ∈ l, weightIn x ≤ n * sizeIn x) → weightInAll l ≤ n * sizeInAll l
  | [], _ => Nat.zero_le _
  | x :: xs, h => by
    have h1 := h x List.mem_cons_self
    have h2 := weight_all (l := xs) (fun y hy => h y (List.mem_cons_of_mem _ hy))
    rw [weightInAll, sizeInAll, Nat.mul_add]
    omega

theorem weight_attr {k : Str} {v : List Str} (h : AttrShape k v) : weightIn (.attr k v) ≤ 3 * sizeIn (.attr k v) := by
  obtain ⟨-, t, rfl, -⟩ := h
  simp only [weightIn, sizeIn, fragmentsSize, List.length_singleton]
  omega

theorem weight_at {names : List Str} {cond : List Str} (h : AtShape names cond) :
    1 + fragmentsSize cond ≤ 3 * (1 + cond.flatten.length) := by
  obtain ⟨n, -, t, rfl, -⟩ := h
  simp only [fragmentsSize, List.length_cons, List.length_nil]
  omega

theorem weight_item : ∀ (x : RBC), Item x → weightIn x ≤ 3 * sizeIn x
  | .attr _ _, h => by
    cases h with
    | attr _ _ h => exact weight_attr h
  | .rule cond content, h => by
    cases h with
    | rule _ _ hc h =>
      have h1 := weight_all (fun x hx => weight_item x (h x hx))
      have h2 := weight_at hc
      simp only [weightIn, sizeIn]
      omega
  | .block _ _, h => by cases h

theorem weight_sels : ∀ {l : List Selector}, (∀ s ∈ l, ∃ t, s = [t] ∧ Str.trim t = t) →
    (l.map (fun s => 1 + fragmentsSize s)).sum ≤ 3 * (l.map (fun s => 1 + s.flatten.length)).sum
  | [], _ => Nat.zero_le _
  | s :: l, h => by
    obtain ⟨t, rfl, -⟩ := h s List.mem_cons_self
    have h2 := weight_sels (l := l) (fun y hy => h y (List.mem_cons_of_mem _ hy))
    simp only [List.map_cons, List.sum_cons, fragmentsSize, List.length_singleton] at h2 ⊢
    omega

theorem weight_scope : ∀ (x : RBC), ScopeItem x → weightIn x ≤ 3 * sizeIn x
  | .attr _ _, h => by cases h
  | .rule _ content, h => by
    cases h with
    | rule _ _ hc h =>
      have h1 := weight_all (fun x hx => weight_scope x (h x hx))
      have h2 := weight_at hc
      simp only [weightIn, sizeIn]
      omega
    | keyframes _ _ hc h =>
      have h1 := weight_all (n := 3) (l := content) (fun x hx => by
        obtain ⟨t, cs, rfl, -, hcs⟩ := h x hx
        have h1 := weight_all (fun y hy => weight_item y (hcs y hy))
        simp only [weightIn, sizeIn, fragmentsSize, List.length_singleton]
        omega)
      have h2 := weight_at hc
      simp only [weightIn, sizeIn]
      omega
  | .block sels content, h => by
    cases h with
    | dangling _ _ h =>
      have h1 := weight_all (n := 3) (l := content) (fun x hx => by
        obtain ⟨k, v, rfl, hkv⟩ := h x hx
        exact weight_attr hkv)
      simp only [weightIn, sizeIn, List.map_nil, List.sum_nil]
      omega
    | block _ _ _ hs h =>
      have h1 := weight_all (fun x hx => weight_item x (h x hx))
      have h2 := weight_sels hs
      simp only [weightIn, sizeIn]
      omega

/-- **C110** for a css text: what was read from `n` characters is rendered in at most
`252 (k + 8)³ (3 n + 1)⁴` steps. -/
theorem C110_css (css : Str) (s : Sheet) (cls : Option Str) (hcls : ∀ c ∈ cls, ':' ∉ c) (h : Css.parse css = some s) :
    (toStyleStr s cls).2 ≤ 252 * ((cls.getD []).length + 8) ^ 3 * (3 * css.length + 1) ^ 4 := by
  refine Nat.le_trans (C110_polynomial s cls hcls) (Nat.mul_le_mul_left _ (Nat.pow_le_pow_left ?_ 4))
  have h1 := SizeP.parsed_size (C12_every_character css s h)
  have h2 : weightOfSheet s ≤ 3 * sizeOfSheet s := weight_all (fun x hx => by
    obtain ⟨y, hy, rfl⟩ := List.mem_map.1 hx
    exact weight_scope _ (C14_shape css s h y hy))
  omega

/-- A text that parses and its steps, and the same with one more at-rule. -/
example : (Css.parse (c! "p{a:b;@media x{c:d}}")).map (fun s => (weightOfSheet s, (toStyleStr s (some (c! "c"))).2)) =
      some (23, 257) ∧
    (Css.parse (c! "p{a:b;@media x{c:d;@media x{c:d}}}")).map (fun s => (weightOfSheet s, (toStyleStr s (some (c! "c"))).2)) =
      some (38, 495) := by decide +kernel

end Work
