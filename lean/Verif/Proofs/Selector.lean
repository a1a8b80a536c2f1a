import Verif.Model.Render
import Verif.Spec.Css

/-! # Selector scoping -/

namespace SelectorP
open Spec

theorem contains_iff (p : Str) : ∀ s : Str, Str.contains p s = true ↔ p <:+: s
  | [] => by simp [Str.contains]
  | c :: s => by
    simp only [Str.contains, Bool.or_eq_true, contains_iff p s, List.isPrefixOf_iff_prefix]
    exact List.infix_cons_iff.symm

theorem containsChar_iff (c : Char) (s : Str) : Str.containsChar c s = true ↔ c ∈ s := by
  unfold Str.containsChar
  exact List.elem_iff

theorem replaceGo_append (rep : Str) : ∀ (x t : Str), ':' ∉ x →
    Str.replaceGo (c! ":root") rep 0 (x ++ t) = x ++ Str.replaceGo (c! ":root") rep 0 t
  | [], t, _ => rfl
  | c :: x, t, h => by
    simp only [List.mem_cons, not_or] at h
    have hne : (c! ":root").isPrefixOf (c :: (x ++ t)) = false := by
      simp [List.isPrefixOf, h.1]
    simp only [List.cons_append, Str.replaceGo, hne, Bool.false_eq_true, if_false,
      replaceGo_append rep x t h.2]

theorem prefix_replaceChar (cls : Str) : ∀ (p s : Str), '.' ∉ p →
    p <+: Str.replaceChar '&' ('.' :: cls) s → p <+: s
  | [], s, _, _ => List.nil_prefix
  | a :: p, [], _, h => by simp [Str.replaceChar] at h
  | a :: p, d :: s, hp, h => by
    simp only [List.mem_cons, not_or] at hp
    simp only [Str.replaceChar, List.flatMap_cons] at h
    split at h
    · simp only [List.cons_append, List.cons_prefix_cons] at h
      exact absurd h.1.symm hp.1
    · simp only [List.cons_append, List.nil_append, List.cons_prefix_cons] at h
      rw [List.cons_prefix_cons]
      exact ⟨h.1, prefix_replaceChar cls p s hp.2 h.2⟩

theorem prefix_replaceChar' (r : Str) : ∀ (p s : Str), '&' ∉ p → p <+: s →
    p <+: Str.replaceChar '&' r s
  | [], s, _, _ => List.nil_prefix
  | a :: p, [], _, h => by simp at h
  | a :: p, d :: s, hp, h => by
    simp only [List.mem_cons, not_or] at hp
    rw [List.cons_prefix_cons] at h
    obtain ⟨rfl, h⟩ := h
    simp only [Str.replaceChar, List.flatMap_cons]
    rw [if_neg (fun h => hp.1 h.symm)]
    simp only [List.cons_append, List.nil_append, List.cons_prefix_cons, true_and]
    exact prefix_replaceChar' r p s hp.2 h

theorem two_pass (cls : Str) (hc : ':' ∉ cls) (s : Str) :
    Str.replace (c! ":root") ('.' :: cls) (Str.replaceChar '&' ('.' :: cls) s) =
      expand ('.' :: cls) s := by
  unfold Str.replace
  induction s using expand.induct with
  | case1 => rfl
  | case2 s ih =>
    rw [expand, ← ih]
    have : Str.replaceChar '&' ('.' :: cls) ('&' :: s) =
        ('.' :: cls) ++ Str.replaceChar '&' ('.' :: cls) s := by
      simp [Str.replaceChar]
    rw [this]
    exact replaceGo_append _ _ _ (by simp [hc])
  | case3 s ih =>
    rw [expand, ← ih]
    have : Str.replaceChar '&' ('.' :: cls) (':' :: 'r' :: 'o' :: 'o' :: 't' :: s) =
        ':' :: 'r' :: 'o' :: 'o' :: 't' :: Str.replaceChar '&' ('.' :: cls) s := by
      simp [Str.replaceChar]
    rw [this]
    simp [Str.replaceGo, List.isPrefixOf]
  | case4 c s h1 h2 ih =>
    have h1' : c ≠ '&' := by simpa using h1
    rw [expand, ← ih]
    rotate_left
    · exact h1
    · exact h2
    have : Str.replaceChar '&' ('.' :: cls) (c :: s) = c :: Str.replaceChar '&' ('.' :: cls) s := by
      simp [Str.replaceChar, h1']
    rw [this]
    have hne : (c! ":root").isPrefixOf (c :: Str.replaceChar '&' ('.' :: cls) s) = false := by
      rw [Bool.eq_false_iff]
      intro hp
      rw [List.isPrefixOf_iff_prefix, List.cons_prefix_cons] at hp
      obtain ⟨rfl, hp⟩ := hp
      obtain ⟨t, ht⟩ := prefix_replaceChar cls _ _ (by decide) hp
      exact h2 t rfl ht.symm
    simp only [Str.replaceGo, hne, Bool.false_eq_true, if_false]

theorem amp_pass (r s : Str) : Str.replaceChar '&' r s = expandAmp r s := by
  induction s using expandAmp.induct with
  | case1 => rfl
  | case2 s ih => rw [expandAmp, ← ih]; simp [Str.replaceChar]
  | case3 c s h ih =>
    have : c ≠ '&' := by simpa using h
    rw [expandAmp, ← ih]
    · simp [Str.replaceChar, this]
    · exact h

theorem expandAmp_none (r s : Str) (h : '&' ∉ s) : expandAmp r s = s := by
  induction s using expandAmp.induct with
  | case1 => rfl
  | case2 s ih => simp at h
  | case3 c s hc ih =>
    rw [expandAmp, ih (fun h' => h (by simp [h']))]
    exact hc

theorem write_spec (cls : Option Str) (hc : ∀ c ∈ cls, ':' ∉ c) (s : Selector) :
    Selector.write cls s = scopeSelector cls s.flatten := by
  cases cls with
  | none =>
    simp only [Selector.write, scopeSelector]
    split
    · exact amp_pass _ _
    · rename_i h
      rw [expandAmp_none]
      simpa [containsChar_iff] using h
  | some c =>
    have hc := hc c rfl
    simp only [Selector.write, scopeSelector]
    by_cases h : '&' ∈ s.flatten ∨ c! ":root" <:+: s.flatten
    · have h' : (Str.containsChar '&' s.flatten || Str.contains (c! ":root") s.flatten) = true := by
        simpa [Bool.or_eq_true, contains_iff, containsChar_iff] using h
      rw [if_pos h, if_pos h']
      exact two_pass c hc _
    · have h' : ¬ (Str.containsChar '&' s.flatten || Str.contains (c! ":root") s.flatten) = true := by
        simpa [Bool.or_eq_true, contains_iff, containsChar_iff] using h
      rw [if_neg h, if_neg h']
      generalize s.flatten = t
      cases t with
      | nil => simp [Str.startsWith, List.isPrefixOf]
      | cons a t =>
        by_cases ha : a = ':'
        · subst ha; simp [Str.startsWith, List.isPrefixOf]
        · have : ':' ≠ a := fun h => ha h.symm
          simp [Str.startsWith, List.isPrefixOf, ha, this]

theorem expand_infix (r s : Str) (h : '&' ∈ s ∨ c! ":root" <:+: s) : r <:+: expand r s := by
  induction s using expand.induct with
  | case1 => simp at h
  | case2 s ih => rw [expand]; exact ⟨[], expand r s, by simp⟩
  | case3 s ih => rw [expand]; exact ⟨[], expand r s, by simp⟩
  | case4 c s h1 h2 ih =>
    have h1' : c ≠ '&' := by simpa using h1
    rw [expand]
    · refine (ih ?_).trans (List.infix_cons (List.infix_refl _))
      rcases h with h | h
      · left; simpa [h1'.symm] using h
      · right
        rcases List.infix_cons_iff.1 h with h | h
        · obtain ⟨t, ht⟩ := h
          simp at ht
          obtain ⟨rfl, rfl⟩ := ht
          exact (h2 t rfl rfl).elim
        · exact h
    · exact h1
    · exact h2

theorem scoped_infix (c s : Str) : ('.' :: c) <:+: scopeSelector (some c) s := by
  simp only [scopeSelector]
  split
  · rename_i h; exact expand_infix _ _ h
  · split
    · exact ⟨[], s, by simp⟩
    · exact ⟨[], ' ' :: s, by simp⟩

end SelectorP
