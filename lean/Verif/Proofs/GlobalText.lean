import Verif.Spec.GlobalText
import Verif.Proofs.Browser

/-! # The texts of a sheet with a class and without one -/

namespace GlobalTextP
open Spec

/-- A text is not a proper repetition of what stands before it. -/
theorem not_periodic {p : Str} (hp : p ≠ []) (hc : ',' ∉ p) : ∀ (n : Nat) (t x y : Str), t.length ≤ n →
    (∀ c ∈ y.head?, c = ',') → p ++ t ++ x ≠ t ++ y
  | n, t, x, y, hn, hy, e => by
    rw [List.append_assoc] at e
    rcases List.append_eq_append_iff.1 e with ⟨u, h1, h2⟩ | ⟨u, h1, h2⟩
    · -- `t = p ++ u`
      have hlen : u.length < t.length := by
        have := List.length_pos_iff.2 hp
        rw [h1, List.length_append]; omega
      cases n with
      | zero => omega
      | succ n =>
        refine not_periodic hp hc n u x y (by omega) hy ?_
        rw [← h2, h1]
    · -- `p = t ++ u`
      cases u with
      | nil =>
        -- `p = t`
        simp only [List.append_nil] at h1
        subst h1
        simp only [List.nil_append] at h2
        cases p with
        | nil => exact hp rfl
        | cons c p =>
          rw [h2] at hy
          exact hc (by rw [← hy c (by simp)]; simp)
      | cons c u =>
        rw [h2] at hy
        apply hc
        rw [h1, ← hy c (by simp)]
        simp

/-- The first place where something is put in. -/
theorem expand_differs (a : Str) : ∀ (s : Str), ('&' ∈ s ∨ c! ":root" <:+: s) →
    ∃ u x y, expand ('.' :: a) s = u ++ '.' :: x ∧ expandAmp (c! ":root") s = u ++ ':' :: y
  | [], h => by
    rcases h with h | h
    · cases h
    · have := List.infix_nil.1 h; cases this
  | c :: s, h => by
    by_cases hc : c = '&'
    · subst hc
      exact ⟨[], _, _, rfl, rfl⟩
    by_cases hr : (c! ":root") <+: c :: s
    · obtain ⟨w, hw⟩ := hr
      rw [← hw]
      refine ⟨[], a ++ expand ('.' :: a) w, c! "root" ++ expandAmp (c! ":root") w, rfl, ?_⟩
      simp [expandAmp]
    · have h' : '&' ∈ s ∨ c! ":root" <:+: s := by
        rcases h with h | h
        · exact .inl ((List.mem_cons.1 h).resolve_left (fun e => hc e.symm))
        · exact .inr ((List.infix_cons_iff.1 h).resolve_left hr)
      obtain ⟨u, x, y, h1, h2⟩ := expand_differs a s h'
      refine ⟨c :: u, x, y, ?_, ?_⟩
      · rw [expand, h1]
        · rfl
        · exact hc
        · rintro t rfl rfl; exact hr ⟨t, rfl⟩
      · rw [expandAmp, h2]
        · rfl
        · exact hc

theorem expandAmp_none (r : Str) : ∀ (s : Str), '&' ∉ s → expandAmp r s = s
  | [], _ => rfl
  | c :: s, h => by
    simp only [List.mem_cons, not_or] at h
    rw [expandAmp, expandAmp_none r s h.2]
    exact fun e => h.1 e.symm

theorem join_cons (a : Str) (l : List Str) : ∃ r, Str.join (c! ", ") (a :: l) = a ++ r ∧ ∀ c ∈ r.head?, c = ',' := by
  cases l with
  | nil => exact ⟨[], by simp [Str.join], by simp⟩
  | cons b l => exact ⟨c! ", " ++ Str.join (c! ", ") (b :: l), by simp [Str.join], by simp⟩

theorem comma_class {a : Str} (h : CleanClass a) : ',' ∉ '.' :: a := by
  intro hm
  rcases List.mem_cons.1 hm with e | hm
  · revert e; decide
  · have := (h.2 _ hm).1
    revert this; decide

theorem block_differs {a : Str} (ha : CleanClass a) {o o' : Option Str} (ho : o ≠ o' ∨ o = none ∧ o' = none)
    (hs : o.isSome = o'.isSome) (c : List Selector) :
    blockSelector (scopeSelector (some a)) (current (some a)) o c ≠ blockSelector (scopeSelector none) (current none) o' c := by
  cases c with
  | nil =>
    intro e
    simp only [blockSelector] at e
    cases o with
    | none =>
      cases o' with
      | none => simp [current] at e
      | some y => cases hs
    | some x =>
      cases o' with
      | none => cases hs
      | some y =>
        simp only [Option.getD_some] at e
        subst e
        rcases ho with h | h
        · exact h rfl
        · cases h.1
  | cons s l =>
    simp only [blockSelector, List.map_cons]
    obtain ⟨r, e1, -⟩ := join_cons (scopeSelector (some a) s.flatten) (l.map (fun s => scopeSelector (some a) s.flatten))
    obtain ⟨r', e2, hr⟩ := join_cons (scopeSelector none s.flatten) (l.map (fun s => scopeSelector none s.flatten))
    rw [e1, e2]
    by_cases h : '&' ∈ s.flatten ∨ c! ":root" <:+: s.flatten
    · obtain ⟨u, x, y, h1, h2⟩ := expand_differs a s.flatten h
      simp only [scopeSelector, if_pos h, h1, h2]
      intro e
      simp at e
    · have h3 : expandAmp (c! ":root") s.flatten = s.flatten := expandAmp_none _ _ (fun e => h (.inl e))
      simp only [scopeSelector, if_neg h, h3]
      split
      · exact not_periodic (by simp) (comma_class ha) _ _ r r' (Nat.le_refl _) hr
      · have := not_periodic (p := '.' :: a ++ [' ']) (by simp)
          (by
            rw [List.mem_append]
            rintro (hm | hm)
            · exact comma_class ha hm
            · revert hm; decide) _ s.flatten r r' (Nat.le_refl _) hr
        simpa using this

mutual
theorem length_in (sel sel' : Str → Str) (cur cur' : Str) : ∀ (x : RBC) (r r' : List Str) (o o' : Option Str),
    (declsIn sel cur r o x).length = (declsIn sel' cur' r' o' x).length
  | .attr k v, _, _, _, _ => rfl
  | .rule c b, _, _, _, _ => by rw [declsIn, declsIn]; exact length_all sel sel' cur cur' b _ _ _ _
  | .block c b, _, _, _, _ => by rw [declsIn, declsIn]; exact length_all sel sel' cur cur' b _ _ _ _
theorem length_all (sel sel' : Str → Str) (cur cur' : Str) : ∀ (xs : List RBC) (r r' : List Str) (o o' : Option Str),
    (declsInAll sel cur r o xs).length = (declsInAll sel' cur' r' o' xs).length
  | [], _, _, _, _ => rfl
  | x :: xs, r, r', o, o' => by
    rw [declsInAll, declsInAll, List.length_append, List.length_append, length_in sel sel' cur cur' x r r' o o',
      length_all sel sel' cur cur' xs r r' o o']
end

mutual
theorem same_in {a : Str} (ha : CleanClass a) : ∀ (x : RBC) (r : List Str) (o o' : Option Str) (inside : Bool),
    (if inside = true then o.isSome = true ∧ o'.isSome = true ∧ o ≠ o' else o = none ∧ o' = none) →
    (declsIn (scopeSelector (some a)) (current (some a)) r o x = declsIn (scopeSelector none) (current none) r o' x ↔
      declInBlock inside x = false)
  | .attr k v, r, o, o', inside, h => by
    rw [declsIn, declsIn, declInBlock]
    cases inside with
    | false =>
      obtain ⟨rfl, rfl⟩ := h
      simp
    | true =>
      obtain ⟨h1, h2, h3⟩ := h
      obtain ⟨x, rfl⟩ := Option.isSome_iff_exists.1 h1
      obtain ⟨y, rfl⟩ := Option.isSome_iff_exists.1 h2
      simpa using h3
  | .rule c b, r, o, o', inside, h => by
    rw [declsIn, declsIn, declInBlock]
    exact same_all ha b _ o o' inside h
  | .block c b, r, o, o', inside, h => by
    rw [declsIn, declsIn, declInBlock]
    refine same_all ha b _ _ _ true ⟨rfl, rfl, ?_⟩
    simp only [ne_eq, Option.some.injEq]
    refine block_differs ha ?_ ?_ c
    · cases inside with
      | false => exact .inr h
      | true => exact .inl h.2.2
    · cases inside with
      | false => obtain ⟨rfl, rfl⟩ := h; rfl
      | true => rw [h.1, h.2.1]
theorem same_all {a : Str} (ha : CleanClass a) : ∀ (xs : List RBC) (r : List Str) (o o' : Option Str) (inside : Bool),
    (if inside = true then o.isSome = true ∧ o'.isSome = true ∧ o ≠ o' else o = none ∧ o' = none) →
    (declsInAll (scopeSelector (some a)) (current (some a)) r o xs =
        declsInAll (scopeSelector none) (current none) r o' xs ↔ declInBlockAny inside xs = false)
  | [], r, o, o', inside, h => by simp [declsInAll, declInBlockAny]
  | x :: xs, r, o, o', inside, h => by
    rw [declsInAll, declsInAll, declInBlockAny, Bool.or_eq_false_iff, ← same_in ha x r o o' inside h,
      ← same_all ha xs r o o' inside h]
    constructor
    · intro e
      exact List.append_inj e (length_in _ _ _ _ x r r o o')
    · rintro ⟨e1, e2⟩
      rw [e1, e2]
end

/-- The declarations with a class and without one are the same exactly if none is in a block. -/
theorem decls_same {a : Str} (ha : CleanClass a) (s : Sheet) : decls (some a) s = decls none s ↔ hasBlockDecl s = false :=
  same_all ha _ [] none none false ⟨rfl, rfl⟩

end GlobalTextP
