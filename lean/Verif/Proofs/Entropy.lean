import Verif.Spec.Entropy
import Verif.Proofs.Contents

/-! # Ids that differ: lemmas -/

namespace Manager

theorem freshIds_counter {env : Env} (h : env.entropy = counterEntropy) {n : Nat} (hn : n ≤ 2 ^ 64) : FreshIds env n :=
  Or.inl ⟨h, hn⟩

theorem alphanum_css {e : Str} (h : ∀ x ∈ e, x.isAlphanum = true) : e.all cssChar = true := by
  rw [List.all_eq_true]
  intro c hc
  have := h c hc
  simp only [Char.isAlphanum, Bool.or_eq_true] at this
  rcases this with h | h <;> simp [cssChar, cssStart, h]

theorem FreshIds.inj {env : Env} {n : Nat} (h : FreshIds env n) {a b : Nat} (ha : a < n) (hb : b < n) {k k' : Key}
    (he : makeId k (env.entropy a) = makeId k' (env.entropy b)) : a = b := by
  rcases h with ⟨hent, hlt⟩ | ⟨hal, hdis⟩
  · rw [hent] at he
    have h1 := congrArg lastPart he
    rw [lastPart_counter, lastPart_counter] at h1
    have h2 := decimal_inj h1
    rw [Nat.mod_eq_of_lt (by omega), Nat.mod_eq_of_lt (by omega)] at h2
    exact h2
  · obtain ⟨x, hx⟩ := makeId_shape k (env.entropy a)
    obtain ⟨y, hy⟩ := makeId_shape k' (env.entropy b)
    rw [hx, hy] at he
    have h1 := congrArg lastPart he
    rw [lastPart_append _ (fun h => absurd (hal a ha _ h) (by decide)),
      lastPart_append _ (fun h => absurd (hal b hb _ h) (by decide))] at h1
    exact hdis a b ha hb h1

theorem FreshIds.chars {env : Env} {n : Nat} (h : FreshIds env n) {a : Nat} (ha : a < n) :
    (env.entropy a).all cssChar = true := by
  rcases h with ⟨hent, -⟩ | ⟨hal, -⟩
  · rw [hent]; exact counterEntropy_css a
  · exact alphanum_css (hal a ha)

theorem FreshIds.ident {env : Env} {n : Nat} (h : FreshIds env n) {a : Nat} (ha : a < n) {k : Key}
    (hk : cssIdent k.pref = true) : cssIdent (makeId k (env.entropy a)) = true :=
  cssIdent_makeId' hk (h.chars ha)

theorem digit_notWhite {x : Char} (h : x.isDigit = true) : Str.isWhitespace x = false := by
  simp [Char.isDigit] at h
  have h1 : 48 ≤ x.toNat := h.1
  have h2 : x.toNat ≤ 57 := h.2
  simp [Str.isWhitespace]
  omega

theorem FreshIds.notWhite {env : Env} {n : Nat} (h : FreshIds env n) {a : Nat} (ha : a < n) :
    ∀ x ∈ env.entropy a, Str.isWhitespace x = false := by
  intro x hx
  rcases h with ⟨hent, -⟩ | ⟨hal, -⟩
  · rw [hent, counterEntropy, List.mem_append] at hx
    rcases hx with hx | hx
    · revert x; decide
    · exact digit_notWhite (decimal_digits _ x hx)
  · have := hal a ha x hx
    simp only [Char.isAlphanum, Bool.or_eq_true] at this
    rcases this with h | h
    · simp only [Char.isAlpha, Char.isUpper, Char.isLower, Bool.or_eq_true, Bool.and_eq_true, decide_eq_true_eq] at h
      have h1 : (65 ≤ x.toNat ∧ x.toNat ≤ 90) ∨ (97 ≤ x.toNat ∧ x.toNat ≤ 122) := h
      simp [Str.isWhitespace]
      omega
    · exact digit_notWhite h

end Manager
