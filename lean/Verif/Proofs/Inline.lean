import Verif.Proofs.TokenText
import Verif.Proofs.Tokens
import Verif.Proofs.Spacing

/-! # Parsing of inline CSS -/

namespace Inline
open Spec Output

/-! ## What comes after -/

theorem ends_head {i : CssIdent} {x : List Tree} {t : Tree} {r r' : List Tree} (h : Ends i (x ++ t :: r)) :
    Ends i (x ++ t :: r') := by
  intro last q ts h1 h2
  cases x with
  | nil =>
    simp only [List.nil_append, List.cons.injEq] at h2
    exact h last q r h1 (by rw [List.nil_append, h2.1])
  | cons y x =>
    simp only [List.cons_append, List.cons.injEq] at h2
    exact h last q (x ++ t :: r) h1 (by rw [List.cons_append, h2.1])

theorem followed_head {c : CV} {x : List Tree} {t : Tree} {r r' : List Tree} (h : Followed c (x ++ t :: r)) :
    Followed c (x ++ t :: r') := by
  cases c with
  | func | block | expr => exact trivial
  | tok k =>
    cases k with
    | lit => exact trivial
    | punct c j =>
      obtain ⟨h1, h2⟩ := h
      refine ⟨fun hc e ts he => ?_, fun hc q ts he => ?_⟩
      · cases x with
        | nil =>
          simp only [List.nil_append, List.cons.injEq] at he
          exact h1 hc e r (by rw [List.nil_append, he.1])
        | cons y x =>
          simp only [List.cons_append, List.cons.injEq] at he
          exact h1 hc e (x ++ t :: r) (by rw [List.cons_append, he.1])
      · cases x with
        | nil =>
          simp only [List.nil_append, List.cons.injEq] at he
          exact h2 hc q r (by rw [List.nil_append, he.1])
        | cons y x =>
          simp only [List.cons_append, List.cons.injEq] at he
          exact h2 hc q (x ++ t :: r) (by rw [List.cons_append, he.1])
    | ident i =>
      obtain ⟨h1, h2, h3⟩ := h
      refine ⟨ends_head h1, fun a ts he => ?_, fun j hj => ?_⟩
      · cases x with
        | nil =>
          simp only [List.nil_append, List.cons.injEq] at he
          exact h2 a r (by rw [List.nil_append, he.1])
        | cons y x =>
          simp only [List.cons_append, List.cons.injEq] at he
          exact h2 a (x ++ t :: r) (by rw [List.cons_append, he.1])
      · obtain ⟨j', ts, he⟩ := h3 j hj
        cases x with
        | nil =>
          simp only [List.nil_append, List.cons.injEq] at he
          exact ⟨j', r', by rw [List.nil_append, he.1]⟩
        | cons y x =>
          simp only [List.cons_append, List.cons.injEq] at he
          exact ⟨j', x ++ t :: r', by rw [List.cons_append, he.1]⟩

theorem tokens_append : ∀ a b : List CV, tokens (a ++ b) = tokens a ++ tokens b
  | [], b => by simp [tokens]
  | c :: a, b => by simp [tokens, tokens_append a b]

theorem cvsOk_append {isExpr : RExpr → Bool} : ∀ (a b : List CV) (rest : List Tree),
    CVsOk isExpr (a ++ b) rest ↔ CVsOk isExpr a (tokens b ++ rest) ∧ CVsOk isExpr b rest
  | [], b, rest => by simp [CVsOk]
  | c :: a, b, rest => by
    simp only [List.cons_append, CVsOk, cvsOk_append a b rest, tokens_append, List.append_assoc]
    constructor
    · rintro ⟨h1, h2, h3, h4⟩; exact ⟨⟨h1, h2, h3⟩, h4⟩
    · rintro ⟨⟨h1, h2, h3⟩, h4⟩; exact ⟨h1, h2, h3, h4⟩

theorem cvsOk_head {isExpr : RExpr → Bool} {t : Tree} {r r' : List Tree} : ∀ {cs : List CV},
    CVsOk isExpr cs (t :: r) → CVsOk isExpr cs (t :: r')
  | [], _ => trivial
  | _ :: _, ⟨h1, h2, h3⟩ => ⟨h1, followed_head h2, cvsOk_head h3⟩

theorem followed_punct {c : Char} {j : Bool} {rest : List Tree} (h1 : c ≠ '$') (h2 : c ≠ '-') :
    Followed (.tok (.punct c j)) rest := ⟨fun h => absurd h h1, fun h => absurd h h2⟩

/-! ## First tokens -/

theorem ident_cons {i : CssIdent} (h : IdentOk i) : ∃ p ps, i = p :: ps := by
  cases i with
  | nil => exact absurd h (by simp [IdentOk])
  | cons p ps => exact ⟨p, ps, rfl⟩

/-- The first token of a component value. -/
theorem first_token {isExpr : RExpr → Bool} {c : CV} (hc : CVOk isExpr c) :
    ∃ t ts, tokensCV c = t :: ts ∧
      (∀ ch, isPunct ch t = true → ch ≠ '-' → ch ≠ '$' → ∃ j, c = .tok (.punct ch j)) ∧
      (∀ d inner, t = .group d inner → ∃ cs, c = .block d cs ∧ inner = tokens cs) := by
  cases c with
  | func i args =>
    obtain ⟨p, ps, rfl⟩ := ident_cons hc.1
    refine ⟨partTree p, _, rfl, ?_, ?_⟩
    · intro ch h1 h2
      cases p <;> simp [partTree, isPunct] at h1
      exact absurd h1.symm h2
    · intro d inner h; exact absurd h (partTree_ne_group _ _ _)
  | tok k =>
    cases k with
    | ident i =>
      obtain ⟨p, ps, rfl⟩ := ident_cons hc
      refine ⟨partTree p, _, rfl, ?_, ?_⟩
      · intro ch h1 h2
        cases p <;> simp [partTree, isPunct] at h1
        exact absurd h1.symm h2
      · intro d inner h; exact absurd h (partTree_ne_group _ _ _)
    | punct a j =>
      refine ⟨_, _, rfl, ?_, by simp⟩
      intro ch h1 _ _
      simp only [isPunct, beq_iff_eq] at h1
      exact ⟨j, by rw [h1]⟩
    | lit a b => exact ⟨_, _, rfl, by simp [isPunct], by simp⟩
  | block d cs =>
    refine ⟨_, _, rfl, by simp [isPunct], ?_⟩
    intro d' inner h
    cases h
    exact ⟨cs, rfl, rfl⟩
  | expr j e =>
    refine ⟨_, _, rfl, ?_, by simp⟩
    intro ch h1 _ h2
    simp only [isPunct, beq_iff_eq] at h1
    exact absurd h1.symm h2

theorem isPunct_iff {ch : Char} {t : Tree} : isPunct ch t = true ↔ ∃ j, t = .punct ch j := by
  cases t <;> simp [isPunct]

theorem isBrace_iff {t : Tree} : isBrace t = true ↔ ∃ inner, t = .group .brace inner := by
  cases t with
  | group d c => cases d <;> simp [isBrace]
  | _ => simp [isBrace]

/-! ## Validation -/

mutual
theorem validAttr_iff : ∀ c, validAttr c = [] ↔ ValidValue c
  | .expr _ _ => by simp [validAttr, ValidValue]
  | .tok (.ident _) => by simp [validAttr, ValidValue]
  | .tok (.lit _ _) => by simp [validAttr, ValidValue]
  | .tok (.punct c _) => by
    simp only [validAttr, ValidValue]
    by_cases h : (c! "-/%:,#").elem c = true
    · simp only [h, if_true, true_iff]; exact List.elem_iff.1 h
    · simp only [h]
      constructor
      · intro h'; cases h'
      · intro h'; exact absurd (List.elem_iff.2 h') h
  | .func _ args => by simp only [validAttr, ValidValue]; exact validAttrs_iff args
  | .block _ _ => by simp [validAttr, ValidValue]
theorem validAttrs_iff : ∀ cs, validAttrs cs = [] ↔ ValidValues cs
  | [] => by simp [validAttrs, ValidValues]
  | c :: cs => by simp only [validAttrs, ValidValues, List.append_eq_nil_iff, validAttr_iff c, validAttrs_iff cs]
end

mutual
theorem validSel_iff : ∀ c, validSel c = some [] ↔ ValidSelector c
  | .expr _ _ => by simp [validSel, ValidSelector]
  | .func _ _ => by simp [validSel, ValidSelector]
  | .tok (.ident _) => by simp [validSel, ValidSelector]
  | .tok (.lit _ s) => by cases s <;> simp [validSel, ValidSelector]
  | .tok (.punct c _) => by
    simp only [validSel, ValidSelector]
    by_cases h : c = ';'
    · subst h; simp
    · simp only [h, if_false]
      by_cases h : (c! "&>+~|$*=^#.:,").elem c = true
      · simp only [h, if_true, true_iff]; exact List.elem_iff.1 h
      · simp only [h]
        constructor
        · intro h'; cases h'
        · intro h'; exact absurd (List.elem_iff.2 h') h
  | .block d cs => by
    cases d with
    | bracket => simp only [validSel, ValidSelector, true_and]; exact validSels_iff cs
    | _ => simp [validSel, ValidSelector]
theorem validSels_iff : ∀ cs, validSels cs = some [] ↔ ValidSelectors cs
  | [] => by simp [validSels, ValidSelectors]
  | c :: cs => by
    simp only [validSels, ValidSelectors, ← validSel_iff c, ← validSels_iff cs]
    cases validSel c with
    | none => simp
    | some a =>
      cases validSels cs with
      | none => simp
      | some b => simp
end

/-! ## Values -/

theorem attrValue_complete (isExpr : RExpr → Bool) (j : Bool) (r : List Tree) : ∀ (vs : List CV) (n : Nat),
    CVsOk isExpr vs (.punct ';' j :: r) → ValidValues vs → (tokens vs).length + 1 ≤ n →
    attrValue isExpr n (tokens vs ++ .punct ';' j :: r) = some (vs, [], .punct ';' j :: r)
  | [], n + 1, _, _, _ => by simp [tokens, attrValue, isPunct]
  | c :: vs, n + 1, ⟨h1, h2, h3⟩, ⟨h4, h5⟩, hn => by
    obtain ⟨t, ts, ht, hp, -⟩ := first_token h1
    have hlen := cv_nonempty h1
    simp only [tokens, List.length_append] at hn
    have ih := attrValue_complete isExpr j r vs n h3 h5 (by omega)
    have hcv := (parseCV_iff isExpr _ c _).2 ⟨rfl, h1, h2⟩
    have hs : isPunct ';' t = false := by
      rw [Bool.eq_false_iff]
      intro hs
      obtain ⟨j', rfl⟩ := hp ';' hs (by decide) (by decide)
      exact absurd h4 (by simp [ValidValue])
    simp only [tokens, List.append_assoc]
    rw [ht, List.cons_append] at hcv ⊢
    simp only [attrValue, hs, hcv, ih, (validAttr_iff c).2 h4]
    simp
  | [], 0, _, _, hn => by omega
  | _ :: _, 0, _, _, hn => by omega

theorem attrValue_sound (isExpr : RExpr → Bool) : ∀ (n : Nat) (ts : List Tree) (vs : List CV) (rest : List Tree),
    attrValue isExpr n ts = some (vs, [], rest) →
    (∃ j r, rest = .punct ';' j :: r) ∧ ts = tokens vs ++ rest ∧ CVsOk isExpr vs rest ∧ ValidValues vs
  | 0, _, _, _, h => by simp [attrValue] at h
  | _ + 1, [], _, _, h => by simp [attrValue] at h
  | n + 1, t :: ts, vs, rest, h => by
    simp only [attrValue] at h
    split at h
    · rename_i hs
      cases h
      obtain ⟨j, rfl⟩ := isPunct_iff.1 hs
      exact ⟨⟨j, ts, rfl⟩, rfl, trivial, trivial⟩
    · split at h
      · cases h
      · rename_i c r hcv
        split at h
        · cases h
        · rename_i vs' es r' hr
          simp only [Option.some.injEq, Prod.mk.injEq, List.append_eq_nil_iff] at h
          obtain ⟨rfl, ⟨he, rfl⟩, rfl⟩ := h
          obtain ⟨h1, h2, h3, h4⟩ := attrValue_sound isExpr n r vs' r' hr
          obtain ⟨h5, h6, h7⟩ := (parseCV_iff isExpr _ c _).1 hcv
          simp only [he, List.isEmpty_nil, if_true]
          refine ⟨h1, ?_, ⟨h6, h2 ▸ h7, h3⟩, (validAttr_iff c).1 he, h4⟩
          rw [h5, tokens, List.append_assoc, ← h2]

/-! ## Selectors -/

theorem qualifier_complete (isExpr : RExpr → Bool) (inner r : List Tree) : ∀ (qs : List CV) (n : Nat),
    CVsOk isExpr qs (.group .brace inner :: r) → ValidSelectors qs → (tokens qs).length + 1 ≤ n →
    qualifier isExpr n (tokens qs ++ .group .brace inner :: r) = some (qs, [], .group .brace inner :: r)
  | [], n + 1, _, _, _ => by simp [tokens, qualifier, isBrace]
  | c :: qs, n + 1, ⟨h1, h2, h3⟩, ⟨h4, h5⟩, hn => by
    obtain ⟨t, ts, ht, -, hg⟩ := first_token h1
    have hlen := cv_nonempty h1
    simp only [tokens, List.length_append] at hn
    have ih := qualifier_complete isExpr inner r qs n h3 h5 (by omega)
    have hcv := (parseCV_iff isExpr _ c _).2 ⟨rfl, h1, h2⟩
    have hs : isBrace t = false := by
      rw [Bool.eq_false_iff]
      intro hs
      obtain ⟨i', rfl⟩ := isBrace_iff.1 hs
      obtain ⟨cs, rfl, -⟩ := hg .brace i' rfl
      exact absurd h4 (by simp [ValidSelector])
    simp only [tokens, List.append_assoc]
    rw [ht, List.cons_append] at hcv ⊢
    simp only [qualifier, hs, hcv, ih, (validSel_iff c).2 h4]
    simp
  | [], 0, _, _, hn => by omega
  | _ :: _, 0, _, _, hn => by omega

theorem qualifier_sound (isExpr : RExpr → Bool) : ∀ (n : Nat) (ts : List Tree) (qs : List CV) (rest : List Tree),
    qualifier isExpr n ts = some (qs, [], rest) →
    (∃ inner r, rest = .group .brace inner :: r) ∧ ts = tokens qs ++ rest ∧ CVsOk isExpr qs rest ∧ ValidSelectors qs
  | 0, _, _, _, h => by simp [qualifier] at h
  | _ + 1, [], _, _, h => by simp [qualifier] at h
  | n + 1, t :: ts, qs, rest, h => by
    simp only [qualifier] at h
    split at h
    · rename_i hs
      cases h
      obtain ⟨inner, rfl⟩ := isBrace_iff.1 hs
      exact ⟨⟨inner, ts, rfl⟩, rfl, trivial, trivial⟩
    · split at h
      · cases h
      · rename_i c r hcv
        split at h
        · cases h
        · rename_i errs hv
          split at h
          · cases h
          · rename_i qs' es r' hr
            simp only [Option.some.injEq, Prod.mk.injEq, List.append_eq_nil_iff] at h
            obtain ⟨rfl, ⟨rfl, rfl⟩, rfl⟩ := h
            obtain ⟨h1, h2, h3, h4⟩ := qualifier_sound isExpr n r qs' r' hr
            obtain ⟨h5, h6, h7⟩ := (parseCV_iff isExpr _ c _).1 hcv
            simp only [List.isEmpty_nil, if_true]
            refine ⟨h1, ?_, ⟨h6, h2 ▸ h7, h3⟩, (validSel_iff c).1 hv, h4⟩
            rw [h5, tokens, List.append_assoc, ← h2]

/-- The rest after any qualifier, also with errors. -/
theorem qualifier_rest (isExpr : RExpr → Bool) : ∀ (n : Nat) (ts : List Tree) (qs : List CV) (es) (rest : List Tree),
    qualifier isExpr n ts = some (qs, es, rest) → ∃ inner r, rest = .group .brace inner :: r
  | 0, _, _, _, _, h => by simp [qualifier] at h
  | _ + 1, [], _, _, _, h => by simp [qualifier] at h
  | n + 1, t :: ts, qs, es, rest, h => by
    simp only [qualifier] at h
    split at h
    · rename_i hs
      cases h
      obtain ⟨inner, rfl⟩ := isBrace_iff.1 hs
      exact ⟨inner, ts, rfl⟩
    · split at h
      · cases h
      · split at h
        · cases h
        · split at h
          · cases h
          · rename_i qs' es r' hr
            simp only [Option.some.injEq, Prod.mk.injEq] at h
            obtain ⟨-, -, rfl⟩ := h
            exact qualifier_rest isExpr n _ _ _ _ hr

/-! ## Preludes -/

theorem prelude_complete (isExpr : RExpr → Bool) (inner r : List Tree) : ∀ (ps : List CV) (n : Nat),
    CVsOk isExpr ps (.group .brace inner :: r) → (∀ p ∈ ps, InPrelude p) → (tokens ps).length + 1 ≤ n →
    prelude isExpr n (tokens ps ++ .group .brace inner :: r) = some (ps, .group .brace inner :: r)
  | [], n + 1, _, _, _ => by simp [tokens, prelude, isBrace]
  | c :: ps, n + 1, ⟨h1, h2, h3⟩, h4, hn => by
    obtain ⟨t, ts, ht, hp, hg⟩ := first_token h1
    have hlen := cv_nonempty h1
    simp only [tokens, List.length_append] at hn
    have ih := prelude_complete isExpr inner r ps n h3 (fun p h => h4 p (List.mem_cons_of_mem _ h)) (by omega)
    have hcv := (parseCV_iff isExpr _ c _).2 ⟨rfl, h1, h2⟩
    have h4' := h4 c List.mem_cons_self
    have hs : (isPunct ';' t || isBrace t) = false := by
      rw [Bool.or_eq_false_iff, Bool.eq_false_iff, Bool.eq_false_iff]
      constructor
      · intro hs
        obtain ⟨j', rfl⟩ := hp ';' hs (by decide) (by decide)
        exact absurd h4' (by simp [InPrelude])
      · intro hs
        obtain ⟨i', rfl⟩ := isBrace_iff.1 hs
        obtain ⟨cs, rfl, -⟩ := hg .brace i' rfl
        exact absurd h4' (by simp [InPrelude])
    simp only [tokens, List.append_assoc]
    rw [ht, List.cons_append] at hcv ⊢
    simp only [prelude, hs, hcv, ih]
    simp
  | [], 0, _, _, hn => by omega
  | _ :: _, 0, _, _, hn => by omega

theorem prelude_sound (isExpr : RExpr → Bool) : ∀ (n : Nat) (ts : List Tree) (ps : List CV) (rest : List Tree),
    prelude isExpr n ts = some (ps, rest) →
    ((∃ inner r, rest = .group .brace inner :: r) ∨ ∃ j r, rest = .punct ';' j :: r) ∧
      ts = tokens ps ++ rest ∧ CVsOk isExpr ps rest ∧ ∀ p ∈ ps, InPrelude p
  | 0, _, _, _, h => by simp [prelude] at h
  | _ + 1, [], _, _, h => by simp [prelude] at h
  | n + 1, t :: ts, ps, rest, h => by
    simp only [prelude] at h
    split at h
    · rename_i hs
      cases h
      rw [Bool.or_eq_true] at hs
      refine ⟨?_, rfl, trivial, by simp⟩
      rcases hs with hs | hs
      · obtain ⟨j, rfl⟩ := isPunct_iff.1 hs
        exact .inr ⟨j, ts, rfl⟩
      · obtain ⟨inner, rfl⟩ := isBrace_iff.1 hs
        exact .inl ⟨inner, ts, rfl⟩
    · rename_i hs
      split at h
      · cases h
      · rename_i c r hcv
        split at h
        · cases h
        · rename_i ps' r' hr
          simp only [Option.some.injEq, Prod.mk.injEq] at h
          obtain ⟨rfl, rfl⟩ := h
          obtain ⟨h1, h2, h3, h4⟩ := prelude_sound isExpr n r ps' r' hr
          obtain ⟨h5, h6, h7⟩ := (parseCV_iff isExpr _ c _).1 hcv
          refine ⟨h1, ?_, ⟨h6, h2 ▸ h7, h3⟩, ?_⟩
          · rw [h5, tokens, List.append_assoc, ← h2]
          · intro p hp
            rcases List.mem_cons.1 hp with rfl | hp
            · cases p with
              | func | expr => exact trivial
              | block d cs =>
                cases d with
                | brace =>
                  simp only [tokensCV, List.cons_append, List.cons.injEq] at h5
                  rw [h5.1] at hs
                  exact absurd rfl hs
                | _ => exact trivial
              | tok k =>
                cases k with
                | punct a j =>
                  simp only [tokensCV, List.cons_append, List.cons.injEq] at h5
                  rw [h5.1] at hs
                  intro ha
                  subst ha
                  exact absurd rfl hs
                | _ => exact trivial
            · exact h4 p hp

/-! ## Items -/

/-- The name that a component value is. -/
def nameOf : CV → AName
  | .tok (.ident i) => .ident i
  | .expr j e => .expr j e
  | _ => .ident []

theorem attrName_iff {c : CV} {a : AName} : attrName c = some a ↔ IsName c ∧ a = nameOf c := by
  cases c with
  | tok k => cases k <;> simp [attrName, IsName, nameOf, eq_comm]
  | _ => simp [attrName, IsName, nameOf, eq_comm]

theorem attrName_none {c : CV} : attrName c = none ↔ ¬ IsName c := by
  cases c with
  | tok k => cases k <;> simp [attrName, IsName]
  | _ => simp [attrName, IsName]

mutual
/-- The item of a grammatical item. -/
def ofS : SItem → Item
  | .decl name vs => .attr (nameOf name) vs []
  | .rule name ps body => .atRule name ps [] (some (ofSs body))
  | .block qs body => .nested qs [] (ofSs body)
/-- Of a list. -/
def ofSs : List SItem → List Item
  | [] => []
  | i :: is => ofS i :: ofSs is
end

mutual
/-- No errors, and blocks only outside of blocks. -/
def Clean : Bool → Item → Prop
  | _, .attr _ _ es => es = []
  | _, .atRule _ _ es none => es = []
  | b, .atRule _ _ es (some is) => es = [] ∧ CleanL b is
  | b, .nested _ es is => b = false ∧ es = [] ∧ CleanL true is
/-- For a list. -/
def CleanL : Bool → List Item → Prop
  | _, [] => True
  | b, i :: is => Clean b i ∧ CleanL b is
end

theorem text_dash (j : Bool) : cssName [.dash j] = c! "-" := rfl

/-- The tokens of a sheet are component values. -/
theorem sheets_cvs {isExpr : RExpr → Bool} {b : Bool} {ts : List Tree} {is : List SItem}
    (h : Sheets isExpr b ts is) : ∃ cs, ts = tokens cs ∧ CVsOk isExpr cs [] := by
  induction h with
  | nil b => exact ⟨[], rfl, trivial⟩
  | decl b j j' name vs rest is hn h1 h2 h3 h4 h5 ih =>
    obtain ⟨cs, rfl, h6⟩ := ih
    refine ⟨name :: .tok (.punct ':' j) :: (vs ++ .tok (.punct ';' j') :: cs), ?_, h1, ?_, ?_, ?_, ?_⟩
    · simp [tokens, tokensCV, tokens_append]
    · simp only [tokens, tokensCV, List.cons_append]
      exact followed_head (x := []) h2
    · simp [CVOk]
    · exact followed_punct (by decide) (by decide)
    · rw [cvsOk_append]
      refine ⟨?_, by simp [CVOk], followed_punct (by decide) (by decide), h6⟩
      simp only [tokens, tokensCV, List.cons_append]
      exact cvsOk_head h3
  | rule b j name ps inner body rest is hm h1 h2 h3 h4 h5 h6 ih1 ih2 =>
    obtain ⟨ci, rfl, hi⟩ := ih1
    obtain ⟨cs, rfl, hr⟩ := ih2
    have hnd : ∀ j, name ≠ [.dash j] := by
      rintro j rfl
      rw [text_dash] at hm
      revert hm; decide
    have hps : ∀ {ps' : List CV}, CVsOk isExpr ps' [.group .brace (tokens ci)] →
        CVsOk isExpr (ps' ++ .block .brace ci :: cs) [] := by
      intro ps' h
      rw [cvsOk_append]
      refine ⟨?_, hi, trivial, hr⟩
      simp only [tokens, tokensCV, List.cons_append]
      exact cvsOk_head h
    by_cases hp : ∃ a ps', ps = .block .paren a :: ps'
    · obtain ⟨a, ps', rfl⟩ := hp
      refine ⟨.tok (.punct '@' j) :: .func name a :: (ps' ++ .block .brace ci :: cs), ?_, by simp [CVOk],
        followed_punct (by decide) (by decide), ⟨h1, hnd, h3.1⟩, trivial, hps h3.2.2⟩
      simp [tokens, tokensCV, tokens_append]
    · refine ⟨.tok (.punct '@' j) :: .tok (.ident name) :: (ps ++ .block .brace ci :: cs), ?_, by simp [CVOk],
        followed_punct (by decide) (by decide), h1, ⟨?_, ?_, fun j h => absurd h (hnd j)⟩, hps h3⟩
      · simp [tokens, tokensCV, tokens_append]
      · rw [List.append_nil, tokens_append]
        cases ps with
        | nil =>
          intro last q ts _ he
          simp only [tokens, tokensCV, List.nil_append, List.cons_append, List.cons.injEq] at he
          exact absurd he.1.symm (partTree_ne_group _ _ _)
        | cons p ps =>
          obtain ⟨t, ts, ht, -⟩ := first_token h3.1
          simp only [tokens, ht, List.cons_append] at h2 ⊢
          exact ends_head (x := []) h2
      · intro a ts he
        rw [List.append_nil, tokens_append] at he
        cases ps with
        | nil => simp [tokens, tokensCV] at he
        | cons p ps =>
          obtain ⟨t, ts', ht, -, hg⟩ := first_token h3.1
          simp only [tokens, ht, List.cons_append, List.cons.injEq] at he
          obtain ⟨cs', rfl, -⟩ := hg .paren a he.1
          exact hp ⟨cs', ps, rfl⟩
  | block qs inner body rest is h1 h2 h3 h4 h5 ih1 ih2 =>
    obtain ⟨ci, rfl, hi⟩ := ih1
    obtain ⟨cs, rfl, hr⟩ := ih2
    refine ⟨qs ++ .block .brace ci :: cs, ?_, ?_⟩
    · simp [tokens, tokensCV, tokens_append]
    · rw [cvsOk_append]
      refine ⟨?_, hi, trivial, hr⟩
      simp only [tokens, tokensCV, List.cons_append]
      exact cvsOk_head h1

/-- The choice after the first component value. -/
def chooseWith (isExpr : RExpr → Bool) (c : CV) (rest : List Tree) : Option Choice :=
  match c with
  | .tok (.punct '@' _) => some .atRule
  | _ =>
    match attrName c with
    | none => some .nested
    | some _ =>
      match rest with
      | [] => some .nested
      | rest =>
        match parseCV isExpr rest with
        | some (.tok (.punct ':' _), _) => some .attribute
        | _ => some .nested

theorem choose_of {isExpr : RExpr → Bool} {c : CV} {rest : List Tree} (h1 : CVOk isExpr c) (h2 : Followed c rest) :
    choose isExpr (tokensCV c ++ rest) = chooseWith isExpr c rest := by
  obtain ⟨t, ts, ht, -⟩ := first_token h1
  have hcv := (parseCV_iff isExpr _ c _).2 ⟨rfl, h1, h2⟩
  rw [ht, List.cons_append] at hcv ⊢
  simp only [choose, hcv]
  rfl

theorem choose_decl {isExpr : RExpr → Bool} {name : CV} {j : Bool} {rest : List Tree} (hn : IsName name)
    (h1 : CVOk isExpr name) (h2 : Followed name [.punct ':' j]) :
    choose isExpr (tokensCV name ++ .punct ':' j :: rest) = some .attribute := by
  have h2' : Followed name (.punct ':' j :: rest) := followed_head (x := []) h2
  have hc : parseCV isExpr (.punct ':' j :: rest) = some (.tok (.punct ':' j), rest) :=
    (parseCV_iff isExpr _ _ _).2 ⟨rfl, by simp [CVOk], followed_punct (by decide) (by decide)⟩
  rw [choose_of h1 h2']
  cases name with
  | tok k =>
    cases k with
    | ident i => simp only [chooseWith, attrName, hc]
    | punct => exact absurd hn (by simp [IsName])
    | lit => exact absurd hn (by simp [IsName])
  | expr j e => simp only [chooseWith, attrName, hc]
  | func => exact absurd hn (by simp [IsName])
  | block => exact absurd hn (by simp [IsName])

theorem choose_rule {isExpr : RExpr → Bool} {j : Bool} {rest : List Tree} :
    choose isExpr (.punct '@' j :: rest) = some .atRule := by
  have := choose_of (isExpr := isExpr) (c := .tok (.punct '@' j)) (rest := rest) (by simp [CVOk])
    (followed_punct (by decide) (by decide))
  exact this

theorem choose_block {isExpr : RExpr → Bool} {qs : List CV} {ci : List CV} {rest : List Tree}
    (h1 : CVsOk isExpr qs (.group .brace (tokens ci) :: rest)) (h2 : ValidSelectors qs)
    (hi : CVsOk isExpr ci []) (h3 : ∀ c d cs, qs = c :: d :: cs → IsName c → ¬ IsPunct ':' d) :
    choose isExpr (tokens qs ++ .group .brace (tokens ci) :: rest) = some .nested := by
  cases qs with
  | nil =>
    have := choose_of (isExpr := isExpr) (c := .block .brace ci) (rest := rest) hi trivial
    exact this
  | cons c qs =>
    obtain ⟨g1, g2, g3⟩ := h1
    simp only [tokens, List.append_assoc]
    rw [choose_of g1 g2]
    unfold chooseWith
    split
    · exact absurd h2.1 (by simp [ValidSelector])
    · cases hn : attrName c with
      | none => rfl
      | some a =>
        have hname := (attrName_iff.1 hn).1
        simp only
        split
        · rfl
        · cases qs with
          | nil =>
            simp only [tokens, List.nil_append]
            have : parseCV isExpr (.group .brace (tokens ci) :: rest) = some (.block .brace ci, rest) :=
              (parseCV_iff isExpr _ _ _).2 ⟨rfl, hi, trivial⟩
            rw [this]
          | cons d qs =>
            have : parseCV isExpr (tokens (d :: qs) ++ .group .brace (tokens ci) :: rest) =
                some (d, tokens qs ++ .group .brace (tokens ci) :: rest) :=
              (parseCV_iff isExpr _ _ _).2 ⟨by simp [tokens], g3.1, g3.2.1⟩
            rw [this]
            split
            · rename_i he
              cases he
              exact absurd rfl (h3 _ _ _ rfl hname)
            · rfl

theorem parseAttr_complete {isExpr : RExpr → Bool} {name : CV} {vs : List CV} {j j' : Bool} {rest : List Tree}
    (hn : IsName name) (h1 : CVOk isExpr name) (h2 : Followed name [.punct ':' j])
    (h3 : CVsOk isExpr vs [.punct ';' j']) (h4 : ValidValues vs) :
    parseAttr isExpr (tokensCV name ++ .punct ':' j :: (tokens vs ++ .punct ';' j' :: rest)) =
      some (.attr (nameOf name) vs [], rest) := by
  have h2' : Followed name (.punct ':' j :: (tokens vs ++ .punct ';' j' :: rest)) := followed_head (x := []) h2
  have hcv := (parseCV_iff isExpr _ name _).2 ⟨rfl, h1, h2'⟩
  obtain ⟨t, ts, ht, -⟩ := first_token h1
  have hv := attrValue_complete isExpr j' rest vs ((tokens vs ++ .punct ';' j' :: rest).length + 1)
    (cvsOk_head h3) h4 (by simp)
  rw [ht, List.cons_append] at hcv ⊢
  have htp : ∀ (ch : Char) (j : Bool) (r : List Tree), takePunct ch (.punct ch j :: r) = some r := by
    intro ch j r; simp [takePunct, isPunct]
  simp only [parseAttr, hcv, attrName_iff.2 ⟨hn, rfl⟩, htp, hv]

theorem size_pos_cv {isExpr : RExpr → Bool} {c : CV} (h : CVOk isExpr c) : 1 ≤ treesSize (tokensCV c) :=
  Nat.le_trans (cv_nonempty h) (length_le_size _)

theorem atRuleErrors_iff (name : CssIdent) :
    atRuleErrors name = [] ↔ cssName name ∈ [c! "media", c! "supports"] := by
  rw [← cssName_eq]
  simp only [atRuleErrors, List.mem_cons, List.not_mem_nil, or_false]
  split
  · rename_i h; simp [h]
  · rename_i h; simp only [List.cons_ne_nil, false_iff]; exact h

theorem items_step {isExpr : RExpr → Bool} {n : Nat} {ts rest : List Tree} {i : Item} {is : List Item}
    (h1 : item isExpr n ts = some (i, rest)) (h2 : items isExpr n rest = some is) :
    items isExpr (n + 1) ts = some (i :: is) := by
  cases ts with
  | nil =>
    cases n with
    | zero => simp [item] at h1
    | succ n => simp [item, choose] at h1
  | cons t ts => simp only [items, h1, h2]

/-- Every sheet is parsed. -/
theorem items_complete {isExpr : RExpr → Bool} {b : Bool} {ts : List Tree} {is : List SItem}
    (h : Sheets isExpr b ts is) : ∀ n, 2 * treesSize ts ≤ n → items isExpr n ts = some (ofSs is) := by
  induction h with
  | nil b => intro n _; cases n <;> simp [items, ofSs]
  | decl b j j' name vs rest is hn h1 h2 h3 h4 h5 ih =>
    intro n hs
    have hp := size_pos_cv h1
    simp only [treesSize_append, treesSize, treeSize] at hs
    obtain ⟨m, rfl⟩ : ∃ m, n = m + 2 := ⟨n - 2, by omega⟩
    refine items_step ?_ (ih (m + 1) (by omega))
    simp only [item, choose_decl hn h1 h2, parseAttr_complete hn h1 h2 h3 h4]
    rfl
  | rule b j name ps inner body rest is hm h1 h2 h3 h4 h5 h6 ih1 ih2 =>
    intro n hs
    simp only [treesSize_append, treesSize, treeSize] at hs
    obtain ⟨m, rfl⟩ : ∃ m, n = m + 2 := ⟨n - 2, by omega⟩
    refine items_step ?_ (ih2 (m + 1) (by omega))
    have hends : Ends name (tokens ps ++ .group .brace inner :: rest) := by
      cases ps with
      | nil =>
        intro last q ts _ he
        simp only [tokens, List.nil_append, List.cons.injEq] at he
        exact absurd he.1.symm (partTree_ne_group _ _ _)
      | cons p ps =>
        obtain ⟨t, ts, ht, -⟩ := first_token h3.1
        simp only [tokens, ht, List.cons_append] at h2 ⊢
        exact ends_head (x := []) h2
    have hpre := prelude_complete isExpr inner rest ps ((tokens ps ++ .group .brace inner :: rest).length + 1)
      (cvsOk_head h3) h4 (by simp)
    have htp : takePunct '@' (.punct '@' j :: (name.map partTree ++ (tokens ps ++ .group .brace inner :: rest))) =
      some (name.map partTree ++ (tokens ps ++ .group .brace inner :: rest)) := by simp [takePunct, isPunct]
    simp only [item, choose_rule, htp, parseIdent_complete h1 hends, hpre, ih1 m (by omega), (atRuleErrors_iff name).2 hm]
    rfl
  | block qs inner body rest is h1 h2 h3 h4 h5 ih1 ih2 =>
    intro n hs
    simp only [treesSize_append, treesSize, treeSize] at hs
    obtain ⟨m, rfl⟩ : ∃ m, n = m + 2 := ⟨n - 2, by omega⟩
    refine items_step ?_ (ih2 (m + 1) (by omega))
    obtain ⟨ci, rfl, hi⟩ := sheets_cvs h4
    have hch := choose_block (rest := rest) (cvsOk_head h1) h2 hi h3
    have hq := qualifier_complete isExpr (tokens ci) rest qs
      ((tokens qs ++ .group .brace (tokens ci) :: rest).length + 1) (cvsOk_head h1) h2 (by simp)
    simp only [item, hch, hq, ih1 m (by omega)]
    rfl

theorem takePunct_some {ch : Char} {ts rest : List Tree} (h : takePunct ch ts = some rest) :
    ∃ j, ts = .punct ch j :: rest := by
  cases ts with
  | nil => simp [takePunct] at h
  | cons t ts =>
    simp only [takePunct] at h
    split at h
    · rename_i hp
      cases h
      obtain ⟨j, rfl⟩ := isPunct_iff.1 hp
      exact ⟨j, rfl⟩
    · cases h

theorem parseAttr_sound {isExpr : RExpr → Bool} {ts rest : List Tree} {i : Item}
    (h : parseAttr isExpr ts = some (i, rest)) {b : Bool} (hc : Clean b i) :
    ∃ name vs j j', i = .attr (nameOf name) vs [] ∧ IsName name ∧ CVOk isExpr name ∧
      Followed name [.punct ':' j] ∧ CVsOk isExpr vs [.punct ';' j'] ∧ ValidValues vs ∧
      ts = tokensCV name ++ .punct ':' j :: (tokens vs ++ .punct ';' j' :: rest) := by
  unfold parseAttr at h
  split at h
  · cases h
  · split at h
    · cases h
    · rename_i name r hcv
      split at h
      · cases h
      · rename_i a ha
        split at h
        · cases h
        · rename_i r2 htp
          split at h
          · cases h
          · rename_i vs es r3 hv
            split at h
            · cases h
            · rename_i r4 htp2
              cases h
              simp only [Clean] at hc
              subst hc
              obtain ⟨hn, rfl⟩ := attrName_iff.1 ha
              obtain ⟨j, rfl⟩ := takePunct_some htp
              obtain ⟨j', rfl⟩ := takePunct_some htp2
              obtain ⟨rfl, h2, h3⟩ := (parseCV_iff isExpr _ name _).1 hcv
              obtain ⟨-, rfl, h5, h6⟩ := attrValue_sound isExpr _ _ _ _ hv
              exact ⟨name, vs, j, j', rfl, hn, h2, followed_head (x := []) h3, cvsOk_head h5, h6, rfl⟩

/-- Nothing starts with a semicolon. -/
theorem item_semi (isExpr : RExpr → Bool) (n : Nat) (j : Bool) (r : List Tree) :
    item isExpr n (.punct ';' j :: r) = none := by
  cases n with
  | zero => rfl
  | succ n =>
    have hcv : parseCV isExpr (.punct ';' j :: r) = some (.tok (.punct ';' j), r) :=
      (parseCV_iff isExpr _ _ _).2 ⟨rfl, by simp [CVOk], followed_punct (by decide) (by decide)⟩
    have hch : choose isExpr (.punct ';' j :: r) = some .nested := by
      simp only [choose, hcv]
      rfl
    have hq : qualifier isExpr ((Tree.punct ';' j :: r).length + 1) (.punct ';' j :: r) = none := by
      simp only [qualifier, isBrace, hcv, validSel]
      simp
    simp only [item, hch, hq]

theorem items_nonempty {isExpr : RExpr → Bool} {n : Nat} {j : Bool} {r : List Tree} {is : List Item}
    (h : items isExpr n (.punct ';' j :: r) = some is) : False := by
  cases n with
  | zero => simp [items] at h
  | succ n => simp [items, item_semi] at h

/-- Whatever is parsed without errors is a sheet. -/
theorem items_sound (isExpr : RExpr → Bool) : ∀ (n : Nat) (b : Bool) (ts : List Tree) (is : List Item),
    items isExpr n ts = some is → CleanL b is → ∃ sis, is = ofSs sis ∧ Sheets isExpr b ts sis := by
  intro n
  induction n using Nat.strongRecOn with
  | ind n IH =>
    intro b ts is h hc
    cases ts with
    | nil =>
      have : items isExpr n [] = some [] := by cases n <;> rfl
      rw [this] at h
      cases h
      exact ⟨[], rfl, .nil b⟩
    | cons t ts =>
      cases n with
      | zero => simp [items] at h
      | succ n =>
        simp only [items] at h
        split at h
        · cases h
        · rename_i i rest hi
          split at h
          · cases h
          · rename_i is' his
            cases h
            obtain ⟨hci, hcs⟩ := hc
            obtain ⟨sis, rfl, hsh⟩ := IH n (Nat.lt_succ_self n) b rest is' his hcs
            generalize t :: ts = ts at hi
            cases n with
            | zero => simp [item] at hi
            | succ n =>
              simp only [item] at hi
              split at hi
              · cases hi
              · obtain ⟨name, vs, j, j', rfl, h1, h2, h3, h4, h5, rfl⟩ := parseAttr_sound hi hci
                exact ⟨.decl name vs :: sis, rfl, .decl b j j' name vs rest sis h1 h2 h3 h4 h5 hsh⟩
              · split at hi
                · cases hi
                · rename_i r1 htp
                  obtain ⟨j, rfl⟩ := takePunct_some htp
                  split at hi
                  · cases hi
                  · rename_i name r2 hid
                    obtain ⟨rfl, h1, h2⟩ := parseIdent_sound hid
                    split at hi
                    · cases hi
                    · rename_i ps r3 hpre
                      obtain ⟨hr, rfl, h3, h4⟩ := prelude_sound isExpr _ _ _ _ hpre
                      split at hi
                      · rename_i inner r4 _
                        split at hi
                        · cases hi
                        · rename_i body hb
                          cases hi
                          obtain ⟨he, hcb⟩ := hci
                          obtain ⟨sb, rfl, hsb⟩ := IH n (by omega) b inner body hb hcb
                          rw [atRuleErrors_iff] at he
                          refine ⟨.rule name ps sb :: sis, ?_, .rule b j name ps inner sb rest sis he h1 ?_ (cvsOk_head h3) h4 hsb hsh⟩
                          · simp only [ofSs, ofS, (atRuleErrors_iff name).2 he]
                          · cases ps with
                            | nil => intro last q ts _ he; cases he
                            | cons p ps =>
                              obtain ⟨t, ts, ht, -⟩ := first_token h3.1
                              simp only [tokens, ht, List.cons_append] at h2 ⊢
                              exact ends_head (x := []) h2
                      · rename_i hnb
                        cases hi
                        rcases hr with ⟨inner, r, rfl⟩ | ⟨j', r, rfl⟩
                        · exact absurd rfl (hnb inner r)
                        · exact (items_nonempty his).elim
              · rename_i hch
                split at hi
                · cases hi
                · rename_i qs es r1 hq
                  split at hi
                  · rename_i inner r2
                    split at hi
                    · cases hi
                    · rename_i body hb
                      cases hi
                      obtain ⟨rfl, rfl, hcb⟩ := hci
                      obtain ⟨-, rfl, h1, h2⟩ := qualifier_sound isExpr _ _ _ _ hq
                      obtain ⟨sb, rfl, hsb⟩ := IH n (by omega) true inner body hb hcb
                      refine ⟨.block qs sb :: sis, rfl, .block qs inner sb rest sis (cvsOk_head h1) h2 ?_ hsb hsh⟩
                      rintro c d cs rfl hn hd
                      have : choose isExpr (tokens (c :: d :: cs) ++ .group .brace inner :: rest) = some .attribute := by
                        have hcv : parseCV isExpr (tokens (d :: cs) ++ .group .brace inner :: rest) =
                            some (d, tokens cs ++ .group .brace inner :: rest) :=
                          (parseCV_iff isExpr _ _ _).2 ⟨by simp [tokens], h1.2.2.1, h1.2.2.2.1⟩
                        have he : tokens (c :: d :: cs) ++ .group .brace inner :: rest =
                          tokensCV c ++ (tokens (d :: cs) ++ .group .brace inner :: rest) := by simp [tokens]
                        have hd' : ∃ j, d = .tok (.punct ':' j) := by
                          cases d with
                          | tok k => cases k <;> simp [IsPunct] at hd; exact ⟨_, by rw [hd]⟩
                          | _ => simp [IsPunct] at hd
                        obtain ⟨j, rfl⟩ := hd'
                        rw [he, choose_of h1.1 h1.2.1]
                        cases hne : tokens (.tok (.punct ':' j) :: cs) ++ .group .brace inner :: rest with
                        | nil => simp [tokens, tokensCV] at hne
                        | cons t ts =>
                          rw [hne] at hcv
                          cases c with
                          | tok k =>
                            cases k with
                            | ident i => simp only [chooseWith, attrName, hcv]
                            | _ => simp [IsName] at hn
                          | expr j e => simp only [chooseWith, attrName, hcv]
                          | _ => simp [IsName] at hn
                      rw [this] at hch
                      cases hch
                  · cases hi

end Inline
