import Verif.Spec.Mistakes
import Verif.Proofs.Emit

/-!
# Lemmas about the mistakes in inline CSS

The parser splits the tokens as `Written` does, and collects the mistakes.
-/

namespace Inline

open Output Spec

/-! ## Validation -/

mutual
theorem validAttr_eq : ∀ c, validAttr c = (valueParts c).filterMap valueMistake
  | .expr _ _ => rfl
  | .tok (.ident _) => rfl
  | .tok (.lit _ _) => rfl
  | .block _ _ => rfl
  | .func _ args => by simp only [validAttr, valueParts, validAttrs_eq args]
  | .tok (.punct c j) => by
    simp only [validAttr, valueParts, valueMistake, List.filterMap_cons, List.filterMap_nil]
    by_cases h : c ∈ c! "-/%:,#"
    · simp only [h, List.elem_iff.2 h, if_true]
    · have h' : (c! "-/%:,#").elem c = false := by
        rw [Bool.eq_false_iff]; intro he; exact h (List.elem_iff.1 he)
      simp only [h, h', if_false]
      rfl
theorem validAttrs_eq : ∀ cs, validAttrs cs = (valuePartsL cs).filterMap valueMistake
  | [] => rfl
  | c :: cs => by simp only [validAttrs, valuePartsL, List.filterMap_append, validAttr_eq c, validAttrs_eq cs]
end

mutual
theorem validSel_some : ∀ c, (∀ p ∈ selectorParts c, ¬ IsPunct ';' p) →
    validSel c = some ((selectorParts c).filterMap selectorMistake)
  | .expr _ _, _ => rfl
  | .func _ _, _ => rfl
  | .tok (.ident _), _ => rfl
  | .tok (.lit _ s), _ => by cases s <;> rfl
  | .tok (.punct c j), h => by
    have h1 : c ≠ ';' := h (.tok (.punct c j)) (by simp [selectorParts])
    simp only [validSel, h1, if_false, selectorParts, selectorMistake, List.filterMap_cons, List.filterMap_nil]
    by_cases h : c ∈ c! "&>+~|$*=^#.:,"
    · simp only [h, List.elem_iff.2 h, if_true]
    · have h' : (c! "&>+~|$*=^#.:,").elem c = false := by
        rw [Bool.eq_false_iff]; intro he; exact h (List.elem_iff.1 he)
      simp only [h, h', if_false]
      rfl
  | .block .bracket cs, h => by
    simp only [validSel, selectorParts]
    exact validSels_some cs (by simpa only [selectorParts] using h)
  | .block .paren _, _ => rfl
  | .block .brace _, _ => rfl
theorem validSels_some : ∀ cs, (∀ p ∈ selectorPartsL cs, ¬ IsPunct ';' p) →
    validSels cs = some ((selectorPartsL cs).filterMap selectorMistake)
  | [], _ => rfl
  | c :: cs, h => by
    simp only [selectorPartsL, List.mem_append] at h
    simp only [validSels, validSel_some c (fun p hp => h p (.inl hp)), validSels_some cs (fun p hp => h p (.inr hp)),
      selectorPartsL, List.filterMap_append]
end

mutual
theorem validSel_none : ∀ c es, validSel c = some es → ∀ p ∈ selectorParts c, ¬ IsPunct ';' p
  | .expr _ _, _, _ => by simp [selectorParts, IsPunct]
  | .func _ _, _, _ => by simp [selectorParts, IsPunct]
  | .tok (.ident _), _, _ => by simp [selectorParts, IsPunct]
  | .tok (.lit _ s), _, _ => by simp [selectorParts, IsPunct]
  | .tok (.punct c j), es, h => by
    intro p hp
    simp only [selectorParts, List.mem_singleton] at hp
    subst hp
    simp only [IsPunct]
    rintro rfl
    simp [validSel] at h
  | .block .bracket cs, es, h => by
    simp only [validSel] at h
    simp only [selectorParts]
    exact validSels_none cs es h
  | .block .paren _, _, _ => by simp [selectorParts, IsPunct]
  | .block .brace _, _, _ => by simp [selectorParts, IsPunct]
theorem validSels_none : ∀ cs es, validSels cs = some es → ∀ p ∈ selectorPartsL cs, ¬ IsPunct ';' p
  | [], _, _ => by simp [selectorPartsL]
  | c :: cs, es, h => by
    simp only [validSels] at h
    split at h
    · rename_i a b ha hb
      intro p hp
      simp only [selectorPartsL, List.mem_append] at hp
      rcases hp with hp | hp
      · exact validSel_none c a ha p hp
      · exact validSels_none cs b hb p hp
    · cases h
end

/-- The values that are kept. -/
def soundValues (vs : List CV) : List CV := vs.filter (fun v => (validAttr v).isEmpty)

theorem soundValues_valid : ∀ vs, ValidValues (soundValues vs)
  | [] => trivial
  | v :: vs => by
    unfold soundValues
    rw [List.filter_cons]
    split
    · rename_i h
      exact ⟨(validAttr_iff v).1 (List.isEmpty_iff.1 h), soundValues_valid vs⟩
    · exact soundValues_valid vs

theorem selectorMistakes_one (q : CV) : selectorMistakes [q] = (selectorParts q).filterMap selectorMistake := by
  simp [selectorMistakes, selectorPartsL]

/-! ## Values -/

theorem attrValueW_complete (isExpr : RExpr → Bool) (j : Bool) (r : List Tree) : ∀ (vs : List CV) (n : Nat),
    CVsOk isExpr vs (.punct ';' j :: r) → (∀ v ∈ vs, ¬ IsPunct ';' v) → (tokens vs).length + 1 ≤ n →
    attrValue isExpr n (tokens vs ++ .punct ';' j :: r) = some (soundValues vs, valueMistakes vs, .punct ';' j :: r)
  | [], n + 1, _, _, _ => by simp [tokens, attrValue, isPunct, soundValues, valueMistakes, valuePartsL]
  | c :: vs, n + 1, ⟨h1, h2, h3⟩, h4, hn => by
    obtain ⟨t, ts, ht, hp, -⟩ := first_token h1
    have hlen := cv_nonempty h1
    simp only [tokens, List.length_append] at hn
    have ih := attrValueW_complete isExpr j r vs n h3 (fun v hv => h4 v (List.mem_cons_of_mem _ hv)) (by omega)
    have hcv := (parseCV_iff isExpr _ c _).2 ⟨rfl, h1, h2⟩
    have hs : isPunct ';' t = false := by
      rw [Bool.eq_false_iff]
      intro hs
      obtain ⟨j', rfl⟩ := hp ';' hs (by decide) (by decide)
      exact h4 _ List.mem_cons_self rfl
    simp only [tokens, List.append_assoc]
    rw [ht, List.cons_append] at hcv ⊢
    simp only [attrValue, hs, hcv, ih]
    simp only [Bool.false_eq_true, if_false, Option.some.injEq, Prod.mk.injEq, and_true]
    constructor
    · unfold soundValues
      rw [List.filter_cons]
    · simp [valueMistakes, valuePartsL, validAttr_eq, List.filterMap_append]
  | [], 0, _, _, hn => by omega
  | _ :: _, 0, _, _, hn => by omega

theorem attrValueW_sound (isExpr : RExpr → Bool) : ∀ (n : Nat) (ts : List Tree) (vs' : List CV) (es) (rest : List Tree),
    attrValue isExpr n ts = some (vs', es, rest) →
    ∃ vs, (∃ j r, rest = .punct ';' j :: r) ∧ ts = tokens vs ++ rest ∧ CVsOk isExpr vs rest ∧
      (∀ v ∈ vs, ¬ IsPunct ';' v) ∧ vs' = soundValues vs ∧ es = valueMistakes vs
  | 0, _, _, _, _, h => by simp [attrValue] at h
  | _ + 1, [], _, _, _, h => by simp [attrValue] at h
  | n + 1, t :: ts, vs', es, rest, h => by
    simp only [attrValue] at h
    split at h
    · rename_i hs
      cases h
      obtain ⟨j, rfl⟩ := isPunct_iff.1 hs
      exact ⟨[], ⟨j, ts, rfl⟩, rfl, trivial, by simp, rfl, rfl⟩
    · rename_i hs
      split at h
      · cases h
      · rename_i c r hcv
        split at h
        · cases h
        · rename_i vs2 es2 r' hr
          simp only [Option.some.injEq, Prod.mk.injEq] at h
          obtain ⟨rfl, rfl, rfl⟩ := h
          obtain ⟨vs, h1, h2, h3, h4, rfl, rfl⟩ := attrValueW_sound isExpr n r vs2 es2 r' hr
          obtain ⟨h5, h6, h7⟩ := (parseCV_iff isExpr _ c _).1 hcv
          refine ⟨c :: vs, h1, ?_, ⟨h6, h2 ▸ h7, h3⟩, ?_, ?_, ?_⟩
          · rw [h5, tokens, List.append_assoc, ← h2]
          · intro v hv
            rcases List.mem_cons.1 hv with rfl | hv
            · intro hp
              cases v with
              | tok k =>
                cases k with
                | punct a j =>
                  simp only [IsPunct] at hp
                  subst hp
                  simp only [tokensCV, List.cons_append, List.cons.injEq] at h5
                  rw [h5.1] at hs
                  exact hs rfl
                | _ => simp [IsPunct] at hp
              | _ => simp [IsPunct] at hp
            · exact h4 v hv
          · unfold soundValues
            rw [List.filter_cons]
          · simp [valueMistakes, valuePartsL, validAttr_eq, List.filterMap_append]

/-! ## Selectors -/

theorem soundSelectors_cons (c : CV) (qs : List CV) : soundSelectors (c :: qs) =
    if ((selectorParts c).filterMap selectorMistake).isEmpty then c :: soundSelectors qs else soundSelectors qs := by
  unfold soundSelectors
  rw [List.filter_cons, selectorMistakes_one]

theorem qualifierW_complete (isExpr : RExpr → Bool) (inner r : List Tree) : ∀ (qs : List CV) (n : Nat),
    CVsOk isExpr qs (.group .brace inner :: r) → (∀ q ∈ qs, ¬ IsBraces q) →
    (∀ p ∈ selectorPartsL qs, ¬ IsPunct ';' p) → (tokens qs).length + 1 ≤ n →
    qualifier isExpr n (tokens qs ++ .group .brace inner :: r) =
      some (soundSelectors qs, selectorMistakes qs, .group .brace inner :: r)
  | [], n + 1, _, _, _, _ => by simp [tokens, qualifier, isBrace, soundSelectors, selectorMistakes, selectorPartsL]
  | c :: qs, n + 1, ⟨h1, h2, h3⟩, h4, h5, hn => by
    obtain ⟨t, ts, ht, -, hg⟩ := first_token h1
    have hlen := cv_nonempty h1
    simp only [tokens, List.length_append] at hn
    simp only [selectorPartsL, List.mem_append] at h5
    have ih := qualifierW_complete isExpr inner r qs n h3 (fun q hq => h4 q (List.mem_cons_of_mem _ hq))
      (fun p hp => h5 p (.inr hp)) (by omega)
    have hcv := (parseCV_iff isExpr _ c _).2 ⟨rfl, h1, h2⟩
    have hs : isBrace t = false := by
      rw [Bool.eq_false_iff]
      intro hs
      obtain ⟨i', rfl⟩ := isBrace_iff.1 hs
      obtain ⟨cs, rfl, -⟩ := hg .brace i' rfl
      exact h4 _ List.mem_cons_self rfl
    simp only [tokens, List.append_assoc]
    rw [ht, List.cons_append] at hcv ⊢
    simp only [qualifier, hs, hcv, ih, validSel_some c (fun p hp => h5 p (.inl hp))]
    simp [soundSelectors_cons, selectorMistakes, selectorPartsL, List.filterMap_append]
  | [], 0, _, _, _, hn => by omega
  | _ :: _, 0, _, _, _, hn => by omega

theorem qualifierW_sound (isExpr : RExpr → Bool) : ∀ (n : Nat) (ts : List Tree) (qs' : List CV) (es) (rest : List Tree),
    qualifier isExpr n ts = some (qs', es, rest) →
    ∃ qs, (∃ inner r, rest = .group .brace inner :: r) ∧ ts = tokens qs ++ rest ∧ CVsOk isExpr qs rest ∧
      (∀ q ∈ qs, ¬ IsBraces q) ∧ (∀ p ∈ selectorPartsL qs, ¬ IsPunct ';' p) ∧
      qs' = soundSelectors qs ∧ es = selectorMistakes qs
  | 0, _, _, _, _, h => by simp [qualifier] at h
  | _ + 1, [], _, _, _, h => by simp [qualifier] at h
  | n + 1, t :: ts, qs', es, rest, h => by
    simp only [qualifier] at h
    split at h
    · rename_i hs
      cases h
      obtain ⟨inner, rfl⟩ := isBrace_iff.1 hs
      exact ⟨[], ⟨inner, ts, rfl⟩, rfl, trivial, by simp, by simp [selectorPartsL], rfl, rfl⟩
    · rename_i hs
      split at h
      · cases h
      · rename_i c r hcv
        split at h
        · cases h
        · rename_i errs hv
          split at h
          · cases h
          · rename_i qs2 es2 r' hr
            simp only [Option.some.injEq, Prod.mk.injEq] at h
            obtain ⟨rfl, rfl, rfl⟩ := h
            obtain ⟨qs, h1, h2, h3, h4, h5, rfl, rfl⟩ := qualifierW_sound isExpr n r qs2 es2 r' hr
            obtain ⟨h6, h7, h8⟩ := (parseCV_iff isExpr _ c _).1 hcv
            have hsemi := validSel_none c errs hv
            rw [validSel_some c hsemi] at hv
            cases hv
            refine ⟨c :: qs, h1, ?_, ⟨h7, h2 ▸ h8, h3⟩, ?_, ?_, ?_, ?_⟩
            · rw [h6, tokens, List.append_assoc, ← h2]
            · intro q hq
              rcases List.mem_cons.1 hq with rfl | hq
              · intro hb
                cases q with
                | block d cs =>
                  simp only [IsBraces] at hb
                  subst hb
                  simp only [tokensCV, List.cons_append, List.cons.injEq] at h6
                  rw [h6.1] at hs
                  exact hs rfl
                | _ => simp [IsBraces] at hb
              · exact h4 q hq
            · intro p hp
              simp only [selectorPartsL, List.mem_append] at hp
              exact hp.elim (hsemi p) (h5 p)
            · rw [soundSelectors_cons]
            · simp [selectorMistakes, selectorPartsL, List.filterMap_append]

/-! ## Items -/

mutual
/-- The item that is parsed. -/
def ofW : SItem → Item
  | .decl name vs => .attr (nameOf name) (soundValues vs) (valueMistakes vs)
  | .rule name ps body => .atRule name ps (atRuleErrors name) (some (ofWs body))
  | .block qs body => .nested (soundSelectors qs) (selectorMistakes qs) (ofWs body)
/-- Of a list. -/
def ofWs : List SItem → List Item
  | [] => []
  | i :: is => ofW i :: ofWs is
end

/-- The tokens of a sheet are component values. -/
theorem written_cvs {isExpr : RExpr → Bool} {ts : List Tree} {is : List SItem}
    (h : Written isExpr ts is) : ∃ cs, ts = tokens cs ∧ CVsOk isExpr cs [] := by
  induction h with
  | nil => exact ⟨[], rfl, trivial⟩
  | decl j j' name vs rest is hn h1 h2 h3 h4 h5 ih =>
    obtain ⟨cs, rfl, h6⟩ := ih
    refine ⟨name :: .tok (.punct ':' j) :: (vs ++ .tok (.punct ';' j') :: cs), ?_, h1, ?_, ?_, ?_, ?_⟩
    · simp [tokens, tokensCV, tokens_append]
    · simp only [tokens, tokensCV, List.cons_append]
      exact followed_head (x := []) h2
    · simp [CVOk]
    · exact followed_punct (by decide) (by decide)
    · rw [cvsOk_append]
      refine ⟨?_, by simp [CVOk], followed_punct (by decide) (by decide), h6⟩
      simp only [tokens, tokensCV, List.cons_append]
      exact cvsOk_head h3
  | rule j name ps inner body rest is h1 h2 h3 h4 h5 h6 ih1 ih2 =>
    obtain ⟨ci, rfl, hi⟩ := ih1
    obtain ⟨cs, rfl, hr⟩ := ih2
    have hps : ∀ {ps' : List CV}, CVsOk isExpr ps' [.group .brace (tokens ci)] →
        CVsOk isExpr (ps' ++ .block .brace ci :: cs) [] := by
      intro ps' h
      rw [cvsOk_append]
      refine ⟨?_, hi, trivial, hr⟩
      simp only [tokens, tokensCV, List.cons_append]
      exact cvsOk_head h
    have hends : Ends name (tokens (ps ++ .block .brace ci :: cs) ++ []) := by
      rw [List.append_nil, tokens_append]
      cases ps with
      | nil =>
        intro last q ts _ he
        simp only [tokens, tokensCV, List.nil_append, List.cons_append, List.cons.injEq] at he
        exact absurd he.1.symm (partTree_ne_group _ _ _)
      | cons p ps =>
        obtain ⟨t, ts, ht, -⟩ := first_token h3.1
        simp only [tokens, ht, List.cons_append] at h2 ⊢
        exact ends_head (x := []) h2
    by_cases hnd : ∃ j, name = [.dash j]
    · obtain ⟨jd, rfl⟩ := hnd
      by_cases hnext : ∃ j' ts, tokens (ps ++ .block .brace ci :: cs) ++ [] = .punct '-' j' :: ts
      · refine ⟨.tok (.punct '@' j) :: .tok (.ident [.dash jd]) :: (ps ++ .block .brace ci :: cs), ?_, by simp [CVOk],
          followed_punct (by decide) (by decide), h1, ⟨hends, ?_, fun _ _ => hnext⟩, hps h3⟩
        · simp [tokens, tokensCV, tokens_append]
        · obtain ⟨j', ts, he⟩ := hnext
          intro a ts' ha
          rw [he] at ha
          cases ha
      · refine ⟨.tok (.punct '@' j) :: .tok (.punct '-' jd) :: (ps ++ .block .brace ci :: cs), ?_, by simp [CVOk],
          followed_punct (by decide) (by decide), by simp [CVOk], ⟨by simp, ?_⟩, hps h3⟩
        · simp [tokens, tokensCV, tokens_append, partTree]
        · intro _ q ts he
          cases q with
          | dash j' => exact hnext ⟨j', ts, he⟩
          | ident n r => exact hends (.dash jd) (.ident n r) ts rfl he trivial
    · have hnd : ∀ j, name ≠ [.dash j] := fun j h => hnd ⟨j, h⟩
      by_cases hp : ∃ a ps', ps = .block .paren a :: ps'
      · obtain ⟨a, ps', rfl⟩ := hp
        refine ⟨.tok (.punct '@' j) :: .func name a :: (ps' ++ .block .brace ci :: cs), ?_, by simp [CVOk],
          followed_punct (by decide) (by decide), ⟨h1, hnd, h3.1⟩, trivial, hps h3.2.2⟩
        simp [tokens, tokensCV, tokens_append]
      · refine ⟨.tok (.punct '@' j) :: .tok (.ident name) :: (ps ++ .block .brace ci :: cs), ?_, by simp [CVOk],
          followed_punct (by decide) (by decide), h1, ⟨hends, ?_, fun j h => absurd h (hnd j)⟩, hps h3⟩
        · simp [tokens, tokensCV, tokens_append]
        · intro a ts he
          rw [List.append_nil, tokens_append] at he
          cases ps with
          | nil => simp [tokens, tokensCV] at he
          | cons p ps =>
            obtain ⟨t, ts', ht, -, hg⟩ := first_token h3.1
            simp only [tokens, ht, List.cons_append, List.cons.injEq] at he
            obtain ⟨cs', rfl, -⟩ := hg .paren a he.1
            exact hp ⟨cs', ps, rfl⟩
  | block qs inner body rest is h1 _ _ _ _ _ _ ih1 ih2 =>
    obtain ⟨ci, rfl, hi⟩ := ih1
    obtain ⟨cs, rfl, hr⟩ := ih2
    refine ⟨qs ++ .block .brace ci :: cs, ?_, ?_⟩
    · simp [tokens, tokensCV, tokens_append]
    · rw [cvsOk_append]
      refine ⟨?_, hi, trivial, hr⟩
      simp only [tokens, tokensCV, List.cons_append]
      exact cvsOk_head h1

theorem chooseW_block {isExpr : RExpr → Bool} {qs : List CV} {ci : List CV} {rest : List Tree}
    (h1 : CVsOk isExpr qs (.group .brace (tokens ci) :: rest)) (h2 : ∀ c cs, qs = c :: cs → ¬ IsPunct '@' c)
    (hi : CVsOk isExpr ci []) (h3 : ∀ c d cs, qs = c :: d :: cs → IsName c → ¬ IsPunct ':' d) :
    choose isExpr (tokens qs ++ .group .brace (tokens ci) :: rest) = some .nested := by
  cases qs with
  | nil =>
    have := choose_of (isExpr := isExpr) (c := .block .brace ci) (rest := rest) hi trivial
    exact this
  | cons c qs =>
    obtain ⟨g1, g2, g3⟩ := h1
    simp only [tokens, List.append_assoc]
    rw [choose_of g1 g2]
    unfold chooseWith
    split
    · exact absurd rfl (h2 _ _ rfl)
    · cases hn : attrName c with
      | none => rfl
      | some a =>
        have hname := (attrName_iff.1 hn).1
        simp only
        split
        · rfl
        · cases qs with
          | nil =>
            simp only [tokens, List.nil_append]
            have : parseCV isExpr (.group .brace (tokens ci) :: rest) = some (.block .brace ci, rest) :=
              (parseCV_iff isExpr _ _ _).2 ⟨rfl, hi, trivial⟩
            rw [this]
          | cons d qs =>
            have : parseCV isExpr (tokens (d :: qs) ++ .group .brace (tokens ci) :: rest) =
                some (d, tokens qs ++ .group .brace (tokens ci) :: rest) :=
              (parseCV_iff isExpr _ _ _).2 ⟨by simp [tokens], g3.1, g3.2.1⟩
            rw [this]
            split
            · rename_i he
              cases he
              exact absurd rfl (h3 _ _ _ rfl hname)
            · rfl

theorem parseAttrW_complete {isExpr : RExpr → Bool} {name : CV} {vs : List CV} {j j' : Bool} {rest : List Tree}
    (hn : IsName name) (h1 : CVOk isExpr name) (h2 : Followed name [.punct ':' j])
    (h3 : CVsOk isExpr vs [.punct ';' j']) (h4 : ∀ v ∈ vs, ¬ IsPunct ';' v) :
    parseAttr isExpr (tokensCV name ++ .punct ':' j :: (tokens vs ++ .punct ';' j' :: rest)) =
      some (ofW (.decl name vs), rest) := by
  have h2' : Followed name (.punct ':' j :: (tokens vs ++ .punct ';' j' :: rest)) := followed_head (x := []) h2
  have hcv := (parseCV_iff isExpr _ name _).2 ⟨rfl, h1, h2'⟩
  obtain ⟨t, ts, ht, -⟩ := first_token h1
  have hv := attrValueW_complete isExpr j' rest vs ((tokens vs ++ .punct ';' j' :: rest).length + 1)
    (cvsOk_head h3) h4 (by simp)
  rw [ht, List.cons_append] at hcv ⊢
  have htp : ∀ (ch : Char) (j : Bool) (r : List Tree), takePunct ch (.punct ch j :: r) = some r := by
    intro ch j r; simp [takePunct, isPunct]
  simp only [parseAttr, hcv, attrName_iff.2 ⟨hn, rfl⟩, htp, hv, ofW]

/-- Whatever is written as a sheet is parsed. -/
theorem itemsW_complete {isExpr : RExpr → Bool} {ts : List Tree} {is : List SItem}
    (h : Written isExpr ts is) : ∀ n, 2 * treesSize ts ≤ n → items isExpr n ts = some (ofWs is) := by
  induction h with
  | nil => intro n _; cases n <;> simp [items, ofWs]
  | decl j j' name vs rest is hn h1 h2 h3 h4 h5 ih =>
    intro n hs
    have hp := size_pos_cv h1
    simp only [treesSize_append, treesSize, treeSize] at hs
    obtain ⟨m, rfl⟩ : ∃ m, n = m + 2 := ⟨n - 2, by omega⟩
    refine items_step ?_ (ih (m + 1) (by omega))
    simp only [item, choose_decl hn h1 h2, parseAttrW_complete hn h1 h2 h3 h4]
  | rule j name ps inner body rest is h1 h2 h3 h4 h5 h6 ih1 ih2 =>
    intro n hs
    simp only [treesSize_append, treesSize, treeSize] at hs
    obtain ⟨m, rfl⟩ : ∃ m, n = m + 2 := ⟨n - 2, by omega⟩
    refine items_step ?_ (ih2 (m + 1) (by omega))
    have hends : Ends name (tokens ps ++ .group .brace inner :: rest) := by
      cases ps with
      | nil =>
        intro last q ts _ he
        simp only [tokens, List.nil_append, List.cons.injEq] at he
        exact absurd he.1.symm (partTree_ne_group _ _ _)
      | cons p ps =>
        obtain ⟨t, ts, ht, -⟩ := first_token h3.1
        simp only [tokens, ht, List.cons_append] at h2 ⊢
        exact ends_head (x := []) h2
    have hpre := prelude_complete isExpr inner rest ps ((tokens ps ++ .group .brace inner :: rest).length + 1)
      (cvsOk_head h3) h4 (by simp)
    have htp : takePunct '@' (.punct '@' j :: (name.map partTree ++ (tokens ps ++ .group .brace inner :: rest))) =
      some (name.map partTree ++ (tokens ps ++ .group .brace inner :: rest)) := by simp [takePunct, isPunct]
    simp only [item, choose_rule, htp, parseIdent_complete h1 hends, hpre, ih1 m (by omega), ofW]
  | block qs inner body rest is h1 h2 h3 h4 h5 h6 h7 ih1 ih2 =>
    intro n hs
    simp only [treesSize_append, treesSize, treeSize] at hs
    obtain ⟨m, rfl⟩ : ∃ m, n = m + 2 := ⟨n - 2, by omega⟩
    refine items_step ?_ (ih2 (m + 1) (by omega))
    obtain ⟨ci, rfl, hi⟩ := written_cvs h6
    have hch := chooseW_block (rest := rest) (cvsOk_head h1) h4 hi h5
    have hq := qualifierW_complete isExpr (tokens ci) rest qs
      ((tokens qs ++ .group .brace (tokens ci) :: rest).length + 1) (cvsOk_head h1) h2 h3 (by simp)
    simp only [item, hch, hq, ih1 m (by omega), ofW]

theorem parseAttrW_sound {isExpr : RExpr → Bool} {ts rest : List Tree} {i : Item}
    (h : parseAttr isExpr ts = some (i, rest)) :
    ∃ name vs j j', i = ofW (.decl name vs) ∧ IsName name ∧ CVOk isExpr name ∧
      Followed name [.punct ':' j] ∧ CVsOk isExpr vs [.punct ';' j'] ∧ (∀ v ∈ vs, ¬ IsPunct ';' v) ∧
      ts = tokensCV name ++ .punct ':' j :: (tokens vs ++ .punct ';' j' :: rest) := by
  unfold parseAttr at h
  split at h
  · cases h
  · split at h
    · cases h
    · rename_i name r hcv
      split at h
      · cases h
      · rename_i a ha
        split at h
        · cases h
        · rename_i r2 htp
          split at h
          · cases h
          · rename_i vs' es r3 hv
            split at h
            · cases h
            · rename_i r4 htp2
              cases h
              obtain ⟨hn, rfl⟩ := attrName_iff.1 ha
              obtain ⟨j, rfl⟩ := takePunct_some htp
              obtain ⟨j', rfl⟩ := takePunct_some htp2
              obtain ⟨rfl, h2, h3⟩ := (parseCV_iff isExpr _ name _).1 hcv
              obtain ⟨vs, -, rfl, h5, h6, rfl, rfl⟩ := attrValueW_sound isExpr _ _ _ _ _ hv
              exact ⟨name, vs, j, j', rfl, hn, h2, followed_head (x := []) h3, cvsOk_head h5, h6, rfl⟩

/-- Whatever is parsed is written as a sheet. -/
theorem itemsW_sound (isExpr : RExpr → Bool) : ∀ (n : Nat) (ts : List Tree) (is : List Item),
    items isExpr n ts = some is → ∃ sis, is = ofWs sis ∧ Written isExpr ts sis := by
  intro n
  induction n using Nat.strongRecOn with
  | ind n IH =>
    intro ts is h
    cases ts with
    | nil =>
      have : items isExpr n [] = some [] := by cases n <;> rfl
      rw [this] at h
      cases h
      exact ⟨[], rfl, .nil⟩
    | cons t ts =>
      cases n with
      | zero => simp [items] at h
      | succ n =>
        simp only [items] at h
        split at h
        · cases h
        · rename_i i rest hi
          split at h
          · cases h
          · rename_i is' his
            cases h
            obtain ⟨sis, rfl, hsh⟩ := IH n (Nat.lt_succ_self n) rest is' his
            generalize t :: ts = ts at hi
            cases n with
            | zero => simp [item] at hi
            | succ n =>
              simp only [item] at hi
              split at hi
              · cases hi
              · obtain ⟨name, vs, j, j', rfl, h1, h2, h3, h4, h5, rfl⟩ := parseAttrW_sound hi
                exact ⟨.decl name vs :: sis, rfl, .decl j j' name vs rest sis h1 h2 h3 h4 h5 hsh⟩
              · split at hi
                · cases hi
                · rename_i r1 htp
                  obtain ⟨j, rfl⟩ := takePunct_some htp
                  split at hi
                  · cases hi
                  · rename_i name r2 hid
                    obtain ⟨rfl, h1, h2⟩ := parseIdent_sound hid
                    split at hi
                    · cases hi
                    · rename_i ps r3 hpre
                      obtain ⟨hr, rfl, h3, h4⟩ := prelude_sound isExpr _ _ _ _ hpre
                      split at hi
                      · rename_i inner r4 _
                        split at hi
                        · cases hi
                        · rename_i body hb
                          cases hi
                          obtain ⟨sb, rfl, hsb⟩ := IH n (by omega) inner body hb
                          refine ⟨.rule name ps sb :: sis, rfl, .rule j name ps inner sb rest sis h1 ?_ (cvsOk_head h3) h4 hsb hsh⟩
                          cases ps with
                          | nil => intro last q ts _ he; cases he
                          | cons p ps =>
                            obtain ⟨t, ts, ht, -⟩ := first_token h3.1
                            simp only [tokens, ht, List.cons_append] at h2 ⊢
                            exact ends_head (x := []) h2
                      · rename_i hnb
                        cases hi
                        rcases hr with ⟨inner, r, rfl⟩ | ⟨j', r, rfl⟩
                        · exact absurd rfl (hnb inner r)
                        · exact (items_nonempty his).elim
              · rename_i hch
                split at hi
                · cases hi
                · rename_i qs' es r1 hq
                  split at hi
                  · rename_i inner r2
                    split at hi
                    · cases hi
                    · rename_i body hb
                      cases hi
                      obtain ⟨qs, -, rfl, h1, h2, h3, rfl, rfl⟩ := qualifierW_sound isExpr _ _ _ _ _ hq
                      obtain ⟨sb, rfl, hsb⟩ := IH n (by omega) inner body hb
                      refine ⟨.block qs sb :: sis, rfl, .block qs inner sb rest sis (cvsOk_head h1) h2 h3 ?_ ?_ hsb hsh⟩
                      · rintro c cs rfl hat
                        have hat' : ∃ j, c = .tok (.punct '@' j) := by
                          cases c with
                          | tok k => cases k <;> simp [IsPunct] at hat; exact ⟨_, by rw [hat]⟩
                          | _ => simp [IsPunct] at hat
                        obtain ⟨j, rfl⟩ := hat'
                        rw [show tokens (.tok (.punct '@' j) :: cs) ++ .group .brace inner :: rest =
                          .punct '@' j :: (tokens cs ++ .group .brace inner :: rest) by simp [tokens, tokensCV],
                          choose_rule] at hch
                        cases hch
                      · rintro c d cs rfl hn hd
                        have : choose isExpr (tokens (c :: d :: cs) ++ .group .brace inner :: rest) = some .attribute := by
                          have hcv : parseCV isExpr (tokens (d :: cs) ++ .group .brace inner :: rest) =
                              some (d, tokens cs ++ .group .brace inner :: rest) :=
                            (parseCV_iff isExpr _ _ _).2 ⟨by simp [tokens], h1.2.2.1, h1.2.2.2.1⟩
                          have he : tokens (c :: d :: cs) ++ .group .brace inner :: rest =
                            tokensCV c ++ (tokens (d :: cs) ++ .group .brace inner :: rest) := by simp [tokens]
                          have hd' : ∃ j, d = .tok (.punct ':' j) := by
                            cases d with
                            | tok k => cases k <;> simp [IsPunct] at hd; exact ⟨_, by rw [hd]⟩
                            | _ => simp [IsPunct] at hd
                          obtain ⟨j, rfl⟩ := hd'
                          rw [he, choose_of h1.1 h1.2.1]
                          cases hne : tokens (.tok (.punct ':' j) :: cs) ++ .group .brace inner :: rest with
                          | nil => simp [tokens, tokensCV] at hne
                          | cons t ts =>
                            rw [hne] at hcv
                            cases c with
                            | tok k =>
                              cases k with
                              | ident i => simp only [chooseWith, attrName, hcv]
                              | _ => simp [IsName] at hn
                            | expr j e => simp only [chooseWith, attrName, hcv]
                            | _ => simp [IsName] at hn
                        rw [this] at hch
                        cases hch
                  · cases hi

/-! ## Output -/

theorem attrOutW (name : CV) (vs : List CV) :
    ∃ a, attrOut (nameOf name) (soundValues vs) (valueMistakes vs) = some (a, valueMistakes vs) :=
  ⟨_, by simp only [attrOut, spacedFrags_some (values_noBraces _ (soundValues_valid vs))]; rfl⟩

theorem atRuleErrors_eq (name : CssIdent) :
    atRuleErrors name = if cssName name ∈ [c! "media", c! "supports"] then [] else [.atRule name] := by
  split
  · rename_i h; exact (atRuleErrors_iff name).2 h
  · rename_i h
    rw [← atRuleErrors_iff] at h
    unfold atRuleErrors at h ⊢
    split
    · rename_i h'; rw [if_pos h'] at h; exact absurd rfl h
    · rfl

theorem blockOutW : ∀ (is : List SItem), PrintableL true is → ∃ out, blockOut (ofWs is) = some (out, mistakesL true is)
  | [], _ => ⟨[], by simp only [ofWs, blockOut, mistakesL]⟩
  | .decl name vs :: is, h => by
    obtain ⟨out, ho⟩ := blockOutW is h.2
    obtain ⟨a, ha⟩ := attrOutW name vs
    exact ⟨a :: out, by simp only [ofWs, ofW, blockOut, ha, ho, mistakesL, mistakes]⟩
  | .rule name ps body :: is, ⟨⟨h1, h2⟩, h3⟩ => by
    obtain ⟨out, ho⟩ := blockOutW is h3
    obtain ⟨a, ha⟩ := blockOutW body h2
    exact ⟨.rule (condition name ps) a :: out, by
      simp only [ofWs, ofW, blockOut, blockOutOpt, ha, ho, mistakesL, mistakes, conditionOut_some h1, atRuleErrors_eq]⟩
  | .block qs body :: is, h => by
    obtain ⟨out, ho⟩ := blockOutW is h.2
    exact ⟨out, by simp only [ofWs, ofW, blockOut, ho, mistakesL, mistakes, List.cons_append, List.nil_append]⟩

theorem blockOutW_none : ∀ (is : List SItem), ¬ PrintableL true is → blockOut (ofWs is) = none
  | [], h => absurd trivial h
  | .decl name vs :: is, h => by
    have h' : ¬ PrintableL true is := fun h' => h ⟨trivial, h'⟩
    obtain ⟨a, ha⟩ := attrOutW name vs
    simp only [ofWs, ofW, blockOut, ha, blockOutW_none is h']
  | .rule name ps body :: is, h => by
    simp only [ofWs, ofW, blockOut, blockOutOpt]
    by_cases h1 : NoBracesL ps
    · by_cases h2 : PrintableL true body
      · have h3 : ¬ PrintableL true is := fun h3 => h ⟨⟨h1, h2⟩, h3⟩
        rw [blockOutW_none is h3]
        split
        · rename_i he; cases he
        · rfl
      · rw [blockOutW_none body h2]
        split
        · rename_i he _; cases he
        · rfl
    · rw [conditionOut_none h1]
  | .block qs body :: is, h => by
    have h' : ¬ PrintableL true is := fun h' => h ⟨trivial, h'⟩
    simp only [ofWs, ofW, blockOut, blockOutW_none is h']

theorem ruleOutW : ∀ (is : List SItem) (attrs : List ORBC), PrintableL false is →
    ∃ out, ruleOut (ofWs is) attrs = some (out, mistakesL false is)
  | [], attrs, _ => ⟨flushAttrs (ORBC.block []) attrs, by simp only [ofWs, ruleOut, mistakesL]⟩
  | .decl name vs :: is, attrs, h => by
    obtain ⟨a, ha⟩ := attrOutW name vs
    obtain ⟨out, ho⟩ := ruleOutW is (attrs ++ [a]) h.2
    exact ⟨out, by simp only [ofWs, ofW, ruleOut, ha, ho, mistakesL, mistakes]⟩
  | .rule name ps body :: is, attrs, ⟨⟨h1, h2⟩, h3⟩ => by
    obtain ⟨out, ho⟩ := ruleOutW is [] h3
    obtain ⟨a, ha⟩ := ruleOutW body [] h2
    exact ⟨flushAttrs (ORBC.block []) attrs ++ .rule (condition name ps) a :: out, by
      simp only [ofWs, ofW, ruleOut, ruleOutOpt, ha, ho, mistakesL, mistakes, conditionOut_some h1, atRuleErrors_eq]⟩
  | .block qs body :: is, attrs, ⟨⟨h1, h2⟩, h3⟩ => by
    obtain ⟨out, ho⟩ := ruleOutW is [] h3
    obtain ⟨a, ha⟩ := blockOutW body h2
    exact ⟨flushAttrs (ORBC.block []) attrs ++ .block (selectors (soundSelectors qs)) a :: out, by
      simp only [ofWs, ofW, ruleOut, nestedOut, selectorsOut_some _ _ (Nat.le_refl _) h1, ha, ho, mistakesL, mistakes]⟩

theorem ruleOutW_none : ∀ (is : List SItem) (attrs : List ORBC), ¬ PrintableL false is → ruleOut (ofWs is) attrs = none
  | [], _, h => absurd trivial h
  | .decl name vs :: is, attrs, h => by
    have h' : ¬ PrintableL false is := fun h' => h ⟨trivial, h'⟩
    obtain ⟨a, ha⟩ := attrOutW name vs
    simp only [ofWs, ofW, ruleOut, ha, ruleOutW_none is _ h']
  | .rule name ps body :: is, attrs, h => by
    simp only [ofWs, ofW, ruleOut, ruleOutOpt]
    by_cases h1 : NoBracesL ps
    · by_cases h2 : PrintableL false body
      · have h3 : ¬ PrintableL false is := fun h3 => h ⟨⟨h1, h2⟩, h3⟩
        rw [ruleOutW_none is _ h3]
        split
        · rename_i he; cases he
        · rfl
      · rw [ruleOutW_none body _ h2]
        split
        · rename_i he _; cases he
        · rfl
    · rw [conditionOut_none h1]
  | .block qs body :: is, attrs, h => by
    simp only [ofWs, ofW, ruleOut, nestedOut]
    by_cases h1 : NoBracesL (soundSelectors qs)
    · by_cases h2 : PrintableL true body
      · have h3 : ¬ PrintableL false is := fun h3 => h ⟨⟨h1, h2⟩, h3⟩
        rw [ruleOutW_none is _ h3]
        split
        · rename_i he; cases he
        · rfl
      · rw [blockOutW_none body h2]
        split
        · rename_i he _
          split at he
          · rename_i he'; cases he'
          · cases he
        · rfl
    · rw [selectorsOut_none _ _ h1]

/-- What the macro does with whatever is written as a sheet. -/
theorem macroFnW {isExpr : RExpr → Bool} {ts : List Tree} {is : List SItem} (h : Written isExpr ts is) :
    (¬ PrintableL false is ∧ macroFn isExpr ts = .panic) ∨
    (PrintableL false is ∧ mistakesL false is ≠ [] ∧ macroFn isExpr ts = .errors (mistakesL false is)) ∨
    (PrintableL false is ∧ mistakesL false is = [] ∧ ∃ c, macroFn isExpr ts = .code c) := by
  have hp : parseRoot isExpr ts = some (ofWs is) := itemsW_complete h _ (Nat.le_refl _)
  have h1 := rootOut_eq (ofWs is) []
  by_cases hb : PrintableL false is
  · obtain ⟨out, ho⟩ := ruleOutW is [] hb
    rw [ho] at h1
    obtain ⟨⟨s, e⟩, h2, h3⟩ := Option.map_eq_some_iff.1 h1
    simp only [Prod.mk.injEq] at h3
    obtain ⟨-, rfl⟩ := h3
    cases he : mistakesL false is with
    | nil =>
      rw [he] at h2
      exact .inr (.inr ⟨hb, rfl, reifySheet s, by simp only [macroFn, hp, h2]⟩)
    | cons e es =>
      rw [he] at h2
      exact .inr (.inl ⟨hb, by simp, by simp only [macroFn, hp, h2]⟩)
  · rw [ruleOutW_none is [] hb, Option.map_eq_none_iff] at h1
    exact .inl ⟨hb, by simp only [macroFn, hp, h1]⟩

end Inline
