import Verif.Proofs.Emit

/-! # When the inline macro panics -/

namespace Inline
open Spec Output

theorem isDollar_part (p : IdentPart) : ¬ IsDollar (partTree p) := by cases p <;> simp [partTree, IsDollar]

theorem noInner_part {inside : Prop} (p : IdentPart) : NoInnerBrace inside (partTree p) := by
  cases p <;> simp [partTree, NoInnerBrace]

/-- Only a `$` matters before a list, and only if it starts with a braced group. -/
theorem noInner_prev {inside d : Prop} {ts : List Tree} (hd : ¬ d) (h : NoInnerBraces inside d ts) :
    NoInnerBraces inside False ts := by
  cases ts with
  | nil => trivial
  | cons t ts =>
    obtain ⟨h1, h2⟩ := h
    refine ⟨?_, h2⟩
    rcases h1 with ⟨h, _⟩ | h
    · exact absurd h hd
    · exact .inr h

theorem noInner_parts {inside : Prop} : ∀ (i : CssIdent) (d : Prop) (rest : List Tree), ¬ d →
    NoInnerBraces inside d (i.map partTree ++ rest) → NoInnerBraces inside False rest
  | [], _, _, hd, h => noInner_prev hd h
  | p :: i, _, rest, _, h => noInner_parts i _ rest (isDollar_part p) h.2

mutual
theorem noInner_cv (isExpr : RExpr → Bool) {inside : Prop} : ∀ (c : CV) (rest : List Tree), CVOk isExpr c →
    Followed c rest → NoInnerBraces inside False (tokensCV c ++ rest) →
    NoInnerBraces inside False rest ∧ ((inside ∨ ∀ b, c ≠ .block .brace b) → NoBraces c)
  | .func i args, rest, hc, _, h => by
    simp only [tokensCV, List.append_assoc, List.cons_append, List.nil_append] at h
    have h1 := noInner_parts i False _ (by simp) h
    refine ⟨noInner_prev (by simp [IsDollar]) h1.2, fun _ => ?_⟩
    rcases h1.1 with ⟨h, _⟩ | h
    · exact h.elim
    · exact noInner_inside isExpr args hc.2.2 (by simp) h.2
  | .tok (.ident i), rest, _, _, h => ⟨noInner_parts i False rest (by simp) h, fun _ => trivial⟩
  | .tok (.lit a b), rest, _, _, h => ⟨noInner_prev (by simp [IsDollar]) h.2, fun _ => trivial⟩
  | .tok (.punct c j), rest, _, hf, h => by
    refine ⟨?_, fun _ => trivial⟩
    have h2 : NoInnerBraces inside (IsDollar (.punct c j)) rest := h.2
    cases rest with
    | nil => trivial
    | cons t ts =>
      refine ⟨?_, h2.2⟩
      rcases h2.1 with ⟨h3, h4⟩ | h3
      · cases t with
        | group d e =>
          simp only [IsBraceGroup] at h4
          subst h4
          exact absurd rfl (hf.1 h3 e ts)
        | _ => simp [IsBraceGroup] at h4
      · exact .inr h3
  | .expr j e, rest, _, _, h => ⟨noInner_prev (by simp [IsDollar]) h.2.2, fun _ => trivial⟩
  | .block d cs, rest, hc, _, h => by
    refine ⟨noInner_prev (by simp [IsDollar]) h.2, fun hb => ?_⟩
    have h1 : (False ∧ IsBraceGroup (.group d (tokens cs))) ∨ NoInnerBrace inside (.group d (tokens cs)) := h.1
    rcases h1 with ⟨h, _⟩ | h
    · exact h.elim
    · have hd : d ≠ .brace := by
        rintro rfl
        rcases hb with hb | hb
        · exact h.1 rfl hb
        · exact hb cs rfl
      exact ⟨hd, noInner_inside isExpr cs hc (.inr hd) h.2⟩
theorem noInner_inside (isExpr : RExpr → Bool) {inside : Prop} : ∀ (cs : List CV), CVsOk isExpr cs [] → inside →
    NoInnerBraces inside False (tokens cs) → NoBracesL cs
  | [], _, _, _ => trivial
  | c :: cs, ⟨h1, h2, h3⟩, hi, h => by
    rw [List.append_nil] at h2
    obtain ⟨h4, h5⟩ := noInner_cv isExpr c (tokens cs) h1 h2 h
    exact ⟨h5 (.inl hi), noInner_inside isExpr cs h3 hi h4⟩
end

theorem noInner_cvs {isExpr : RExpr → Bool} {inside : Prop} : ∀ (cs : List CV) (rest : List Tree), CVsOk isExpr cs rest →
    NoInnerBraces inside False (tokens cs ++ rest) →
    NoInnerBraces inside False rest ∧ ∀ c ∈ cs, (∀ b, c ≠ .block .brace b) → NoBraces c
  | [], rest, _, h => ⟨h, by simp⟩
  | c :: cs, rest, ⟨h1, h2, h3⟩, h => by
    simp only [tokens, List.append_assoc] at h
    obtain ⟨h4, h5⟩ := noInner_cv isExpr c _ h1 h2 h
    obtain ⟨h6, h7⟩ := noInner_cvs cs rest h3 h4
    refine ⟨h6, fun c' hc' => ?_⟩
    rcases List.mem_cons.1 hc' with rfl | hc'
    · exact fun hb => h5 (.inr hb)
    · exact h7 c' hc'

theorem noBracesL_iff : ∀ cs : List CV, NoBracesL cs ↔ ∀ c ∈ cs, NoBraces c
  | [] => by simp [NoBracesL]
  | c :: cs => by simp [NoBracesL, noBracesL_iff cs]

/-! ## Parsing with errors -/

theorem attrValue_all (isExpr : RExpr → Bool) : ∀ (n : Nat) (ts : List Tree) (vs : List CV) (es) (rest : List Tree),
    attrValue isExpr n ts = some (vs, es, rest) →
    ValidValues vs ∧ ∃ all, ts = tokens all ++ rest ∧ CVsOk isExpr all rest
  | 0, _, _, _, _, h => by simp [attrValue] at h
  | _ + 1, [], _, _, _, h => by simp [attrValue] at h
  | n + 1, t :: ts, vs, es, rest, h => by
    simp only [attrValue] at h
    split at h
    · cases h
      exact ⟨trivial, [], rfl, trivial⟩
    · split at h
      · cases h
      · rename_i c r hcv
        split at h
        · cases h
        · rename_i vs' es' r' hr
          simp only [Option.some.injEq, Prod.mk.injEq] at h
          obtain ⟨rfl, rfl, rfl⟩ := h
          obtain ⟨h1, all, h2, h3⟩ := attrValue_all isExpr n r vs' es' r' hr
          obtain ⟨h5, h6, h7⟩ := (parseCV_iff isExpr _ c _).1 hcv
          refine ⟨?_, c :: all, ?_, h6, h2 ▸ h7, h3⟩
          · split
            · rename_i he
              exact ⟨(validAttr_iff c).1 (List.isEmpty_iff.1 he), h1⟩
            · exact h1
          · rw [h5, tokens, List.append_assoc, ← h2]

theorem qualifier_all (isExpr : RExpr → Bool) : ∀ (n : Nat) (ts : List Tree) (qs : List CV) (es) (rest : List Tree),
    qualifier isExpr n ts = some (qs, es, rest) →
    ∃ all, ts = tokens all ++ rest ∧ CVsOk isExpr all rest ∧ ∀ q ∈ qs, q ∈ all ∧ ∀ b, q ≠ .block .brace b
  | 0, _, _, _, _, h => by simp [qualifier] at h
  | _ + 1, [], _, _, _, h => by simp [qualifier] at h
  | n + 1, t :: ts, qs, es, rest, h => by
    simp only [qualifier] at h
    split at h
    · cases h
      exact ⟨[], rfl, trivial, by simp⟩
    · rename_i hbr
      split at h
      · cases h
      · rename_i c r hcv
        split at h
        · cases h
        · split at h
          · cases h
          · rename_i qs' es' r' hr
            simp only [Option.some.injEq, Prod.mk.injEq] at h
            obtain ⟨rfl, rfl, rfl⟩ := h
            obtain ⟨all, h2, h3, h4⟩ := qualifier_all isExpr n r qs' es' r' hr
            obtain ⟨h5, h6, h7⟩ := (parseCV_iff isExpr _ c _).1 hcv
            have hnb : ∀ b, c ≠ .block .brace b := by
              rintro b rfl
              simp only [tokensCV, List.cons_append, List.cons.injEq] at h5
              rw [h5.1] at hbr
              exact hbr rfl
            refine ⟨c :: all, ?_, ⟨h6, h2 ▸ h7, h3⟩, ?_⟩
            · rw [h5, tokens, List.append_assoc, ← h2]
            · intro q hq
              split at hq
              · rcases List.mem_cons.1 hq with rfl | hq
                · exact ⟨List.mem_cons_self, hnb⟩
                · exact ⟨List.mem_cons_of_mem _ (h4 q hq).1, (h4 q hq).2⟩
              · exact ⟨List.mem_cons_of_mem _ (h4 q hq).1, (h4 q hq).2⟩

mutual
/-- Nothing in the item makes the macro panic. -/
def Safe : Item → Prop
  | .attr _ vs _ => NoBracesL vs
  | .atRule _ ps _ none => NoBracesL ps
  | .atRule _ ps _ (some is) => NoBracesL ps ∧ SafeL is
  | .nested qs _ is => NoBracesL qs ∧ SafeL is
/-- For a list. -/
def SafeL : List Item → Prop
  | [] => True
  | i :: is => Safe i ∧ SafeL is
end

theorem noInner_group {inside : Prop} {inner r : List Tree} (h : NoInnerBraces inside False (.group .brace inner :: r)) :
    NoInnerBraces inside False inner ∧ NoInnerBraces inside False r := by
  refine ⟨?_, noInner_prev (by simp [IsDollar]) h.2⟩
  rcases h.1 with ⟨h, _⟩ | h
  · exact h.elim
  · have h2 := h.2
    have : (inside ∨ Delim.brace ≠ .brace) = inside := by simp
    rw [this] at h2
    exact h2

theorem items_safe (isExpr : RExpr → Bool) : ∀ (n : Nat) (ts : List Tree) (is : List Item),
    items isExpr n ts = some is → NoInnerBraces False False ts → SafeL is := by
  intro n
  induction n using Nat.strongRecOn with
  | ind n IH =>
    intro ts is h hb
    cases ts with
    | nil =>
      have : items isExpr n [] = some [] := by cases n <;> rfl
      rw [this] at h
      cases h
      trivial
    | cons t ts =>
      cases n with
      | zero => simp [items] at h
      | succ n =>
        simp only [items] at h
        split at h
        · cases h
        · rename_i i rest hi
          split at h
          · cases h
          · rename_i is' his
            cases h
            generalize t :: ts = ts at hi hb
            cases n with
            | zero => simp [item] at hi
            | succ n =>
              simp only [item] at hi
              split at hi
              · cases hi
              · unfold parseAttr at hi
                split at hi
                · cases hi
                · split at hi
                  · cases hi
                  · rename_i name r hcv
                    split at hi
                    · cases hi
                    · split at hi
                      · cases hi
                      · rename_i r2 htp
                        split at hi
                        · cases hi
                        · rename_i vs es r3 hv
                          split at hi
                          · cases hi
                          · rename_i r4 htp2
                            cases hi
                            obtain ⟨j, rfl⟩ := takePunct_some htp
                            obtain ⟨j', rfl⟩ := takePunct_some htp2
                            obtain ⟨rfl, h2, h3⟩ := (parseCV_iff isExpr _ name _).1 hcv
                            obtain ⟨h4, all, rfl, h5⟩ := attrValue_all isExpr _ _ _ _ _ hv
                            have b1 := (noInner_cv isExpr name _ h2 h3 hb).1
                            have b2 := (noInner_cvs all _ h5 (noInner_prev (by simp [IsDollar]) b1.2)).1
                            exact ⟨values_noBraces vs h4, IH _ (by omega) rest is' his (noInner_prev (by simp [IsDollar]) b2.2)⟩
              · split at hi
                · cases hi
                · rename_i r1 htp
                  obtain ⟨j, rfl⟩ := takePunct_some htp
                  split at hi
                  · cases hi
                  · rename_i name r2 hid
                    obtain ⟨rfl, h1, h2⟩ := parseIdent_sound hid
                    split at hi
                    · cases hi
                    · rename_i ps r3 hpre
                      obtain ⟨hr, rfl, h3, h4⟩ := prelude_sound isExpr _ _ _ _ hpre
                      have b1 := noInner_parts name _ _ (by simp [IsDollar]) hb.2
                      obtain ⟨b2, b3⟩ := noInner_cvs ps _ h3 b1
                      have hps : NoBracesL ps := by
                        rw [noBracesL_iff]
                        intro p hp
                        refine b3 p hp ?_
                        rintro b rfl
                        exact (h4 _ hp).elim
                      split at hi
                      · rename_i inner r4 _
                        split at hi
                        · cases hi
                        · rename_i body hbody
                          cases hi
                          obtain ⟨b4, b5⟩ := noInner_group b2
                          exact ⟨⟨hps, IH n (by omega) inner body hbody b4⟩, IH _ (by omega) rest is' his b5⟩
                      · rename_i hnb
                        cases hi
                        exact ⟨hps, IH _ (by omega) _ is' his b2⟩
              · split at hi
                · cases hi
                · rename_i qs es r1 hq
                  obtain ⟨all, rfl, h1, h2⟩ := qualifier_all isExpr _ _ _ _ _ hq
                  obtain ⟨b2, b3⟩ := noInner_cvs all _ h1 hb
                  have hqs : NoBracesL qs := by
                    rw [noBracesL_iff]
                    intro q hq
                    exact b3 q (h2 q hq).1 (h2 q hq).2
                  split at hi
                  · rename_i inner r2 _
                    split at hi
                    · cases hi
                    · rename_i body hbody
                      cases hi
                      obtain ⟨b4, b5⟩ := noInner_group b2
                      exact ⟨⟨hqs, IH n (by omega) inner body hbody b4⟩, IH _ (by omega) rest is' his b5⟩
                  · cases hi

mutual
theorem blockOut_safe : ∀ is : List Item, SafeL is → ∃ x, blockOut is = some x
  | [], _ => by simp [blockOut]
  | .attr name vs es :: is, ⟨h1, h2⟩ => by
    obtain ⟨x, hx⟩ := blockOut_safe is h2
    simp only [Safe] at h1
    simp [blockOut, attrOut, spacedFrags_some h1, hx]
  | .atRule name ps es content :: is, ⟨h1, h2⟩ => by
    obtain ⟨x, hx⟩ := blockOut_safe is h2
    obtain ⟨h3, y, hy⟩ := blockOutOpt_safe content name ps es h1
    simp [blockOut, conditionOut_some h3, hx, hy]
  | .nested _ _ _ :: is, ⟨h1, h2⟩ => by
    obtain ⟨x, hx⟩ := blockOut_safe is h2
    simp [blockOut, hx]
theorem blockOutOpt_safe : ∀ (c : Option (List Item)) (name ps es), Safe (.atRule name ps es c) →
    NoBracesL ps ∧ ∃ x, blockOutOpt c = some x
  | none, _, _, _, h => ⟨h, ([], []), by simp [blockOutOpt]⟩
  | some is, _, _, _, h => by
    obtain ⟨x, hx⟩ := blockOut_safe is h.2
    exact ⟨h.1, x, by simpa only [blockOutOpt] using hx⟩
end

mutual
theorem ruleOut_safe : ∀ (is : List Item) (attrs : List ORBC), SafeL is → ∃ x, ruleOut is attrs = some x
  | [], _, _ => by simp [ruleOut]
  | .attr name vs es :: is, attrs, ⟨h1, h2⟩ => by
    simp only [Safe] at h1
    obtain ⟨x, hx⟩ := ruleOut_safe is (attrs ++ [.attr name.out (Spec.spacedFrags vs)]) h2
    simp [ruleOut, attrOut, spacedFrags_some h1, hx]
  | .atRule name ps es content :: is, attrs, ⟨h1, h2⟩ => by
    obtain ⟨x, hx⟩ := ruleOut_safe is [] h2
    obtain ⟨h3, y, hy⟩ := ruleOutOpt_safe content name ps es h1
    simp [ruleOut, conditionOut_some h3, hx, hy]
  | .nested qs es scope :: is, attrs, ⟨h1, h2⟩ => by
    obtain ⟨x, hx⟩ := ruleOut_safe is [] h2
    obtain ⟨y, hy⟩ := blockOut_safe scope h1.2
    simp [ruleOut, nestedOut, selectorsOut_some _ qs (Nat.le_refl _) h1.1, hx, hy]
theorem ruleOutOpt_safe : ∀ (c : Option (List Item)) (name ps es), Safe (.atRule name ps es c) →
    NoBracesL ps ∧ ∃ x, ruleOutOpt c = some x
  | none, _, _, _, h => ⟨h, ([], []), by simp [ruleOutOpt]⟩
  | some is, _, _, _, h => by
    obtain ⟨x, hx⟩ := ruleOut_safe is [] h.2
    exact ⟨h.1, x, by simpa only [ruleOutOpt] using hx⟩
end

theorem macroFn_safe {isExpr : RExpr → Bool} {ts : List Tree} (h : NoInnerBraces False False ts) :
    macroFn isExpr ts ≠ .panic := by
  unfold macroFn
  split
  · simp
  · rename_i is hp
    obtain ⟨x, hx⟩ := ruleOut_safe is [] (items_safe isExpr _ ts is hp h)
    rw [← rootOut_eq] at hx
    obtain ⟨y, hy, -⟩ := Option.map_eq_some_iff.1 hx
    split
    · rename_i hn; rw [hy] at hn; cases hn
    · simp
    · simp

/-! ## Order -/

theorem attrsOfL_append : ∀ x y : List ORBC, attrsOfL (x ++ y) = attrsOfL x ++ attrsOfL y
  | [], y => by simp [attrsOfL]
  | i :: x, y => by simp [attrsOfL, attrsOfL_append x y]

theorem declsOfL_append : ∀ x y : List SItem, declsOfL (x ++ y) = declsOfL x ++ declsOfL y
  | [], y => by simp [declsOfL]
  | i :: x, y => by simp [declsOfL, declsOfL_append x y]

theorem attrs_decls : ∀ ds : List SItem, (∀ d ∈ ds, IsDecl d) → attrsOfL (ds.map declOut) = declsOfL ds
  | [], _ => by simp [attrsOfL, declsOfL]
  | d :: ds, h => by
    have hd := h d List.mem_cons_self
    have ih := attrs_decls ds (fun x hx => h x (List.mem_cons_of_mem _ hx))
    cases d with
    | decl name vs => simp [attrsOfL, declsOfL, declOut, attrsOf, declsOf, ih]
    | _ => simp [IsDecl] at hd

theorem emitsIn_order {is : List SItem} {out : List ORBC} (h : EmitsIn is out) : attrsOfL out = declsOfL is := by
  induction h with
  | nil => simp [attrsOfL, declsOfL]
  | decl name vs is out h ih => simp [attrsOfL, declsOfL, declOut, attrsOf, declsOf, ih]
  | rule name ps body a is out h1 h2 ih1 ih2 => simp [attrsOfL, declsOfL, attrsOf, declsOf, ih1, ih2]

theorem emits_order {is : List SItem} {out : List ORBC} (h : Emits is out) : attrsOfL out = declsOfL is := by
  induction h with
  | nil => simp [attrsOfL, declsOfL]
  | decls ds is out hne hds hhd h ih =>
    rw [declsOfL_append, attrsOfL, attrsOf, attrs_decls ds hds, ih]
  | rule name ps body a is out h1 h2 ih1 ih2 => simp [attrsOfL, declsOfL, attrsOf, declsOf, ih1, ih2]
  | block qs body a is out h1 h2 ih2 => simp [attrsOfL, declsOfL, attrsOf, declsOf, emitsIn_order h1, ih2]

end Inline
