import Verif.Model.Parser
import Verif.Proofs.Nom

/-! # Facts about the css parser: progress, blanks and budgets -/

namespace ParserP
open Nom NomP Css

variable {α β γ : Type}

/-! ## Suffixes -/

theorem suff_nonEmpty {p : Parser α} (hp : Suff p) : Suff (nonEmpty p) := by
  intro i r a h
  unfold nonEmpty at h
  split at h
  · simp at h
  · exact hp _ _ _ h

theorem nonEmpty_some {p : Parser α} {i r : Str} {a : α} :
    nonEmpty p i = some (r, a) ↔ i ≠ [] ∧ p i = some (r, a) := by
  cases i <;> simp [nonEmpty]

theorem nonEmpty_cons (p : Parser α) {i : Str} (h : i ≠ []) : nonEmpty p i = p i := by
  cases i with
  | nil => exact absurd rfl h
  | cons _ _ => rfl

theorem prog_nonEmpty {p : Parser α} (hp : Prog p) : Prog (nonEmpty p) := by
  intro i r a h
  exact hp _ _ _ (nonEmpty_some.1 h).2

theorem suff_cmt : Suff cmt :=
  suff_delimited (suff_tag _) (suff_recognize (suff_many0 (suff_alt (suff_isNot _)
    (suff_terminated (suff_tag _) suff_not)))) (suff_tag _)

theorem prog_cmt : Prog cmt := by
  refine prog_preceded_left (prog_tag (by simp)) ?_
  exact suff_terminated (suff_recognize (suff_many0 (suff_alt (suff_isNot _)
    (suff_terminated (suff_tag _) suff_not)))) (suff_tag _)

theorem suff_spPiece : Suff (alt (takeWhile1 (fun c => (c! " \t\r\n").elem c)) cmt) :=
  suff_alt (suff_takeWhile1 _) suff_cmt
theorem prog_spPiece : Prog (alt (takeWhile1 (fun c => (c! " \t\r\n").elem c)) cmt) :=
  prog_alt (prog_takeWhile1 _) prog_cmt

theorem suff_sp : Suff sp := suff_recognize (suff_many0 suff_spPiece)

theorem suff_trimmed {p : Parser α} (hp : Suff p) : Suff (trimmed p) :=
  suff_delimited suff_sp hp suff_sp

theorem prog_trimmed {p : Parser α} (hp : Prog p) : Prog (trimmed p) :=
  prog_preceded_right suff_sp (prog_terminated_left hp suff_sp)

theorem suff_ident : Suff ident :=
  suff_recognize (suff_preceded
    (suff_alt (suff_tag _) (suff_alt (suff_tag _) (suff_alt (suff_takeWhile1 _) (suff_takeWhile1 _))))
    (suff_many0 (suff_alt (suff_tag _) (suff_alt (suff_tag _)
      (suff_alt (suff_takeWhile1 _) (suff_takeWhile1 _))))))

theorem prog_ident : Prog ident :=
  prog_recognize (prog_preceded_left
    (prog_alt (prog_tag (by simp)) (prog_alt (prog_tag (by simp))
      (prog_alt (prog_takeWhile1 _) (prog_takeWhile1 _))))
    (suff_many0 (suff_alt (suff_tag _) (suff_alt (suff_tag _)
      (suff_alt (suff_takeWhile1 _) (suff_takeWhile1 _))))))

theorem suff_stringPiece : Suff (alt (isNot (c! "\\\""))
    (recognize (preceded (tag (c! "\\")) anychar))) :=
  suff_alt (suff_isNot _) (suff_recognize (suff_preceded (suff_tag _) suff_anychar))

theorem prog_stringPiece : Prog (alt (isNot (c! "\\\""))
    (recognize (preceded (tag (c! "\\")) anychar))) :=
  prog_alt (prog_isNot _) (prog_recognize (prog_preceded_left (prog_tag (by simp)) suff_anychar))

theorem suff_string : Suff Css.string :=
  suff_trimmed (suff_nonEmpty (suff_recognize (suff_preceded (suff_tag _)
    (suff_terminated (suff_many0 suff_stringPiece) (suff_tag _)))))

theorem prog_string : Prog Css.string :=
  prog_trimmed (prog_nonEmpty (prog_recognize (prog_preceded_left (prog_tag (by simp))
    (suff_terminated (suff_many0 suff_stringPiece) (suff_tag _)))))

theorem suff_interpolation : Suff interpolation :=
  suff_trimmed (suff_nonEmpty (suff_delimited (suff_tag _)
    (suff_trimmed (suff_recognize (suff_preceded (suff_takeWhile1 _)
      (suff_many0 (suff_alt (suff_takeWhile1 _) (suff_tag _)))))) (suff_tag _)))

theorem prog_interpolation : Prog interpolation := by
  refine prog_trimmed (prog_nonEmpty (prog_preceded_left (prog_tag (by simp)) ?_))
  exact suff_terminated (suff_trimmed (suff_recognize (suff_preceded (suff_takeWhile1 _)
      (suff_many0 (suff_alt (suff_takeWhile1 _) (suff_tag _)))))) (suff_tag _)

theorem suff_valuePiece : Suff valuePiece :=
  suff_alt (suff_isNot _) (suff_alt (suff_recognize suff_interpolation) (suff_alt suff_string
    (suff_recognize (suff_preceded (suff_tag _) (suff_noneOf _)))))

theorem prog_valuePiece : Prog valuePiece :=
  prog_alt (prog_isNot _) (prog_alt (prog_recognize prog_interpolation) (prog_alt prog_string
    (prog_recognize (prog_preceded_left (prog_tag (by simp)) (suff_noneOf _)))))

theorem suff_styleAttrValue : Suff styleAttrValue :=
  suff_trimmed (suff_map (suff_recognize (suff_many1 suff_valuePiece)))

theorem suff_attributePair : Suff (separatedPair styleAttrKey (tag (c! ":")) styleAttrValue) :=
  suff_separatedPair (suff_trimmed suff_ident) (suff_tag _) suff_styleAttrValue

theorem suff_styleAttribute : Suff styleAttribute :=
  suff_trimmed (suff_nonEmpty (suff_map suff_attributePair))

theorem prog_styleAttribute : Prog styleAttribute :=
  prog_trimmed (prog_nonEmpty (prog_map (prog_pair_left (prog_trimmed prog_ident)
    (suff_preceded (suff_tag _) suff_styleAttrValue))))

theorem suff_finalSemicolon (d : Bool) : Suff (finalSemicolon d) := by
  unfold finalSemicolon
  split
  · exact suff_map (suff_tag _)
  · exact suff_opt (suff_tag _)

theorem suff_attributes (d : Bool) : Suff (attributes d) :=
  suff_trimmed (suff_nonEmpty (suff_terminated (suff_separatedList1 (suff_tag _) suff_styleAttribute)
    (suff_preceded (suff_opt suff_sp) (suff_finalSemicolon d))))

theorem prog_attributes (d : Bool) : Prog (attributes d) :=
  prog_trimmed (prog_nonEmpty (prog_terminated_left
    (prog_separatedList1 (suff_tag _) suff_styleAttribute prog_styleAttribute)
    (suff_preceded (suff_opt suff_sp) (suff_finalSemicolon d))))

theorem suff_selectorPiece : Suff selectorPiece :=
  suff_alt (suff_recognize (suff_preceded (suff_noneOf _) (suff_opt (suff_isNot _))))
    (suff_alt suff_string (suff_recognize suff_interpolation))

theorem prog_selectorPiece : Prog selectorPiece :=
  prog_alt (prog_recognize (prog_preceded_left (prog_noneOf _) (suff_opt (suff_isNot _))))
    (prog_alt prog_string (prog_recognize prog_interpolation))

theorem suff_selector : Suff selector :=
  suff_trimmed (suff_nonEmpty (suff_map (suff_recognize (suff_many1 suff_selectorPiece))))

theorem prog_selector : Prog selector :=
  prog_trimmed (prog_nonEmpty (prog_map (prog_recognize (prog_many1 suff_selectorPiece prog_selectorPiece))))

theorem suff_conditionPiece : Suff (terminated selector (opt (tag (c! ",")))) :=
  suff_terminated suff_selector (suff_opt (suff_tag _))
theorem prog_conditionPiece : Prog (terminated selector (opt (tag (c! ",")))) :=
  prog_terminated_left prog_selector (suff_opt (suff_tag _))

theorem suff_condition : Suff condition :=
  suff_trimmed (suff_nonEmpty (suff_many1 suff_conditionPiece))
theorem prog_condition : Prog condition :=
  prog_trimmed (prog_nonEmpty (prog_many1 suff_conditionPiece prog_conditionPiece))

theorem suff_atRulePiece : Suff atRulePiece :=
  suff_alt (suff_isNot _) (suff_recognize suff_interpolation)
theorem prog_atRulePiece : Prog atRulePiece :=
  prog_alt (prog_isNot _) (prog_recognize prog_interpolation)

theorem suff_atRuleCondition {t : Parser Str} (h : Suff t) : Suff (atRuleCondition t) :=
  suff_trimmed (suff_nonEmpty (suff_map (suff_pair (suff_recognize (suff_terminated h (suff_tag _)))
    (suff_map (suff_recognize (suff_many1 suff_atRulePiece))))))
theorem prog_atRuleCondition {t : Parser Str} (h : Suff t) : Prog (atRuleCondition t) :=
  prog_trimmed (prog_nonEmpty (prog_map (prog_pair_right
    (suff_recognize (suff_terminated h (suff_tag _)))
    (prog_map (prog_recognize (prog_many1 suff_atRulePiece prog_atRulePiece))))))

theorem suff_otherTags :
    Suff (alt (tag (c! "@container")) (alt (tag (c! "@media")) (tag (c! "@supports")))) :=
  suff_alt (suff_tag _) (suff_alt (suff_tag _) (suff_tag _))
theorem suff_otherCondition : Suff otherCondition := suff_atRuleCondition suff_otherTags

theorem suff_contentsWith {rb : Parser RuleP} (h : Suff rb) : Suff (contentsWith rb) :=
  suff_map (suff_many0 (suff_alt (suff_map (suff_attributes _)) (suff_map h)))

theorem suff_ruleBlockWith {c : Parser (List Str)} {rb : Parser RuleP} (hc : Suff c) (h : Suff rb) :
    Suff (ruleBlockWith c rb) :=
  suff_trimmed (suff_nonEmpty (suff_separatedPair hc (suff_tag _)
    (suff_terminated (suff_nonEmpty (suff_contentsWith h)) (suff_tag _))))

theorem prog_ruleBlockWith {c : Parser (List Str)} {rb : Parser RuleP} (hc : Suff c) (h : Suff rb) :
    Prog (ruleBlockWith c rb) :=
  prog_trimmed (prog_nonEmpty (prog_pair_right hc (prog_preceded_left (prog_tag (by simp))
    (suff_terminated (suff_nonEmpty (suff_contentsWith h)) (suff_tag _)))))

theorem suff_ruleBlock : ∀ n, Suff (ruleBlock n)
  | 0 => suff_fail
  | n + 1 => suff_ruleBlockWith suff_otherCondition (suff_ruleBlock n)

theorem prog_ruleBlock : ∀ n, Prog (ruleBlock n)
  | 0 => prog_fail
  | n + 1 => prog_ruleBlockWith suff_otherCondition (suff_ruleBlock n)

theorem suff_frameCondition : Suff (map (recognize condition) (fun m => [Str.trim m])) :=
  suff_map (suff_recognize suff_condition)

theorem suff_ruleBlockKeyframes (n : Nat) : Suff (ruleBlockKeyframes n) :=
  suff_ruleBlockWith suff_frameCondition (suff_ruleBlock n)
theorem prog_ruleBlockKeyframes (n : Nat) : Prog (ruleBlockKeyframes n) :=
  prog_ruleBlockWith suff_frameCondition (suff_ruleBlock n)

theorem suff_blockContents (n : Nat) : Suff (blockContents n) :=
  suff_trimmed (suff_nonEmpty (suff_contentsWith (suff_ruleBlock n)))

theorem suff_block (n : Nat) : Suff (block n) :=
  suff_trimmed (suff_nonEmpty (suff_map (suff_pair suff_condition
    (suff_delimited (suff_tag _) (suff_trimmed (suff_blockContents n)) (suff_tag _)))))

theorem prog_block (n : Nat) : Prog (block n) :=
  prog_trimmed (prog_nonEmpty (prog_map (prog_pair_left prog_condition
    (suff_delimited (suff_tag _) (suff_trimmed (suff_blockContents n)) (suff_tag _)))))

theorem suff_danglingBlock : Suff danglingBlock :=
  suff_trimmed (suff_nonEmpty (suff_map (suff_attributes _)))
theorem prog_danglingBlock : Prog danglingBlock :=
  prog_trimmed (prog_nonEmpty (prog_map (prog_attributes _)))

theorem suff_keyframesTag : Suff (alt (tag (c! "@keyframes")) fail) := suff_alt (suff_tag _) suff_fail

theorem suff_keyframes (n : Nat) : Suff (keyframes n) :=
  suff_map (suff_trimmed (suff_separatedPair (suff_atRuleCondition suff_keyframesTag) (suff_tag _)
    (suff_terminated (suff_many0 (suff_ruleBlockKeyframes n)) (suff_tag _))))
theorem prog_keyframes (n : Nat) : Prog (keyframes n) :=
  prog_map (prog_trimmed (prog_pair_left (prog_atRuleCondition suff_keyframesTag)
    (suff_preceded (suff_tag _)
      (suff_terminated (suff_many0 (suff_ruleBlockKeyframes n)) (suff_tag _)))))

theorem suff_scopeTags :
    Suff (alt (tag (c! "@container")) (alt (tag (c! "@supports")) (tag (c! "@media")))) :=
  suff_alt (suff_tag _) (suff_alt (suff_tag _) (suff_tag _))

theorem suff_atRuleWith {sc : Parser (List ScopeContent)} (h : Suff sc) : Suff (atRuleWith sc) :=
  suff_trimmed (suff_nonEmpty (suff_map (suff_separatedPair (suff_atRuleCondition suff_scopeTags)
    (suff_tag _) (suff_terminated h (suff_tag _)))))
theorem prog_atRuleWith {sc : Parser (List ScopeContent)} (h : Suff sc) : Prog (atRuleWith sc) :=
  prog_trimmed (prog_nonEmpty (prog_map (prog_pair_left (prog_atRuleCondition suff_scopeTags)
    (suff_preceded (suff_tag _) (suff_terminated h (suff_tag _))))))

theorem suff_scopeItemWith (n : Nat) {sc : Parser (List ScopeContent)} (h : Suff sc) :
    Suff (scopeItemWith n sc) :=
  suff_alt suff_danglingBlock (suff_alt (suff_block n) (suff_alt (suff_atRuleWith h) (suff_keyframes n)))
theorem prog_scopeItemWith (n : Nat) {sc : Parser (List ScopeContent)} (h : Suff sc) :
    Prog (scopeItemWith n sc) :=
  prog_alt prog_danglingBlock (prog_alt (prog_block n) (prog_alt (prog_atRuleWith h) (prog_keyframes n)))

theorem suff_scopeContents : ∀ n, Suff (scopeContents n)
  | 0 => suff_fail
  | n + 1 => suff_trimmed (suff_nonEmpty (suff_many0 (suff_scopeItemWith n (suff_scopeContents n))))

theorem suff_scope (n : Nat) : Suff (scope n) := suff_trimmed (suff_nonEmpty (suff_scopeContents n))

theorem suff_sheet (n : Nat) : Suff (sheet n) := suff_trimmed (suff_map (suff_many0 (suff_scope n)))

/-! ## Blanks -/

/-- What `sp` leaves. -/
def spRest (i : Str) : Str := ((sp i).map Prod.fst).getD i

theorem sp_total (i : Str) : ∃ t, sp i = some (spRest i, t) := by
  obtain ⟨r, as, h, -⟩ := many0_total suff_spPiece prog_spPiece i
  have : sp i = some (r, i.take (i.length - r.length)) := recognize_some.2 ⟨as, h, rfl⟩
  exact ⟨_, by rw [spRest, this]; rfl⟩

theorem spRest_of_many0 {i r : Str} {as : List Str}
    (h : many0 (alt (takeWhile1 (fun c => (c! " \t\r\n").elem c)) cmt) i = some (r, as)) :
    spRest i = r := by
  have : sp i = some (r, i.take (i.length - r.length)) := recognize_some.2 ⟨as, h, rfl⟩
  rw [spRest, this]; rfl

theorem spRest_le (i : Str) : (spRest i).length ≤ i.length := by
  obtain ⟨t, h⟩ := sp_total i
  exact suff_sp.le h

theorem spRest_suffix (i : Str) : spRest i <:+ i := by
  obtain ⟨t, h⟩ := sp_total i
  exact suff_sp _ _ _ h

theorem spRest_step {i r a : Str}
    (h : alt (takeWhile1 (fun c => (c! " \t\r\n").elem c)) cmt i = some (r, a)) :
    spRest i = spRest r := by
  obtain ⟨r', as, h1, h2⟩ := many0_total suff_spPiece prog_spPiece r
  rw [spRest_of_many0 h1]
  exact spRest_of_many0 (by rw [many0_step suff_spPiece prog_spPiece h, h1])

theorem spRest_stop {i : Str}
    (h : alt (takeWhile1 (fun c => (c! " \t\r\n").elem c)) cmt i = none) : spRest i = i :=
  spRest_of_many0 (many0_stop suff_spPiece h)

theorem spRest_end (i : Str) :
    alt (takeWhile1 (fun c => (c! " \t\r\n").elem c)) cmt (spRest i) = none := by
  obtain ⟨r, as, h, h2⟩ := many0_total suff_spPiece prog_spPiece i
  rw [spRest_of_many0 h]
  exact h2

theorem spRest_idem (i : Str) : spRest (spRest i) = spRest i := spRest_stop (spRest_end i)

theorem trimmed_some {f : Parser α} {i r : Str} {a : α} :
    trimmed f i = some (r, a) ↔ ∃ r', f (spRest i) = some (r', a) ∧ r = spRest r' := by
  unfold trimmed
  rw [delimited_some]
  obtain ⟨t, ht⟩ := sp_total i
  constructor
  · rintro ⟨r1, _, r2, _, h1, h2, h3⟩
    rw [ht] at h1
    simp only [Option.some.injEq, Prod.mk.injEq] at h1
    obtain ⟨t2, ht2⟩ := sp_total r2
    rw [ht2] at h3
    simp only [Option.some.injEq, Prod.mk.injEq] at h3
    exact ⟨r2, by rw [h1.1]; exact h2, h3.1.symm⟩
  · rintro ⟨r', h, rfl⟩
    obtain ⟨t2, ht2⟩ := sp_total r'
    exact ⟨_, _, _, _, ht, h, ht2⟩

theorem trimmed_none {f : Parser α} {i : Str} : trimmed f i = none ↔ f (spRest i) = none := by
  constructor
  · intro h
    cases hf : f (spRest i) with
    | none => rfl
    | some x =>
      have : trimmed f i = some (spRest x.1, x.2) := trimmed_some.2 ⟨x.1, hf, rfl⟩
      rw [h] at this; cases this
  · intro h
    cases hf : trimmed f i with
    | none => rfl
    | some x =>
      obtain ⟨r', h', -⟩ := trimmed_some.1 (show trimmed f i = some (x.1, x.2) from hf)
      rw [h] at h'; cases h'

theorem trimmed_eq_of_spRest {f : Parser α} {i j : Str} (h : spRest i = spRest j) :
    trimmed f i = trimmed f j := by
  cases hf : f (spRest j) with
  | none => rw [trimmed_none.2 (h ▸ hf), trimmed_none.2 hf]
  | some x =>
    rw [trimmed_some.2 ⟨x.1, hf, rfl⟩]
    exact trimmed_some.2 ⟨x.1, by rw [h]; exact hf, rfl⟩

theorem trimmed_congr {f g : Parser α} {i : Str} (h : f (spRest i) = g (spRest i)) :
    trimmed f i = trimmed g i := by
  cases hf : g (spRest i) with
  | none => rw [trimmed_none.2 (h.trans hf), trimmed_none.2 hf]
  | some x => rw [trimmed_some.2 ⟨x.1, hf, rfl⟩, trimmed_some.2 ⟨x.1, h.trans hf, rfl⟩]

theorem nonEmpty_congr {f g : Parser α} {i : Str} (h : f i = g i) : nonEmpty f i = nonEmpty g i := by
  cases i with
  | nil => rfl
  | cons _ _ => exact h

/-! ## Budgets -/

theorem contentsWith_congr {rb rb' : Parser RuleP} (h1 : Suff rb) (h2 : Suff rb') (i : Str)
    (h : ∀ j : Str, j.length ≤ i.length → rb j = rb' j) : contentsWith rb i = contentsWith rb' i := by
  refine map_congr (many0_congr ?_ ?_ i ?_)
  · exact suff_alt (suff_map (suff_attributes _)) (suff_map h1)
  · exact suff_alt (suff_map (suff_attributes _)) (suff_map h2)
  · intro j hj
    exact alt_congr rfl (map_congr (h j hj))

theorem ruleBlockWith_congr {c : Parser (List Str)} {rb rb' : Parser RuleP} (hc : Suff c)
    (h1 : Suff rb) (h2 : Suff rb') (i : Str)
    (h : ∀ j : Str, j.length < i.length → rb j = rb' j) :
    ruleBlockWith c rb i = ruleBlockWith c rb' i := by
  refine trimmed_congr (nonEmpty_congr (separatedPair_congr _ ?_))
  intro r1 a r2 b e1 e2
  have l0 := spRest_le i
  have l1 := hc.le e1
  have l2 := prog_tag (t := c! "{") (by simp) _ _ _ e2
  refine terminated_congr (nonEmpty_congr (contentsWith_congr h1 h2 r2 ?_))
  intro j hj
  exact h j (by omega)

theorem ruleBlock_budget : ∀ (n m : Nat) (i : Str), i.length < n → i.length < m →
    ruleBlock n i = ruleBlock m i
  | 0, _, _, h, _ => absurd h (Nat.not_lt_zero _)
  | _ + 1, 0, _, _, h => absurd h (Nat.not_lt_zero _)
  | n + 1, m + 1, i, hn, hm => by
    refine ruleBlockWith_congr suff_otherCondition (suff_ruleBlock n) (suff_ruleBlock m) i ?_
    intro j hj
    exact ruleBlock_budget n m j (by omega) (by omega)

theorem ruleBlockKeyframes_budget (n m : Nat) (i : Str) (hn : i.length ≤ n) (hm : i.length ≤ m) :
    ruleBlockKeyframes n i = ruleBlockKeyframes m i := by
  refine ruleBlockWith_congr suff_frameCondition (suff_ruleBlock n) (suff_ruleBlock m) i ?_
  intro j hj
  exact ruleBlock_budget n m j (by omega) (by omega)

theorem block_budget (n m : Nat) (i : Str) (hn : i.length ≤ n) (hm : i.length ≤ m) :
    block n i = block m i := by
  refine trimmed_congr (nonEmpty_congr (map_congr (pair_congr _ ?_)))
  intro r a e
  have l0 := spRest_le i
  have l1 := prog_condition _ _ _ e
  refine delimited_congr r ?_
  intro r2 b e2
  have l2 := (suff_tag _).le e2
  refine trimmed_congr (trimmed_congr (nonEmpty_congr
    (contentsWith_congr (suff_ruleBlock n) (suff_ruleBlock m) _ ?_)))
  intro j hj
  have l3 := spRest_le (spRest r2)
  have l4 := spRest_le r2
  exact ruleBlock_budget n m j (by omega) (by omega)

theorem keyframes_budget (n m : Nat) (i : Str) (hn : i.length ≤ n) (hm : i.length ≤ m) :
    keyframes n i = keyframes m i := by
  refine map_congr (trimmed_congr (separatedPair_congr _ ?_))
  intro r1 a r2 b e1 e2
  have l0 := spRest_le i
  have l1 := (suff_atRuleCondition suff_keyframesTag).le e1
  have l2 := (suff_tag _).le e2
  refine terminated_congr (many0_congr (suff_ruleBlockKeyframes n) (suff_ruleBlockKeyframes m) r2 ?_)
  intro j hj
  exact ruleBlockKeyframes_budget n m j (by omega) (by omega)

theorem scopeItemWith_congr {n m : Nat} {sc sc' : Parser (List ScopeContent)} (i : Str)
    (hn : i.length ≤ n) (hm : i.length ≤ m) (h : ∀ j : Str, j.length < i.length → sc j = sc' j) :
    scopeItemWith n sc i = scopeItemWith m sc' i := by
  refine alt_congr rfl (alt_congr (block_budget n m i hn hm) (alt_congr ?_ (keyframes_budget n m i hn hm)))
  refine trimmed_congr (nonEmpty_congr (map_congr (separatedPair_congr _ ?_)))
  intro r1 a r2 b e1 e2
  have l0 := spRest_le i
  have l1 := prog_atRuleCondition suff_scopeTags _ _ _ e1
  have l2 := (suff_tag _).le e2
  exact terminated_congr (h r2 (by omega))

theorem scopeContents_budget : ∀ (n m : Nat) (i : Str), i.length < n → i.length < m →
    scopeContents n i = scopeContents m i
  | 0, _, _, h, _ => absurd h (Nat.not_lt_zero _)
  | _ + 1, 0, _, _, h => absurd h (Nat.not_lt_zero _)
  | n + 1, m + 1, i, hn, hm => by
    refine trimmed_congr (nonEmpty_congr (many0_congr (suff_scopeItemWith n (suff_scopeContents n))
      (suff_scopeItemWith m (suff_scopeContents m)) _ ?_))
    intro j hj
    have l0 := spRest_le i
    refine scopeItemWith_congr j (by omega) (by omega) ?_
    intro k hk
    exact scopeContents_budget n m k (by omega) (by omega)

theorem sheet_budget (n m : Nat) (i : Str) (hn : i.length < n) (hm : i.length < m) :
    sheet n i = sheet m i := by
  refine trimmed_congr (map_congr (many0_congr (suff_scope n) (suff_scope m) _ ?_))
  intro j hj
  have l0 := spRest_le i
  refine trimmed_congr (nonEmpty_congr ?_)
  have l1 := spRest_le j
  exact scopeContents_budget n m _ (by omega) (by omega)

/-! ## All input is consumed -/

theorem scope_total (n : Nat) {i : Str} (h : spRest i ≠ []) :
    ∃ r l, scope (n + 1) i = some (r, l) := by
  obtain ⟨r, as, h1, -⟩ := many0_total (suff_scopeItemWith n (suff_scopeContents n))
    (prog_scopeItemWith n (suff_scopeContents n)) (spRest i)
  refine ⟨spRest (spRest r), as, trimmed_some.2 ⟨spRest r, nonEmpty_some.2 ⟨h, ?_⟩, rfl⟩⟩
  refine trimmed_some.2 ⟨r, nonEmpty_some.2 ⟨?_, ?_⟩, rfl⟩
  · rw [spRest_idem]; exact h
  · rw [spRest_idem]; exact h1

theorem sheet_consumes (n : Nat) {i r : Str} {s : Sheet} (h : sheet (n + 1) i = some (r, s)) :
    r = [] := by
  obtain ⟨r', h1, rfl⟩ := trimmed_some.1 h
  obtain ⟨as, h2, -⟩ := map_some.1 h1
  have h3 := many0_stops (suff_scope _) h2
  cases hr : spRest r' with
  | nil => rfl
  | cons c t =>
    exfalso
    obtain ⟨r2, l, h4⟩ := scope_total n (i := r') (by rw [hr]; simp)
    rw [h3] at h4; cases h4

/-! ## Leading blanks -/

theorem spRest_ws {c : Char} (hc : (c! " \t\r\n").elem c = true) (i : Str) :
    spRest (c :: i) = spRest i := by
  have key : ∀ j : Str, spRest j = spRest (j.dropWhile (fun c => (c! " \t\r\n").elem c)) := by
    intro j
    cases h : j.takeWhile (fun c => (c! " \t\r\n").elem c) with
    | nil =>
      have e := List.takeWhile_append_dropWhile (p := fun c => (c! " \t\r\n").elem c) (l := j)
      rw [h] at e
      simp only [List.nil_append] at e
      rw [e]
    | cons d t =>
      refine spRest_step (alt_some.2 (Or.inl (takeWhile1_some.2 ⟨h.symm, rfl, by simp⟩)))
  rw [key (c :: i), key i, List.dropWhile_cons, if_pos hc]

/-- The parser of the characters inside a comment. -/
def cmtPiece : Parser Str := alt (isNot (c! "*")) (terminated (tag (c! "*")) (Nom.not (tag (c! "/"))))

theorem suff_cmtPiece : Suff cmtPiece := suff_alt (suff_isNot _) (suff_terminated (suff_tag _) suff_not)
theorem prog_cmtPiece : Prog cmtPiece := prog_alt (prog_isNot _)
  (prog_terminated_left (prog_tag (by simp)) suff_not)

end ParserP
