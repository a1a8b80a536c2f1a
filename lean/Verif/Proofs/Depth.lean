import Verif.Model.Depth
import Verif.Spec.Depth
import Verif.Proofs.Rejected

/-!
# Lemmas for C95
-/

namespace DepthP

open Nom NomP ParserP LexP HeadersP ReparseP RejectedP

variable {α β γ : Type}

/-- A limited parser gives the result of a parser, unless its stack is exhausted. -/
def Ok (l : Limited α) (p : Parser α) : Prop := ∀ i, l i = none ∨ l i = some (p i)

theorem ok_lift (p : Parser α) : Ok (Depth.lift p) p := fun _ => .inr rfl

theorem ok_exhausted (p : Parser α) : Ok Depth.exhausted p := fun _ => .inl rfl

theorem ok_map {l : Limited α} {p : Parser α} (h : Ok l p) (f : α → β) : Ok (Depth.map l f) (map p f) := by
  intro i
  unfold Depth.map map
  rcases h i with e | e <;> rw [e]
  · exact .inl rfl
  · right
    rcases p i with _ | ⟨r, a⟩ <;> rfl

theorem ok_alt {l m : Limited α} {p q : Parser α} (h : Ok l p) (h' : Ok m q) : Ok (Depth.alt l m) (alt p q) := by
  intro i
  unfold Depth.alt alt
  rcases h i with e | e <;> rw [e]
  · exact .inl rfl
  · rcases p i with _ | x
    · exact h' i
    · exact .inr rfl

theorem ok_pair {l : Limited α} {m : Limited β} {p : Parser α} {q : Parser β} (h : Ok l p) (h' : Ok m q) :
    Ok (Depth.pair l m) (pair p q) := by
  intro i
  unfold Depth.pair pair
  rcases h i with e | e <;> rw [e]
  · exact .inl rfl
  · rcases p i with _ | ⟨r, a⟩
    · exact .inr rfl
    · simp only
      rcases h' r with e' | e' <;> rw [e']
      · exact .inl rfl
      · right
        rcases q r with _ | ⟨r', b⟩ <;> rfl

theorem ok_preceded {l : Limited α} {m : Limited β} {p : Parser α} {q : Parser β} (h : Ok l p) (h' : Ok m q) :
    Ok (Depth.preceded l m) (preceded p q) := ok_map (ok_pair h h') _

theorem ok_terminated {l : Limited α} {m : Limited β} {p : Parser α} {q : Parser β} (h : Ok l p) (h' : Ok m q) :
    Ok (Depth.terminated l m) (terminated p q) := ok_map (ok_pair h h') _

theorem ok_delimited {l : Limited α} {m : Limited β} {k : Limited γ} {p : Parser α} {q : Parser β} {s : Parser γ}
    (h : Ok l p) (h' : Ok m q) (h'' : Ok k s) : Ok (Depth.delimited l m k) (delimited p q s) :=
  ok_preceded h (ok_terminated h' h'')

theorem ok_separatedPair {l : Limited α} {m : Limited β} {k : Limited γ} {p : Parser α} {q : Parser β} {s : Parser γ}
    (h : Ok l p) (h' : Ok m q) (h'' : Ok k s) : Ok (Depth.separatedPair l m k) (separatedPair p q s) :=
  ok_pair h (ok_preceded h' h'')

theorem ok_nonEmpty {l : Limited α} {p : Parser α} (h : Ok l p) : Ok (Depth.nonEmpty l) (Css.nonEmpty p) := by
  intro i
  cases i with
  | nil => exact .inr rfl
  | cons c t => exact h (c :: t)

theorem ok_trimmed {l : Limited α} {p : Parser α} (h : Ok l p) : Ok (Depth.trimmed l) (Css.trimmed p) :=
  ok_delimited (ok_lift _) h (ok_lift _)

theorem ok_many0Loop {l : Limited α} {p : Parser α} (h : Ok l p) : ∀ n, Ok (Depth.many0Loop l n) (many0Loop p n)
  | 0 => fun _ => .inr rfl
  | n + 1 => by
    intro i
    unfold Depth.many0Loop many0Loop
    rcases h i with e | e <;> rw [e]
    · exact .inl rfl
    · rcases p i with _ | ⟨r, a⟩
      · exact .inr rfl
      · simp only
        split
        · exact .inr rfl
        · rcases ok_many0Loop h n r with e' | e' <;> rw [e']
          · exact .inl rfl
          · right
            rcases many0Loop p n r with _ | ⟨r', b⟩ <;> rfl

theorem ok_many0 {l : Limited α} {p : Parser α} (h : Ok l p) : Ok (Depth.many0 l) (many0 p) :=
  fun i => ok_many0Loop h _ i

theorem ok_contentsWith {l : Limited Css.RuleP} {p : Parser Css.RuleP} (h : Ok l p) :
    Ok (Depth.contentsWith l) (Css.contentsWith p) :=
  ok_map (ok_many0 (ok_alt (ok_lift _) (ok_map h _))) _

theorem ok_ruleBlockWith {c : Parser (List Str)} {l : Limited Css.RuleP} {p : Parser Css.RuleP} (h : Ok l p) :
    Ok (Depth.ruleBlockWith c l) (Css.ruleBlockWith c p) :=
  ok_trimmed (ok_nonEmpty (ok_separatedPair (ok_lift _) (ok_lift _)
    (ok_terminated (ok_nonEmpty (ok_contentsWith h)) (ok_lift _))))

theorem ok_ruleBlock : ∀ {n m : Nat}, n ≤ m → Ok (Depth.ruleBlock n) (Css.ruleBlock m)
  | 0, _, _ => ok_exhausted _
  | n + 1, 0, h => absurd h (by omega)
  | n + 1, m + 1, h => ok_ruleBlockWith (ok_ruleBlock (Nat.le_of_succ_le_succ h))

theorem ok_ruleBlockKeyframes : ∀ {n m : Nat}, n ≤ m → Ok (Depth.ruleBlockKeyframes n) (Css.ruleBlockKeyframes m)
  | 0, _, _ => ok_exhausted _
  | n + 1, m, h => ok_ruleBlockWith (ok_ruleBlock (show n ≤ m by omega))

theorem ok_block {n m : Nat} (h : n ≤ m) : Ok (Depth.block n) (Css.block m) :=
  ok_trimmed (ok_nonEmpty (ok_map (ok_pair (ok_lift _) (ok_delimited (ok_lift _)
    (ok_trimmed (ok_trimmed (ok_nonEmpty (ok_contentsWith (ok_ruleBlock h))))) (ok_lift _))) _))

theorem ok_keyframes {n m : Nat} (h : n ≤ m) : Ok (Depth.keyframes n) (Css.keyframes m) :=
  ok_map (ok_trimmed (ok_separatedPair (ok_lift _) (ok_lift _)
    (ok_terminated (ok_many0 (ok_ruleBlockKeyframes h)) (ok_lift _)))) _

theorem ok_atRuleWith {l : Limited (List ScopeContent)} {p : Parser (List ScopeContent)} (h : Ok l p) :
    Ok (Depth.atRuleWith l) (Css.atRuleWith p) :=
  ok_trimmed (ok_nonEmpty (ok_map (ok_separatedPair (ok_lift _) (ok_lift _) (ok_terminated h (ok_lift _))) _))

theorem ok_item {n m : Nat} (h : n ≤ m) {l : Limited (List ScopeContent)} {p : Parser (List ScopeContent)} (hl : Ok l p) :
    Ok (Depth.scopeItemWith n l) (Css.scopeItemWith m p) :=
  ok_alt (ok_lift _) (ok_alt (ok_block h) (ok_alt (ok_atRuleWith hl) (ok_keyframes h)))

theorem ok_scopeContents : ∀ {n m : Nat}, n ≤ m → Ok (Depth.scopeContents n) (Css.scopeContents m)
  | 0, _, _ => ok_exhausted _
  | n + 1, 0, h => absurd h (by omega)
  | n + 1, m + 1, h =>
    ok_trimmed (ok_nonEmpty (ok_many0 (ok_item (Nat.le_of_succ_le_succ h) (ok_scopeContents (Nat.le_of_succ_le_succ h)))))

theorem ok_scope {n m : Nat} (h : n ≤ m) : Ok (Depth.scope n) (Css.scope m) :=
  ok_trimmed (ok_nonEmpty (ok_scopeContents h))

theorem ok_sheet {n m : Nat} (h : n ≤ m) : Ok (Depth.sheet n) (Css.sheet m) :=
  ok_trimmed (ok_map (ok_many0 (ok_scope h)) _)

/-! ## Where the stack is exhausted -/

theorem map_out {l : Limited α} {f : α → β} {i : Str} : Depth.map l f i = none ↔ l i = none := by
  unfold Depth.map
  rcases l i with _ | _ | ⟨r, a⟩ <;> simp

theorem alt_out {l m : Limited α} {i : Str} : Depth.alt l m i = none ↔ l i = none ∨ (l i = some none ∧ m i = none) := by
  unfold Depth.alt
  rcases l i with _ | _ | x <;> simp

theorem alt_lift_out {p : Parser α} {m : Limited α} {i : Str} :
    Depth.alt (Depth.lift p) m i = none ↔ p i = none ∧ m i = none := by
  rw [alt_out]
  simp [Depth.lift]

theorem pair_out {p : Parser α} {m : Limited β} {i : Str} :
    Depth.pair (Depth.lift p) m i = none ↔ ∃ r a, p i = some (r, a) ∧ m r = none := by
  unfold Depth.pair Depth.lift
  rcases p i with _ | ⟨r, a⟩
  · simp
  · rcases h : m r with _ | _ | ⟨r', b⟩ <;> simp [h]

theorem preceded_out {p : Parser α} {m : Limited β} {i : Str} :
    Depth.preceded (Depth.lift p) m i = none ↔ ∃ r a, p i = some (r, a) ∧ m r = none :=
  map_out.trans pair_out

theorem terminated_out {l : Limited α} {q : Parser β} {i : Str} :
    Depth.terminated l (Depth.lift q) i = none ↔ l i = none := by
  unfold Depth.terminated
  rw [map_out]
  unfold Depth.pair Depth.lift
  rcases l i with _ | _ | ⟨r, a⟩
  · simp
  · simp
  · rcases h : q r with _ | ⟨r', b⟩ <;> simp [h]

theorem delimited_out {p : Parser α} {m : Limited β} {q : Parser γ} {i : Str} :
    Depth.delimited (Depth.lift p) m (Depth.lift q) i = none ↔ ∃ r a, p i = some (r, a) ∧ m r = none := by
  unfold Depth.delimited
  rw [preceded_out]
  simp only [terminated_out]

theorem separatedPair_out {p : Parser α} {s : Parser β} {m : Limited γ} {i : Str} :
    Depth.separatedPair (Depth.lift p) (Depth.lift s) m i = none ↔
      ∃ r1 a r2 b, p i = some (r1, a) ∧ s r1 = some (r2, b) ∧ m r2 = none := by
  unfold Depth.separatedPair
  rw [pair_out]
  simp only [preceded_out]
  constructor
  · rintro ⟨r, a, h, r2, b, h2, h3⟩; exact ⟨r, a, r2, b, h, h2, h3⟩
  · rintro ⟨r, a, r2, b, h, h2, h3⟩; exact ⟨r, a, h, r2, b, h2, h3⟩

theorem nonEmpty_out {l : Limited α} {i : Str} : Depth.nonEmpty l i = none ↔ i ≠ [] ∧ l i = none := by
  unfold Depth.nonEmpty
  cases i <;> simp

theorem trimmed_out {l : Limited α} {i : Str} : Depth.trimmed l i = none ↔ l (spRest i) = none := by
  unfold Depth.trimmed
  rw [delimited_out]
  obtain ⟨t, ht⟩ := sp_total i
  constructor
  · rintro ⟨r, a, h1, h2⟩
    rw [ht] at h1
    cases h1
    exact h2
  · intro h
    exact ⟨_, _, ht, h⟩

/-- Where `many0` exhausts the stack: in a round at `j`. -/
theorem many0Loop_out {l : Limited α} {p : Parser α} (h : Ok l p) (hp : Suff p) : ∀ (n : Nat) (i : Str),
    Depth.many0Loop l n i = none →
    ∃ j, j <:+ i ∧ l j = none ∧ ∀ r as, many0Loop p n i = some (r, as) →
      (p j = none ∧ r = j) ∨ ∃ r' a, p j = some (r', a) ∧ a ∈ as ∧ ∃ k as', many0Loop p k r' = some (r, as')
  | 0, _ => fun h => by cases h
  | n + 1, i => by
    intro hl
    unfold Depth.many0Loop at hl
    rcases h i with e | e
    · refine ⟨i, List.suffix_refl i, e, fun r as hr => ?_⟩
      unfold many0Loop at hr
      rcases hi : p i with _ | ⟨r', a⟩ <;> rw [hi] at hr
      · simp only [Option.some.injEq, Prod.mk.injEq] at hr
        exact .inl ⟨rfl, hr.1.symm⟩
      · simp only at hr
        split at hr
        · cases hr
        · right
          split at hr
          · cases hr
          · rename_i hm
            cases hr
            exact ⟨r', a, rfl, by simp, n, _, hm⟩
    · rw [e] at hl
      rcases hi : p i with _ | ⟨r', a⟩ <;> rw [hi] at hl
      · cases hl
      · simp only at hl
        split at hl
        · cases hl
        · rename_i hne
          have hl' : Depth.many0Loop l n r' = none := by
            revert hl
            rcases Depth.many0Loop l n r' with _ | _ | ⟨_, _⟩ <;> simp
          obtain ⟨j, h1, h2, h3⟩ := many0Loop_out h hp n r' hl'
          refine ⟨j, h1.trans (hp _ _ _ hi), h2, fun r as hr => ?_⟩
          unfold many0Loop at hr
          rw [hi] at hr
          simp only [if_neg hne] at hr
          rcases hm : many0Loop p n r' with _ | ⟨r'', as'⟩ <;> rw [hm] at hr
          · cases hr
          · cases hr
            rcases h3 _ _ hm with h4 | ⟨r3, a3, h4, h5, h6⟩
            · exact .inl h4
            · exact .inr ⟨r3, a3, h4, by simp [h5], h6⟩

theorem many0_out {l : Limited α} {p : Parser α} (h : Ok l p) (hp : Suff p) {i : Str} (hl : Depth.many0 l i = none) :
    ∃ j, j <:+ i ∧ l j = none ∧ ∀ r as, many0 p i = some (r, as) →
      (p j = none ∧ r = j) ∨ ∃ r' a, p j = some (r', a) ∧ a ∈ as ∧ ∃ k as', many0Loop p k r' = some (r, as') :=
  many0Loop_out h hp _ i hl

/-- The rounds of `many0`, any of which may exhaust the stack. -/
theorem many0Loop_in {l : Limited α} {p : Parser α} (h : Ok l p) : ∀ (n : Nat) (i r : Str) (as : List α),
    many0Loop p n i = some (r, as) →
      (l r = none → Depth.many0Loop l n i = none) ∧
      ∀ a ∈ as, ∃ j r', p j = some (r', a) ∧ (l j = none → Depth.many0Loop l n i = none)
  | 0, _, _, _ => fun h => by cases h
  | n + 1, i, r, as => by
    intro hr
    unfold many0Loop at hr
    unfold Depth.many0Loop
    rcases hi : p i with _ | ⟨r', a⟩ <;> rw [hi] at hr
    · cases hr
      exact ⟨fun e => by rw [e], by simp⟩
    · simp only at hr
      split at hr
      · cases hr
      · rename_i hne
        rcases hm : many0Loop p n r' with _ | ⟨r'', as'⟩ <;> rw [hm] at hr
        · cases hr
        · cases hr
          obtain ⟨h1, h2⟩ := many0Loop_in h n _ _ _ hm
          have key : Depth.many0Loop l n r' = none → (match l i with
              | none => none
              | some none => some (some (i, []))
              | some (some (r, a)) =>
                if r.length = i.length then some none
                else
                  match Depth.many0Loop l n r with
                  | none => none
                  | some none => some none
                  | some (some (r', as)) => some (some (r', a :: as))) = none := by
            intro e
            rcases h i with e' | e' <;> rw [e']
            rw [hi]
            simp only [if_neg hne, e]
          refine ⟨fun e => key (h1 e), fun b hb => ?_⟩
          rcases List.mem_cons.1 hb with rfl | hb
          · exact ⟨i, r', hi, fun e => by rw [e]⟩
          · obtain ⟨j, r3, h3, h4⟩ := h2 b hb
            exact ⟨j, r3, h3, fun e => key (h4 e)⟩

theorem many0_in {l : Limited α} {p : Parser α} (h : Ok l p) {i r : Str} {as : List α}
    (hr : many0 p i = some (r, as)) :
    (l r = none → Depth.many0 l i = none) ∧
      ∀ a ∈ as, ∃ j r', p j = some (r', a) ∧ (l j = none → Depth.many0 l i = none) :=
  many0Loop_in h _ i r as hr

/-! ## Every open brace needs a `{` -/

theorem count_suffix {r i : Str} (h : r <:+ i) : r.count '{' ≤ i.count '{' := h.sublist.count_le _

theorem count_open {i r a : Str} (h : tag (c! "{") i = some (r, a)) : i.count '{' = r.count '{' + 1 := by
  obtain ⟨rfl, -⟩ := tag_some.1 h
  simp

theorem item_sf {rb : Parser Css.RuleP} (h : Suff rb) :
    Suff (alt (map (Css.attributes false) Css.attrsToRBC) (map rb (fun r => [RBC.rule r.1 r.2]))) :=
  suff_alt (suff_map (suff_attributes _)) (suff_map h)

theorem contentsWith_out {l : Limited Css.RuleP} {p : Parser Css.RuleP} (h : Ok l p) (hp : Suff p) {i : Str}
    (hi : Depth.contentsWith l i = none) :
    ∃ j, j <:+ i ∧ l j = none ∧ ∀ r cs, Css.contentsWith p i = some (r, cs) →
      (p j = none ∧ r = j) ∨ ∃ r' a, p j = some (r', a) ∧ RBC.rule a.1 a.2 ∈ cs := by
  obtain ⟨j, h1, h2, h3⟩ := many0_out (ok_alt (ok_lift _) (ok_map h _)) (item_sf hp) (map_out.1 hi)
  obtain ⟨h4, h5⟩ := alt_lift_out.1 h2
  refine ⟨j, h1, map_out.1 h5, fun r cs hr => ?_⟩
  obtain ⟨as, h6, rfl⟩ := map_some.1 hr
  rcases h3 _ _ h6 with ⟨h7, h8⟩ | ⟨r', a, h7, h8, -⟩
  · exact .inl ⟨map_none.1 (alt_none.1 h7).2, h8⟩
  · right
    rcases alt_some.1 h7 with h7 | ⟨-, h7⟩
    · rw [h4] at h7; cases h7
    · obtain ⟨x, h9, rfl⟩ := map_some.1 h7
      exact ⟨r', x, h9, List.mem_flatten.2 ⟨_, h8, by simp⟩⟩

theorem ruleBlockWith_out {c : Parser (List Str)} {l : Limited Css.RuleP} {i : Str} :
    Depth.ruleBlockWith c l i = none ↔ spRest i ≠ [] ∧ ∃ r1 a r2 b, c (spRest i) = some (r1, a) ∧
      tag (c! "{") r1 = some (r2, b) ∧ r2 ≠ [] ∧ Depth.contentsWith l r2 = none := by
  unfold Depth.ruleBlockWith Depth.ruleBlockContentsWith
  rw [trimmed_out, nonEmpty_out, separatedPair_out]
  simp only [terminated_out, nonEmpty_out]

theorem ruleBlock_count : ∀ (n : Nat) (i : Str), Depth.ruleBlock n i = none → n ≤ i.count '{'
  | 0, _, _ => Nat.zero_le _
  | n + 1, i, h => by
    obtain ⟨-, r1, a, r2, b, h1, h2, -, h3⟩ := ruleBlockWith_out.1 h
    obtain ⟨j, h4, h5, -⟩ := contentsWith_out (ok_ruleBlock (Nat.le_refl n)) (suff_ruleBlock n) h3
    have := ruleBlock_count n j h5
    have := count_suffix h4
    have := count_open h2
    have := count_suffix (suff_otherCondition _ _ _ h1)
    have := count_suffix (spRest_suffix i)
    omega

theorem ruleBlockKeyframes_count (n : Nat) (i : Str) (h : Depth.ruleBlockKeyframes n i = none) : n ≤ i.count '{' := by
  cases n with
  | zero => exact Nat.zero_le _
  | succ n =>
    obtain ⟨-, r1, a, r2, b, h1, h2, -, h3⟩ := ruleBlockWith_out.1 h
    obtain ⟨j, h4, h5, -⟩ := contentsWith_out (ok_ruleBlock (Nat.le_refl n)) (suff_ruleBlock n) h3
    have := ruleBlock_count n j h5
    have := count_suffix h4
    have := count_open h2
    have := count_suffix (suff_frameCondition _ _ _ h1)
    have := count_suffix (spRest_suffix i)
    omega

theorem block_out {n : Nat} {i : Str} : Depth.block n i = none ↔ spRest i ≠ [] ∧ ∃ r1 a r2 b,
    Css.condition (spRest i) = some (r1, a) ∧ tag (c! "{") r1 = some (r2, b) ∧
      spRest (spRest r2) ≠ [] ∧ Depth.contentsWith (Depth.ruleBlock n) (spRest (spRest r2)) = none := by
  unfold Depth.block Depth.blockContents
  rw [trimmed_out, nonEmpty_out, map_out, pair_out]
  simp only [delimited_out, trimmed_out, nonEmpty_out]
  constructor
  · rintro ⟨h, r, a, h1, r2, b, h2, h3⟩; exact ⟨h, r, a, r2, b, h1, h2, h3⟩
  · rintro ⟨h, r, a, r2, b, h1, h2, h3⟩; exact ⟨h, r, a, h1, r2, b, h2, h3⟩

theorem block_count (n : Nat) (i : Str) (h : Depth.block n i = none) : n + 1 ≤ i.count '{' := by
  obtain ⟨-, r1, a, r2, b, h1, h2, -, h3⟩ := block_out.1 h
  obtain ⟨j, h4, h5, -⟩ := contentsWith_out (ok_ruleBlock (Nat.le_refl n)) (suff_ruleBlock n) h3
  have := ruleBlock_count n j h5
  have := count_suffix h4
  have := count_suffix (spRest_suffix (spRest r2))
  have := count_suffix (spRest_suffix r2)
  have := count_open h2
  have := count_suffix (suff_condition _ _ _ h1)
  have := count_suffix (spRest_suffix i)
  omega

theorem keyframes_out {n : Nat} {i : Str} : Depth.keyframes n i = none ↔ ∃ r1 a r2 b,
    Css.atRuleCondition (alt (tag (c! "@keyframes")) fail) (spRest i) = some (r1, a) ∧ tag (c! "{") r1 = some (r2, b) ∧
      Depth.many0 (Depth.ruleBlockKeyframes n) r2 = none := by
  unfold Depth.keyframes
  rw [map_out, trimmed_out, separatedPair_out]
  simp only [terminated_out]

theorem keyframes_count (n : Nat) (i : Str) (h : Depth.keyframes n i = none) : n + 1 ≤ i.count '{' := by
  obtain ⟨r1, a, r2, b, h1, h2, h3⟩ := keyframes_out.1 h
  obtain ⟨j, h4, h5, -⟩ := many0_out (ok_ruleBlockKeyframes (Nat.le_refl n)) (suff_ruleBlockKeyframes n) h3
  have := ruleBlockKeyframes_count n j h5
  have := count_suffix h4
  have := count_open h2
  have := count_suffix (suff_atRuleCondition suff_keyframesTag _ _ _ h1)
  have := count_suffix (spRest_suffix i)
  omega

theorem atRuleWith_out {l : Limited (List ScopeContent)} {i : Str} : Depth.atRuleWith l i = none ↔ spRest i ≠ [] ∧ ∃ r1 a r2 b,
    Css.atRuleCondition (alt (tag (c! "@container")) (alt (tag (c! "@supports")) (tag (c! "@media")))) (spRest i) = some (r1, a) ∧
      tag (c! "{") r1 = some (r2, b) ∧ l r2 = none := by
  unfold Depth.atRuleWith
  rw [trimmed_out, nonEmpty_out, map_out, separatedPair_out]
  simp only [terminated_out]

/-- Where an item exhausts the stack. -/
theorem item_out {n : Nat} {l : Limited (List ScopeContent)} {i : Str} (h : Depth.scopeItemWith n l i = none) :
    Css.danglingBlock i = none ∧ (Depth.block n i = none ∨
      (Depth.block n i = some none ∧ Depth.atRuleWith l i = none) ∨
      (Depth.block n i = some none ∧ Depth.atRuleWith l i = some none ∧ Depth.keyframes n i = none)) := by
  obtain ⟨h1, h2⟩ := alt_lift_out.1 h
  refine ⟨h1, ?_⟩
  rcases alt_out.1 h2 with h3 | ⟨h3, h4⟩
  · exact .inl h3
  · rcases alt_out.1 h4 with h5 | ⟨h5, h6⟩
    · exact .inr (.inl ⟨h3, h5⟩)
    · exact .inr (.inr ⟨h3, h5, h6⟩)

theorem scopeContents_out {n : Nat} {i : Str} : Depth.scopeContents (n + 1) i = none ↔ spRest i ≠ [] ∧
    Depth.many0 (Depth.scopeItemWith n (Depth.scopeContents n)) (spRest i) = none := by
  rw [Depth.scopeContents, trimmed_out, nonEmpty_out]

theorem scopeContents_count : ∀ (n : Nat) (i : Str), Depth.scopeContents n i = none → n ≤ i.count '{'
  | 0, _, _ => Nat.zero_le _
  | n + 1, i, h => by
    obtain ⟨-, h1⟩ := scopeContents_out.1 h
    obtain ⟨j, h2, h3, -⟩ := many0_out (ok_item (Nat.le_refl n) (ok_scopeContents (Nat.le_refl n)))
      (suff_scopeItemWith n (suff_scopeContents n)) h1
    have e1 := count_suffix h2
    have e2 := count_suffix (spRest_suffix i)
    obtain ⟨-, h4 | ⟨-, h4⟩ | ⟨-, -, h4⟩⟩ := item_out h3
    · have := block_count n j h4; omega
    · obtain ⟨-, r1, a, r2, b, h5, h6, h7⟩ := atRuleWith_out.1 h4
      have := scopeContents_count n r2 h7
      have := count_open h6
      have := count_suffix (suff_atRuleCondition suff_scopeTags _ _ _ h5)
      have := count_suffix (spRest_suffix j)
      omega
    · have := keyframes_count n j h4; omega

theorem sheet_out {n : Nat} {i : Str} (h : Depth.sheet n i = none) :
    ∃ j, j <:+ i ∧ spRest j ≠ [] ∧ Depth.scopeContents n (spRest j) = none := by
  unfold Depth.sheet at h
  rw [trimmed_out, map_out] at h
  obtain ⟨j, h1, h2, -⟩ := many0_out (ok_scope (Nat.le_refl n)) (suff_scope n) h
  unfold Depth.scope at h2
  rw [trimmed_out, nonEmpty_out] at h2
  exact ⟨j, h1.trans (spRest_suffix i), h2⟩

theorem sheet_count (n : Nat) (i : Str) (h : Depth.sheet n i = none) : n ≤ i.count '{' := by
  obtain ⟨j, h1, -, h2⟩ := sheet_out h
  have := scopeContents_count n _ h2
  have := count_suffix (spRest_suffix j)
  have := count_suffix h1
  omega

/-! ## The result -/

theorem parse_budget {n : Nat} {css : Str} (h : css.length < n) : Css.sheet n css = Css.sheet (css.length + 1) css :=
  sheet_budget _ _ _ h (by omega)

theorem parse_ok (n : Nat) (css : Str) : Depth.parse n css = none ∨ Depth.parse n css = some (Css.parse css) := by
  unfold Depth.parse Css.parse Css.parseWith
  rcases ok_sheet (Nat.le_max_left n (css.length + 1)) css with h | h
  · left; rw [h]; rfl
  · right
    rw [h, parse_budget (n := max n (css.length + 1)) (by omega)]
    rfl

theorem parse_out {n : Nat} {css : Str} : Depth.parse n css = none ↔ Depth.sheet n css = none := by
  unfold Depth.parse
  rw [Option.map_eq_none_iff]

/-! ## The nesting of what is read -/

open Spec

theorem le_braces {n : Nat} : ∀ {cs : List RBC}, n ≤ bracesRBCs cs ↔ n = 0 ∨ ∃ c ∈ cs, n ≤ bracesRBC c
  | [] => by simp [bracesRBCs]
  | c :: cs => by
    have := @le_braces n cs
    simp only [bracesRBCs, List.mem_cons, exists_eq_or_imp]
    rw [show n ≤ max (bracesRBC c) (bracesRBCs cs) ↔ n ≤ bracesRBC c ∨ n ≤ bracesRBCs cs by omega, this]
    constructor
    · rintro (h | h | h)
      · exact .inr (.inl h)
      · exact .inl h
      · exact .inr (.inr h)
    · rintro (h | h | h)
      · exact .inr (.inl h)
      · exact .inl h
      · exact .inr (.inr h)

theorem braces_mem {c : RBC} {cs : List RBC} (h : c ∈ cs) : bracesRBC c ≤ bracesRBCs cs :=
  le_braces.2 (.inr ⟨c, h, Nat.le_refl _⟩)

theorem braces_attrs (l : List (Str × List Str)) : bracesRBCs (Css.attrsToRBC l) = 0 := by
  induction l with
  | nil => rfl
  | cons a l ih =>
    have : Css.attrsToRBC (a :: l) = .attr a.1 a.2 :: Css.attrsToRBC l := rfl
    rw [this]
    simp [bracesRBCs, bracesRBC, ih]

theorem close_sp {r r' b : Str} (h : tag (c! "}") r = some (r', b)) : spRest r = '}' :: r' := by
  obtain ⟨rfl, -⟩ := tag_some.1 h
  exact spRest_nonblank (by decide) (by decide) r'

theorem at_head {t : Parser Str} {names : List Str} (ht : Names t names) (hn : ∀ n ∈ names, ∃ m, n = '@' :: m) {i r : Str}
    {a : List Str} (h : Css.atRuleCondition t (spRest i) = some (r, a)) : ∃ t, spRest i = '@' :: t := by
  cases hi : spRest i with
  | nil => rw [hi] at h; cases h
  | cons c x =>
    by_cases hc : c = '@'
    · exact ⟨x, by rw [hc]⟩
    · rw [at_char ht hn (by rw [spRest_idem]; exact hi) hc] at h
      cases h

theorem condition_head {i r : Str} {a : List Selector} (h : Css.condition (spRest i) = some (r, a)) :
    ∃ c t, spRest i = c :: t ∧ c ≠ '@' ∧ c ≠ '}' := by
  cases hi : spRest i with
  | nil => rw [hi] at h; cases h
  | cons c x =>
    refine ⟨c, x, rfl, ?_, ?_⟩
    · rintro rfl
      rw [hi, condition_fail (by decide) (by decide)] at h
      cases h
    · rintro rfl
      rw [hi, condition_fail (by decide) (by decide)] at h
      cases h

/-- The inversion of a rule with a body. -/
theorem ruleBlockWith_some {c : Parser (List Str)} {p : Parser Css.RuleP} {i r : Str} {a : Css.RuleP}
    (h : Css.ruleBlockWith c p i = some (r, a)) : spRest i ≠ [] ∧ ∃ r1 r2 b r3 r4 b',
      c (spRest i) = some (r1, a.1) ∧ tag (c! "{") r1 = some (r2, b) ∧ r2 ≠ [] ∧
      Css.contentsWith p r2 = some (r3, a.2) ∧ tag (c! "}") r3 = some (r4, b') := by
  obtain ⟨r', h1, -⟩ := trimmed_some.1 h
  obtain ⟨h0, h1⟩ := nonEmpty_some.1 h1
  obtain ⟨r1, r2, b, h2, h3, h4⟩ := separatedPair_some.1 h1
  obtain ⟨r3, b', h5, h6⟩ := terminated_some.1 h4
  obtain ⟨h7, h5⟩ := nonEmpty_some.1 h5
  exact ⟨h0, r1, r2, b, r3, r', b', h2, h3, h7, h5, h6⟩

theorem contents_over {n m : Nat} (hnm : n ≤ m)
    (ih : ∀ i r a, Depth.ruleBlock n i = none → Css.ruleBlock m i = some (r, a) → n ≤ 1 + bracesRBCs a.2)
    {i r : Str} {cs : List RBC} (h : Depth.contentsWith (Depth.ruleBlock n) i = none)
    (hr : Css.contentsWith (Css.ruleBlock m) i = some (r, cs)) : n ≤ bracesRBCs cs ∨ ∃ t, spRest r = '@' :: t := by
  obtain ⟨j, -, h2, h3⟩ := contentsWith_out (ok_ruleBlock hnm) (suff_ruleBlock m) h
  rcases h3 _ _ hr with ⟨-, rfl⟩ | ⟨r', a, h4, h5⟩
  · cases n with
    | zero => exact .inl (Nat.zero_le _)
    | succ n =>
      obtain ⟨-, r1, a, r2, b, h1, -⟩ := ruleBlockWith_out.1 h2
      exact .inr (at_head names_other LayoutP.conditional_at h1)
  · left
    have e1 := braces_mem h5
    have e2 := ih _ _ _ h2 h4
    simp only [bracesRBC] at e1
    omega

theorem ruleBlock_over : ∀ (n m : Nat), n ≤ m → ∀ i r a, Depth.ruleBlock n i = none →
    Css.ruleBlock m i = some (r, a) → n ≤ 1 + bracesRBCs a.2
  | 0, _, _ => fun _ _ _ _ _ => Nat.zero_le _
  | n + 1, 0, h => absurd h (by omega)
  | n + 1, m + 1, h => by
    intro i r a hl hp
    obtain ⟨-, r1, a', r2, b, h1, h2, -, h3⟩ := ruleBlockWith_out.1 hl
    obtain ⟨-, s1, s2, b', s3, s4, b'', k1, k2, -, k3, k4⟩ := ruleBlockWith_some hp
    rw [h1] at k1; cases k1
    rw [h2] at k2; cases k2
    have hnm := Nat.le_of_succ_le_succ h
    rcases contents_over hnm (ruleBlock_over n m hnm) h3 k3 with e | ⟨t, e⟩
    · omega
    · rw [close_sp k4] at e; cases e

theorem frame_over {n m : Nat} (hnm : n ≤ m) (i r : Str) (a : Css.RuleP) (hl : Depth.ruleBlockKeyframes n i = none)
    (hp : Css.ruleBlockKeyframes m i = some (r, a)) : n ≤ 1 + bracesRBCs a.2 := by
  cases n with
  | zero => exact Nat.zero_le _
  | succ n =>
    obtain ⟨-, r1, a', r2, b, h1, h2, -, h3⟩ := ruleBlockWith_out.1 hl
    obtain ⟨-, s1, s2, b', s3, s4, b'', k1, k2, -, k3, k4⟩ := ruleBlockWith_some hp
    rw [h1] at k1; cases k1
    rw [h2] at k2; cases k2
    have hnm : n ≤ m := by omega
    rcases contents_over hnm (ruleBlock_over n m hnm) h3 k3 with e | ⟨t, e⟩
    · omega
    · rw [close_sp k4] at e; cases e

theorem block_some {m : Nat} {i r : Str} {x : ScopeContent} (h : Css.block m i = some (r, x)) :
    spRest i ≠ [] ∧ ∃ sels cs r1 r2 b r3 r4 b', x = .block sels cs ∧ sels ≠ [] ∧ Css.condition (spRest i) = some (r1, sels) ∧
      tag (c! "{") r1 = some (r2, b) ∧ spRest (spRest r2) ≠ [] ∧
      Css.contentsWith (Css.ruleBlock m) (spRest (spRest r2)) = some (r3, cs) ∧
      tag (c! "}") (spRest (spRest r3)) = some (r4, b') := by
  obtain ⟨r', h1, -⟩ := trimmed_some.1 h
  obtain ⟨h0, h1⟩ := nonEmpty_some.1 h1
  obtain ⟨⟨sels, cs⟩, h2, rfl⟩ := map_some.1 h1
  obtain ⟨r1, h3, h4⟩ := pair_some.1 h2
  obtain ⟨r2, b, r3, b', h5, h6, h7⟩ := delimited_some.1 h4
  obtain ⟨r5, h8, rfl⟩ := trimmed_some.1 h6
  obtain ⟨r6, h9, rfl⟩ := trimmed_some.1 h8
  obtain ⟨h10, h9⟩ := nonEmpty_some.1 h9
  refine ⟨h0, sels, cs, r1, r2, b, r6, r', b', rfl, ?_, h3, h5, h10, h9, h7⟩
  obtain ⟨_, k1, -⟩ := trimmed_some.1 h3
  obtain ⟨-, k1⟩ := nonEmpty_some.1 k1
  obtain ⟨_, _, _, _, _, rfl⟩ := many1_some.1 k1
  simp

theorem block_braces {sels : List Selector} (h : sels ≠ []) (cs : List RBC) :
    bracesRBC (.block sels cs) = 1 + bracesRBCs cs := by
  cases sels with
  | nil => exact absurd rfl h
  | cons s t => rfl

theorem block_over {n m : Nat} (hnm : n ≤ m) {i r : Str} {x : ScopeContent} (hl : Depth.block n i = none)
    (hp : Css.block m i = some (r, x)) : n + 1 ≤ bracesRBC x.toRBC := by
  obtain ⟨-, r1, a', r2, b, h1, h2, -, h3⟩ := block_out.1 hl
  obtain ⟨-, sels, cs, s1, s2, b', s3, s4, b'', rfl, hne, k1, k2, -, k3, k4⟩ := block_some hp
  have : bracesRBC (ScopeContent.block sels cs).toRBC = 1 + bracesRBCs cs := block_braces hne cs
  rw [h1] at k1; cases k1
  rw [h2] at k2; cases k2
  rcases contents_over hnm (ruleBlock_over n m hnm) h3 k3 with e | ⟨t, e⟩
  · omega
  · have k5 := close_sp k4
    rw [spRest_idem, spRest_idem, e] at k5; cases k5

theorem keyframes_some {m : Nat} {i r : Str} {x : ScopeContent} (h : Css.keyframes m i = some (r, x)) :
    ∃ cond fs r1 r2 b r3 r4 b', x = .rule cond (fs.map (fun r => RBC.rule r.1 r.2)) ∧
      Css.atRuleCondition (alt (tag (c! "@keyframes")) fail) (spRest i) = some (r1, cond) ∧
      tag (c! "{") r1 = some (r2, b) ∧ many0 (Css.ruleBlockKeyframes m) r2 = some (r3, fs) ∧
      tag (c! "}") r3 = some (r4, b') := by
  obtain ⟨⟨cond, fs⟩, h1, rfl⟩ := map_some.1 h
  obtain ⟨r', h2, -⟩ := trimmed_some.1 h1
  obtain ⟨r1, r2, b, h3, h4, h5⟩ := separatedPair_some.1 h2
  obtain ⟨r3, b', h6, h7⟩ := terminated_some.1 h5
  exact ⟨cond, fs, r1, r2, b, r3, r', b', rfl, h3, h4, h6, h7⟩

theorem frame_cond {i r : Str} {a : List Str} (h : map (recognize Css.condition) (fun m => [Str.trim m]) (spRest i) = some (r, a)) :
    ∃ c t, spRest i = c :: t ∧ c ≠ '@' ∧ c ≠ '}' := by
  obtain ⟨x, h1, -⟩ := map_some.1 h
  obtain ⟨y, h2, -⟩ := recognize_some.1 h1
  exact condition_head h2

theorem keyframes_over {n m : Nat} (hnm : n ≤ m) {i r : Str} {x : ScopeContent} (hl : Depth.keyframes n i = none)
    (hp : Css.keyframes m i = some (r, x)) : n + 1 ≤ bracesRBC x.toRBC := by
  obtain ⟨r1, a', r2, b, h1, h2, h3⟩ := keyframes_out.1 hl
  obtain ⟨cond, fs, s1, s2, b', s3, s4, b'', rfl, k1, k2, k3, k4⟩ := keyframes_some hp
  rw [h1] at k1; cases k1
  rw [h2] at k2; cases k2
  simp only [ScopeContent.toRBC, bracesRBC]
  obtain ⟨j, -, h4, h5⟩ := many0_out (ok_ruleBlockKeyframes hnm) (suff_ruleBlockKeyframes m) h3
  rcases h5 _ _ k3 with ⟨-, rfl⟩ | ⟨r', a, h6, h7, -⟩
  · cases n with
    | zero => omega
    | succ n =>
      obtain ⟨-, r1, a, r2, b, h1, -⟩ := ruleBlockWith_out.1 h4
      obtain ⟨c, t, e, -, e'⟩ := frame_cond h1
      rw [close_sp k4] at e
      cases e
      exact absurd rfl e'
  · have e1 := frame_over hnm _ _ _ h4 h6
    have e2 := braces_mem (List.mem_map_of_mem (f := fun r : Css.RuleP => RBC.rule r.1 r.2) h7)
    simp only [bracesRBC] at e2
    omega

theorem atRuleWith_some {p : Parser (List ScopeContent)} {i r : Str} {x : ScopeContent} (h : Css.atRuleWith p i = some (r, x)) :
    spRest i ≠ [] ∧ ∃ cond l r1 r2 b r3 r4 b', x = .rule cond (l.map ScopeContent.toRBC) ∧
      Css.atRuleCondition (alt (tag (c! "@container")) (alt (tag (c! "@supports")) (tag (c! "@media")))) (spRest i) = some (r1, cond) ∧
      tag (c! "{") r1 = some (r2, b) ∧ p r2 = some (r3, l) ∧ tag (c! "}") r3 = some (r4, b') := by
  obtain ⟨r', h1, -⟩ := trimmed_some.1 h
  obtain ⟨h0, h1⟩ := nonEmpty_some.1 h1
  obtain ⟨⟨cond, l⟩, h2, rfl⟩ := map_some.1 h1
  obtain ⟨r1, r2, b, h3, h4, h5⟩ := separatedPair_some.1 h2
  obtain ⟨r3, b', h6, h7⟩ := terminated_some.1 h5
  exact ⟨h0, cond, l, r1, r2, b, r3, r', b', rfl, h3, h4, h6, h7⟩

/-- An item that exhausts the stack is not the end of a block. -/
theorem item_head {n : Nat} {l : Limited (List ScopeContent)} {i : Str} (h : Depth.scopeItemWith n l i = none) :
    ∃ c t, spRest i = c :: t ∧ c ≠ '}' := by
  obtain ⟨-, h | ⟨-, h⟩ | ⟨-, -, h⟩⟩ := item_out h
  · obtain ⟨-, r1, a', r2, b, h1, -⟩ := block_out.1 h
    obtain ⟨c, t, e, -, e'⟩ := condition_head h1
    exact ⟨c, t, e, e'⟩
  · obtain ⟨-, r1, a', r2, b, h1, -⟩ := atRuleWith_out.1 h
    obtain ⟨t, e⟩ := at_head names_rule LayoutP.conditional_at h1
    exact ⟨_, t, e, by decide⟩
  · obtain ⟨r1, a', r2, b, h1, -⟩ := keyframes_out.1 h
    obtain ⟨t, e⟩ := at_head (names_alt (names_tag (by simp)) (names_fail _)) LayoutP.keyframes_at h1
    exact ⟨_, t, e, by decide⟩

theorem names_keyframes : Names (alt (tag (c! "@keyframes")) fail) [c! "@keyframes"] :=
  names_alt (names_tag (by simp)) (names_fail _)

/-- The name of an at-rule. -/
theorem at_name {t : Parser Str} {names : List Str} (ht : Names t names) {i r : Str} {a : List Str}
    (h : Css.atRuleCondition t i = some (r, a)) : ∃ n ∈ names, n <+: spRest i := by
  obtain ⟨r1, h1, -⟩ := trimmed_some.1 h
  obtain ⟨-, h2⟩ := nonEmpty_some.1 h1
  obtain ⟨⟨p, q⟩, h3, -⟩ := map_some.1 h2
  obtain ⟨r2, h4, -⟩ := pair_some.1 h3
  obtain ⟨a, h6, -⟩ := recognize_some.1 h4
  obtain ⟨r3, b, h8, h9⟩ := terminated_some.1 h6
  obtain ⟨n, hmem, e1⟩ := ht _ _ _ h8
  exact ⟨n, hmem, ⟨r3, e1.symm⟩⟩

theorem scope_over : ∀ (n m : Nat), n ≤ m → ∀ i r as, Depth.scopeContents n i = none →
    Css.scopeContents m i = some (r, as) → n ≤ nesting as ∨
      ((∃ c t, spRest r = c :: t ∧ c ≠ '}') ∧ ∃ r0, r = spRest r0 ∧ LayoutP.item (m - 1) r0 = none)
  | 0, _, _ => fun _ _ _ _ _ => .inl (Nat.zero_le _)
  | n + 1, 0, h => absurd h (by omega)
  | n + 1, m + 1, h => by
    intro i r as hl hp
    have hnm := Nat.le_of_succ_le_succ h
    obtain ⟨-, h1⟩ := scopeContents_out.1 hl
    obtain ⟨r0, h2, rfl⟩ := trimmed_some.1 hp
    obtain ⟨-, h2⟩ := nonEmpty_some.1 h2
    obtain ⟨j, -, h3, h4⟩ := many0_out (ok_item hnm (ok_scopeContents hnm))
      (suff_scopeItemWith m (suff_scopeContents m)) h1
    rcases h4 _ _ h2 with ⟨h5, rfl⟩ | ⟨r', x, h5, h6, -⟩
    · right
      refine ⟨?_, r0, rfl, h5⟩
      rw [spRest_idem]
      exact item_head h3
    · left
      have e := braces_mem (List.mem_map_of_mem (f := ScopeContent.toRBC) h6)
      suffices hx : n + 1 ≤ bracesRBC x.toRBC by
        unfold nesting
        omega
      obtain ⟨k1, k⟩ := item_out h3
      rcases alt_some.1 h5 with h5 | ⟨-, h5⟩
      · rw [k1] at h5; cases h5
      rcases k with k | ⟨k2, k⟩ | ⟨k2, k3, k⟩
      · rcases alt_some.1 h5 with h5 | ⟨-, h5⟩
        · exact block_over hnm k h5
        · exfalso
          obtain ⟨-, r1, a', r2, b, q1, -⟩ := block_out.1 k
          obtain ⟨c, t, e, e', -⟩ := condition_head q1
          rcases alt_some.1 h5 with h5 | ⟨-, h5⟩
          · obtain ⟨-, cond, l, r1, r2, b, r3, r4, b', -, q2, -⟩ := atRuleWith_some h5
            obtain ⟨t', q3⟩ := at_head names_rule LayoutP.conditional_at q2
            rw [e] at q3; cases q3; exact e' rfl
          · obtain ⟨cond, l, r1, r2, b, r3, r4, b', -, q2, -⟩ := keyframes_some h5
            obtain ⟨t', q3⟩ := at_head names_keyframes LayoutP.keyframes_at q2
            rw [e] at q3; cases q3; exact e' rfl
      · have : Css.block m j = none := by
          rcases ok_block hnm j with e | e
          · rw [e] at k2; cases k2
          · rw [e] at k2; simpa using k2
        rcases alt_some.1 h5 with h5 | ⟨-, h5⟩
        · rw [this] at h5; cases h5
        obtain ⟨-, r1, a', r2, b, q1, q2, q3⟩ := atRuleWith_out.1 k
        rcases alt_some.1 h5 with h5 | ⟨-, h5⟩
        · obtain ⟨-, cond, l, s1, s2, b, s3, s4, b', rfl, p1, p2, p3, p4⟩ := atRuleWith_some h5
          rw [q1] at p1; cases p1
          rw [q2] at p2; cases p2
          simp only [ScopeContent.toRBC, bracesRBC]
          rcases scope_over n m hnm _ _ _ q3 p3 with e | ⟨⟨c, t, e, e'⟩, -⟩
          · unfold nesting at e; omega
          · rw [close_sp p4] at e; cases e; exact absurd rfl e'
        · exfalso
          obtain ⟨cond, l, r1, r2, b, r3, r4, b', -, q4, -⟩ := keyframes_some h5
          obtain ⟨x1, m1, m2⟩ := at_name names_rule q1
          obtain ⟨x2, m3, m4⟩ := at_name names_keyframes q4
          simp only [List.mem_singleton] at m3
          subst m3
          obtain ⟨u, hu⟩ := m4
          rw [← hu] at m2
          simp only [Spec.conditionalNames, List.mem_cons, List.not_mem_nil, or_false] at m1
          rcases m1 with rfl | rfl | rfl <;> obtain ⟨v, hv⟩ := m2 <;> simp at hv
      · have : Css.block m j = none := by
          rcases ok_block hnm j with e | e
          · rw [e] at k2; cases k2
          · rw [e] at k2; simpa using k2
        rcases alt_some.1 h5 with h5 | ⟨-, h5⟩
        · rw [this] at h5; cases h5
        have : Css.atRuleWith (Css.scopeContents m) j = none := by
          rcases ok_atRuleWith (ok_scopeContents hnm) j with e | e
          · rw [e] at k3; cases k3
          · rw [e] at k3; simpa using k3
        rcases alt_some.1 h5 with h5 | ⟨-, h5⟩
        · rw [this] at h5; cases h5
        exact keyframes_over hnm k h5

theorem scope_some {m : Nat} {i r : Str} {as : List ScopeContent} (h : Css.scope m i = some (r, as)) :
    spRest i ≠ [] ∧ ∃ r0, r = spRest r0 ∧ Css.scopeContents m (spRest i) = some (r0, as) := by
  obtain ⟨r0, h1, rfl⟩ := trimmed_some.1 h
  obtain ⟨h0, h1⟩ := nonEmpty_some.1 h1
  exact ⟨h0, r0, rfl, h1⟩

/-- Nothing is read any more at a place where no item is read. -/
theorem stuck_loop {m k : Nat} {e r : Str} {as : List (List ScopeContent)} (hsp : spRest e = e) (hne : e ≠ [])
    (hi : LayoutP.item m e = none) (h : many0Loop (Css.scope (m + 1)) k e = some (r, as)) : False := by
  have stuck : Css.scope (m + 1) e = some (e, []) := by
    refine trimmed_some.2 ⟨e, ?_, hsp.symm⟩
    rw [hsp]
    refine nonEmpty_some.2 ⟨hne, trimmed_some.2 ⟨e, ?_, hsp.symm⟩⟩
    rw [hsp]
    exact nonEmpty_some.2 ⟨hne, many0_stop (LayoutP.suff_item _) hi⟩
  cases k with
  | zero => cases h
  | succ k =>
    unfold many0Loop at h
    rw [stuck] at h
    simp at h

theorem nesting_flatten {n : Nat} {l : List (List ScopeContent)} {a : List ScopeContent} (h : a ∈ l) (hn : n ≤ nesting a) :
    n ≤ nesting l.flatten := by
  rcases le_braces.1 hn with rfl | ⟨c, hc, hb⟩
  · exact Nat.zero_le _
  · refine le_braces.2 (.inr ⟨c, ?_, hb⟩)
    obtain ⟨x, hx, rfl⟩ := List.mem_map.1 hc
    exact List.mem_map_of_mem (List.mem_flatten.2 ⟨a, h, hx⟩)

theorem sheet_over {n m : Nat} (hnm : n ≤ m + 1) {i r : Str} {s : Sheet} (hl : Depth.sheet n i = none)
    (hp : Css.sheet (m + 1) i = some (r, s)) : n ≤ nesting s := by
  unfold Depth.sheet at hl
  rw [trimmed_out, map_out] at hl
  obtain ⟨r1, h1, -⟩ := trimmed_some.1 hp
  obtain ⟨as, h2, rfl⟩ := map_some.1 h1
  obtain ⟨j, -, h3, h4⟩ := many0_out (ok_scope hnm) (suff_scope (m + 1)) hl
  unfold Depth.scope at h3
  rw [trimmed_out, nonEmpty_out] at h3
  rcases h4 _ _ h2 with ⟨h5, -⟩ | ⟨r', a, h5, h6, k, as', h7⟩
  · obtain ⟨_, _, e⟩ := scope_total m h3.1
    rw [e] at h5; cases h5
  · obtain ⟨-, r0, rfl, h8⟩ := scope_some h5
    rcases scope_over n (m + 1) hnm _ _ _ h3.2 h8 with e | ⟨⟨c, t, e, -⟩, r00, rfl, e'⟩
    · exact nesting_flatten h6 e
    · exfalso
      rw [spRest_idem] at e h7
      refine stuck_loop (spRest_idem r00) (by rw [e]; simp) ?_ h7
      rw [show LayoutP.item m (spRest r00) = LayoutP.item m r00 from item_sp (spRest_idem r00)]
      exact e'

/-! ## Css that is nested too deep -/

theorem contents_deep {n m : Nat} (hnm : n ≤ m)
    (ih : ∀ i r a, Css.ruleBlock m i = some (r, a) → n ≤ 1 + bracesRBCs a.2 → Depth.ruleBlock n i = none)
    {i r : Str} {cs : List RBC} (hr : Css.contentsWith (Css.ruleBlock m) i = some (r, cs)) (hn : n ≤ bracesRBCs cs) :
    Depth.contentsWith (Depth.ruleBlock n) i = none := by
  obtain ⟨as, h1, rfl⟩ := map_some.1 hr
  obtain ⟨h2, h3⟩ := many0_in (ok_alt (ok_lift _) (ok_map (ok_ruleBlock hnm) _)) h1
  refine map_out.2 ?_
  rcases le_braces.1 hn with rfl | ⟨c, hc, hb⟩
  · obtain ⟨h4, -⟩ := alt_none.1 (many0_stops (item_sf (suff_ruleBlock m)) h1)
    exact h2 (alt_lift_out.2 ⟨h4, map_out.2 rfl⟩)
  · obtain ⟨a, ha, hc⟩ := List.mem_flatten.1 hc
    obtain ⟨j, r', h4, h5⟩ := h3 a ha
    rcases alt_some.1 h4 with h4 | ⟨h0, h4⟩
    · obtain ⟨l, -, rfl⟩ := map_some.1 h4
      have := braces_mem hc
      rw [braces_attrs] at this
      have hn0 : n = 0 := by omega
      subst hn0
      obtain ⟨h4, -⟩ := alt_none.1 (many0_stops (item_sf (suff_ruleBlock m)) h1)
      exact h2 (alt_lift_out.2 ⟨h4, map_out.2 rfl⟩)
    · obtain ⟨x, h6, rfl⟩ := map_some.1 h4
      simp only [List.mem_singleton] at hc
      subst hc
      simp only [bracesRBC] at hb
      exact h5 (alt_lift_out.2 ⟨h0, map_out.2 (ih _ _ _ h6 hb)⟩)

theorem ruleBlock_deep : ∀ (n m : Nat), n ≤ m → ∀ i r a, Css.ruleBlock m i = some (r, a) →
    n ≤ 1 + bracesRBCs a.2 → Depth.ruleBlock n i = none
  | 0, _, _ => fun _ _ _ _ _ => rfl
  | n + 1, 0, h => absurd h (by omega)
  | n + 1, m + 1, h => by
    intro i r a hp hn
    obtain ⟨h0, s1, s2, b', s3, s4, b'', k1, k2, k5, k3, k4⟩ := ruleBlockWith_some hp
    have hnm := Nat.le_of_succ_le_succ h
    exact ruleBlockWith_out.2 ⟨h0, _, _, _, _, k1, k2, k5, contents_deep hnm (ruleBlock_deep n m hnm) k3 (by omega)⟩

theorem frame_deep {n m : Nat} (hnm : n ≤ m) {i r : Str} {a : Css.RuleP} (hp : Css.ruleBlockKeyframes m i = some (r, a))
    (hn : n ≤ 1 + bracesRBCs a.2) : Depth.ruleBlockKeyframes n i = none := by
  cases n with
  | zero => rfl
  | succ n =>
    obtain ⟨h0, s1, s2, b', s3, s4, b'', k1, k2, k5, k3, k4⟩ := ruleBlockWith_some hp
    have hnm : n ≤ m := by omega
    exact ruleBlockWith_out.2 ⟨h0, _, _, _, _, k1, k2, k5, contents_deep hnm (ruleBlock_deep n m hnm) k3 (by omega)⟩

theorem scope_deep : ∀ (n m : Nat), n ≤ m → ∀ i r as, Css.scopeContents m i = some (r, as) → n ≤ nesting as →
    Depth.scopeContents n i = none
  | 0, _, _ => fun _ _ _ _ _ => rfl
  | n + 1, 0, h => absurd h (by omega)
  | n + 1, m + 1, h => by
    intro i r as hp hn
    have hnm := Nat.le_of_succ_le_succ h
    obtain ⟨r0, h2, -⟩ := trimmed_some.1 hp
    obtain ⟨h0, h2⟩ := nonEmpty_some.1 h2
    refine scopeContents_out.2 ⟨h0, ?_⟩
    rcases le_braces.1 hn with hz | ⟨c, hc, hb⟩
    · omega
    obtain ⟨x, hx, rfl⟩ := List.mem_map.1 hc
    obtain ⟨-, h3⟩ := many0_in (ok_item hnm (ok_scopeContents hnm)) h2
    obtain ⟨j, r', h4, h5⟩ := h3 x hx
    refine h5 ?_
    rcases alt_some.1 h4 with h4 | ⟨d1, h4⟩
    · exfalso
      obtain ⟨_, q1, -⟩ := trimmed_some.1 h4
      obtain ⟨-, q1⟩ := nonEmpty_some.1 q1
      obtain ⟨l, -, rfl⟩ := map_some.1 q1
      simp only [ScopeContent.toRBC, bracesRBC, braces_attrs] at hb
      omega
    refine alt_lift_out.2 ⟨d1, alt_out.2 ?_⟩
    rcases alt_some.1 h4 with h4 | ⟨d2, h4⟩
    · left
      obtain ⟨q0, sels, cs, s1, s2, b', s3, s4, b'', rfl, hne, k1, k2, k5, k3, k4⟩ := block_some h4
      have : bracesRBC (ScopeContent.block sels cs).toRBC = 1 + bracesRBCs cs := block_braces hne cs
      exact block_out.2 ⟨q0, _, _, _, _, k1, k2, k5, contents_deep hnm (ruleBlock_deep n m hnm) k3 (by omega)⟩
    rcases ok_block hnm j with e | e
    · exact .inl e
    refine .inr ⟨by rw [e, d2], alt_out.2 ?_⟩
    rcases alt_some.1 h4 with h4 | ⟨d3, h4⟩
    · left
      obtain ⟨q0, cond, l, s1, s2, b, s3, s4, b', rfl, p1, p2, p3, p4⟩ := atRuleWith_some h4
      simp only [ScopeContent.toRBC, bracesRBC] at hb
      exact atRuleWith_out.2 ⟨q0, _, _, _, _, p1, p2, scope_deep n m hnm _ _ _ p3 (by unfold nesting; omega)⟩
    rcases ok_atRuleWith (ok_scopeContents hnm) j with e | e
    · exact .inl e
    refine .inr ⟨by rw [e, d3], ?_⟩
    obtain ⟨cond, fs, s1, s2, b', s3, s4, b'', rfl, k1, k2, k3, k4⟩ := keyframes_some h4
    refine keyframes_out.2 ⟨_, _, _, _, k1, k2, ?_⟩
    obtain ⟨g1, g2⟩ := many0_in (ok_ruleBlockKeyframes hnm) k3
    simp only [ScopeContent.toRBC, bracesRBC] at hb
    rcases le_braces.1 (show n ≤ bracesRBCs (fs.map (fun r => RBC.rule r.1 r.2)) by omega) with rfl | ⟨c, hc, hb⟩
    · exact g1 rfl
    · obtain ⟨x, hx, rfl⟩ := List.mem_map.1 hc
      obtain ⟨j', r'', g3, g4⟩ := g2 x hx
      exact g4 (frame_deep hnm g3 (by simpa only [bracesRBC] using hb))

theorem sheet_deep {n m : Nat} (hnm : n ≤ m) (h0 : 0 < n) {i r : Str} {s : Sheet} (hp : Css.sheet m i = some (r, s))
    (hn : n ≤ nesting s) : Depth.sheet n i = none := by
  obtain ⟨r1, h1, -⟩ := trimmed_some.1 hp
  obtain ⟨as, h2, rfl⟩ := map_some.1 h1
  unfold Depth.sheet
  rw [trimmed_out, map_out]
  rcases le_braces.1 hn with hz | ⟨c, hc, hb⟩
  · omega
  obtain ⟨x, hx, rfl⟩ := List.mem_map.1 hc
  obtain ⟨a, ha, hx⟩ := List.mem_flatten.1 hx
  obtain ⟨-, h3⟩ := many0_in (ok_scope hnm) h2
  obtain ⟨j, r', h4, h5⟩ := h3 a ha
  refine h5 ?_
  obtain ⟨h6, r0, -, h7⟩ := scope_some h4
  unfold Depth.scope
  rw [trimmed_out, nonEmpty_out]
  refine ⟨h6, scope_deep n m hnm _ _ _ h7 (le_braces.2 (.inr ⟨_, List.mem_map_of_mem hx, hb⟩))⟩

theorem parse_exact {n : Nat} (h0 : 0 < n) {css : Str} {s : Sheet} (h : Css.parse css = some s) :
    Depth.parse n css = none ↔ n ≤ nesting s := by
  unfold Css.parse Css.parseWith at h
  rw [Option.map_eq_some_iff] at h
  obtain ⟨⟨r, s'⟩, h1, rfl⟩ := h
  rw [← parse_budget (n := max n (css.length) + 1) (by omega)] at h1
  rw [parse_out]
  constructor
  · intro h; exact sheet_over (by omega) h h1
  · intro h; exact sheet_deep (by omega) h0 h1 h

end DepthP
