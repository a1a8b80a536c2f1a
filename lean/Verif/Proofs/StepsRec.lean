import Verif.Proofs.Steps

/-!
# The work of the css parser: recursion

In a text of length `N`, a parser without recursion makes at most `unit N` steps
(quadratic). A block or an at-rule makes at most a constant number of units for each
character that it reads, or that is left when it fails: of the alternatives that are tried at
one place, only one gets beyond its header.
-/

namespace Steps
open NomP (Suff Prog)
open ParserP (spRest)
open Spec (conditionalNames)

variable {α β γ : Type}

/-- What a parser without recursion makes at most in a text of length `N`. -/
def unit (N : Nat) : Nat := 16000 * ((N + 1) * (N + 1))

theorem quad_unit {c N : Nat} {p : Counted α} (h : Quad c p) (hc : c ≤ 16000) {i : Str} (hi : i.length ≤ N) :
    (p i).2 ≤ unit N :=
  Nat.le_trans (h i) (Nat.mul_le_mul hc (Nat.mul_le_mul (by omega) (by omega)))

theorem unit_len (N : Nat) : N + 100 ≤ unit N := by
  have : N + 1 ≤ (N + 1) * (N + 1) := Nat.le_mul_of_pos_right _ (by omega)
  unfold unit
  omega

theorem unit_pos (N : Nat) {x : Nat} (h : 0 < x) : unit N ≤ unit N * x := Nat.le_mul_of_pos_right _ h

/-- The next character after blanks is a closing brace. -/
def Closed (r : Str) : Prop := (spRest r).head? = some '}'

/-- The steps of a parser that begins with the header `c`: few, when the header is not there. -/
structure Rec (N s : Nat) (c : Parser γ) (p : Counted α) : Prop where
  bad : ∀ i k, i.length ≤ N → p i = (none, k) → k ≤ 60 * (unit N * i.length) + s * unit N
  good : ∀ i r a k, i.length ≤ N → p i = (some (r, a), k) →
    k + 80 * unit N ≤ 60 * (unit N * (i.length - r.length)) + s * unit N
  head : ∀ i k, i.length ≤ N → c i = none → p i = (none, k) → k ≤ s * unit N
  need : ∀ i r a k, p i = (some (r, a), k) → c i ≠ none

/-- The steps of a parser of contents. -/
structure Inner (N c : Nat) (p : Counted α) : Prop where
  bad : ∀ i k, i.length ≤ N → p i = (none, k) → k ≤ 60 * (unit N * i.length) + c * unit N
  good : ∀ i r a k, i.length ≤ N → p i = (some (r, a), k) →
    k ≤ 60 * (unit N * i.length) + c * unit N ∧
      (Closed r → k ≤ 60 * (unit N * (i.length - r.length)) + c * unit N)

theorem trimmed_none {N : Nat} {p : Counted α} {i : Str} {k : Nat} (hN : i.length ≤ N) (h : trimmed p i = (none, k)) :
    ∃ l, p (spRest i) = (none, l) ∧ k ≤ l + 2 * unit N := by
  have hu := unit_len N
  rcases both_none h with ⟨k1, h1, rfl⟩ | ⟨r, x, k1, l, h1, h2, rfl⟩
  · exact absurd h1 (total_sp i k1)
  · have e1 := quad_unit lin_sp.mid.quad (by decide) hN
    rw [h1] at e1
    have hr : r = spRest i := by
      obtain ⟨t, ht⟩ := ParserP.sp_total i
      have := res_some h1
      rw [res_sp, ht] at this
      cases this; rfl
    subst hr
    rcases both_none h2 with ⟨k2, h3, rfl⟩ | ⟨r', x', k2, l', h3, h4, rfl⟩
    · exact ⟨k2, h3, by simp only at e1; omega⟩
    · exact absurd h4 (total_sp _ l')

theorem trimmed_some {N : Nat} {p : Counted α} {i r : Str} {a : α} {k : Nat} (hs : Suff (res p)) (hN : i.length ≤ N)
    (h : trimmed p i = (some (r, a), k)) :
    ∃ r' a' l, p (spRest i) = (some (r', a'), l) ∧ r = spRest r' ∧ r'.length ≤ i.length ∧ k ≤ l + 3 * unit N := by
  have hu := unit_len N
  obtain ⟨r1, x, y, k1, l, h1, h2, rfl⟩ := both_some h
  have e1 := quad_unit lin_sp.mid.quad (by decide) hN
  rw [h1] at e1
  have hr : r1 = spRest i := by
    obtain ⟨t, ht⟩ := ParserP.sp_total i
    have := res_some h1
    rw [res_sp, ht] at this
    cases this; rfl
  subst hr
  obtain ⟨r2, x2, y2, k2, l2, h3, h4, rfl⟩ := both_some h2
  have hle := hs.le (res_some h3)
  have hle' := ParserP.spRest_le i
  have e2 := quad_unit lin_sp.mid.quad (by decide) (N := N) (i := r2) (by omega)
  rw [h4] at e2
  have hr : r = spRest r2 := by
    obtain ⟨t, ht⟩ := ParserP.sp_total r2
    have := res_some h4
    rw [res_sp, ht] at this
    cases this; rfl
  exact ⟨r2, x2, k2, h3, hr, by omega, by simp only at e1 e2; omega⟩

/-! ## Contents -/

theorem inner_nonEmpty {N c : Nat} {p : Counted α} (h : Inner N c p) : Inner N (c + 1) (nonEmpty p) := by
  have hu := unit_len N
  have ec : (c + 1) * unit N = c * unit N + unit N := by rw [Nat.add_mul, Nat.one_mul]
  refine ⟨fun i k hN hi => ?_, fun i r a k hN hi => ?_⟩
  · rw [ec]
    rcases nonEmpty_none hi with ⟨rfl, rfl⟩ | ⟨k1, h1, rfl⟩
    · omega
    · have := h.bad i k1 hN h1; omega
  · rw [ec]
    obtain ⟨k1, h1, rfl⟩ := nonEmpty_some hi
    obtain ⟨e1, e2⟩ := h.good i r a k1 hN h1
    refine ⟨by omega, fun hc => ?_⟩
    have := e2 hc
    omega

theorem inner_trimmed {N c : Nat} {p : Counted α} (hs : Suff (res p)) (h : Inner N c p) : Inner N (c + 3) (trimmed p) := by
  have hu := unit_len N
  have ec : (c + 3) * unit N = c * unit N + 3 * unit N := Nat.add_mul _ _ _
  refine ⟨fun i k hN hi => ?_, fun i r a k hN hi => ?_⟩
  · rw [ec]
    obtain ⟨l, h1, h2⟩ := trimmed_none hN hi
    have hle := ParserP.spRest_le i
    have e1 := h.bad _ l (by omega) h1
    have : unit N * (spRest i).length ≤ unit N * i.length := Nat.mul_le_mul_left _ hle
    omega
  · rw [ec]
    obtain ⟨r', a', l, h1, rfl, h3, h4⟩ := trimmed_some hs hN hi
    have hle := ParserP.spRest_le i
    have hle' := ParserP.spRest_le r'
    obtain ⟨e1, e2⟩ := h.good _ r' a' l (by omega) h1
    have : unit N * (spRest i).length ≤ unit N * i.length := Nat.mul_le_mul_left _ hle
    refine ⟨by omega, fun hc => ?_⟩
    have e3 := e2 (by unfold Closed at hc ⊢; rwa [ParserP.spRest_idem] at hc)
    have : unit N * ((spRest i).length - r'.length) ≤ unit N * (i.length - (spRest r').length) :=
      Nat.mul_le_mul_left _ (by omega)
    omega

theorem inner_map {N c : Nat} {p : Counted α} {f : α → β} (h : Inner N c p) : Inner N (c + 1) (map p f) := by
  have hu := unit_len N
  have ec : (c + 1) * unit N = c * unit N + unit N := by rw [Nat.add_mul, Nat.one_mul]
  refine ⟨fun i k hN hi => ?_, fun i r a k hN hi => ?_⟩
  · rw [ec]
    obtain ⟨k1, h1, rfl⟩ := map_none hi
    have := h.bad i k1 hN h1; omega
  · rw [ec]
    obtain ⟨a', k1, h1, rfl⟩ := map_some hi
    obtain ⟨e1, e2⟩ := h.good i r a' k1 hN h1
    refine ⟨by omega, fun hc => ?_⟩
    have := e2 hc
    omega

/-- `many0` of items. -/
theorem inner_many0 {N c : Nat} {p : Counted α} (hs : Suff (res p)) (hp : Prog (res p))
    (hok : ∀ i r a k, i.length ≤ N → p i = (some (r, a), k) → k + 1 ≤ 60 * (unit N * (i.length - r.length)))
    (hbad : ∀ i k, i.length ≤ N → p i = (none, k) → k + 1 ≤ 60 * (unit N * i.length) + c * unit N)
    (hcl : ∀ i k, i.length ≤ N → Closed i → p i = (none, k) → k + 1 ≤ c * unit N) : Inner N c (many0 p) := by
  refine ⟨fun i k _ hi => absurd hi (total_many0 hs hp i k), fun i r as k hN hi => ?_⟩
  obtain ⟨l, h1, h2, h3⟩ := many0Loop_some hs (w := 60 * unit N) (N := N)
    (fun i r a k hN hi _ => by rw [Nat.mul_assoc]; exact hok i r a k hN hi) _ i r as k hN hi
  rw [Nat.mul_assoc] at h3
  have hr : r.length ≤ N := by omega
  have e1 := hbad r l hr h1
  have e2 : unit N * i.length = unit N * (i.length - r.length) + unit N * r.length := by
    rw [← Nat.mul_add]; congr 1; omega
  refine ⟨by omega, fun hc => ?_⟩
  have e3 := hcl r l hr hc h1
  omega

/-! ## Blocks -/

theorem Rec.mono {N s t : Nat} {c : Parser γ} {p : Counted α} (h : Rec N s c p) (hst : s ≤ t) : Rec N t c p := by
  have : s * unit N ≤ t * unit N := Nat.mul_le_mul_right _ hst
  refine ⟨fun i k hN hi => ?_, fun i r a k hN hi => ?_, fun i k hN hc hi => ?_, h.need⟩
  · have := h.bad i k hN hi; omega
  · have := h.good i r a k hN hi; omega
  · have := h.head i k hN hc hi; omega

theorem rec_map {N s : Nat} {c : Parser γ} {p : Counted α} {f : α → β} (h : Rec N s c p) : Rec N (s + 1) c (map p f) := by
  have hu := unit_len N
  have ec : (s + 1) * unit N = s * unit N + unit N := by rw [Nat.add_mul, Nat.one_mul]
  refine ⟨fun i k hN hi => ?_, fun i r a k hN hi => ?_, fun i k hN hc hi => ?_,
    fun i r a k hi => by obtain ⟨a', k1, h1, -⟩ := map_some hi; exact h.need i r a' k1 h1⟩ <;> rw [ec]
  · obtain ⟨k1, h1, rfl⟩ := map_none hi
    have := h.bad i k1 hN h1; omega
  · obtain ⟨a', k1, h1, rfl⟩ := map_some hi
    have := h.good i r a' k1 hN h1; omega
  · obtain ⟨k1, h1, rfl⟩ := map_none hi
    have := h.head i k1 hN hc h1; omega

theorem rec_nonEmpty {N s : Nat} {c : Parser γ} {p : Counted α} (h : Rec N s c p) : Rec N (s + 1) c (nonEmpty p) := by
  have hu := unit_len N
  have ec : (s + 1) * unit N = s * unit N + unit N := by rw [Nat.add_mul, Nat.one_mul]
  refine ⟨fun i k hN hi => ?_, fun i r a k hN hi => ?_, fun i k hN hc hi => ?_,
    fun i r a k hi => by obtain ⟨k1, h1, -⟩ := nonEmpty_some hi; exact h.need i r a k1 h1⟩ <;> rw [ec]
  · rcases nonEmpty_none hi with ⟨-, rfl⟩ | ⟨k1, h1, rfl⟩
    · omega
    · have := h.bad i k1 hN h1; omega
  · obtain ⟨k1, h1, rfl⟩ := nonEmpty_some hi
    have := h.good i r a k1 hN h1; omega
  · rcases nonEmpty_none hi with ⟨-, rfl⟩ | ⟨k1, h1, rfl⟩
    · omega
    · have := h.head i k1 hN hc h1; omega

theorem rec_trimmed {N s : Nat} {c : Parser γ} {p : Counted α} (hs : Suff (res p)) (h : Rec N s c p) :
    Rec N (s + 3) (fun i => c (spRest i)) (trimmed p) := by
  have ec : (s + 3) * unit N = s * unit N + 3 * unit N := Nat.add_mul _ _ _
  refine ⟨fun i k hN hi => ?_, fun i r a k hN hi => ?_, fun i k hN hc hi => ?_,
    fun i r a k hi => by
      obtain ⟨r', a', l, h1, -⟩ := trimmed_some hs (Nat.le_refl _) hi
      exact h.need _ r' a' l h1⟩ <;> rw [ec]
  · obtain ⟨l, h1, h2⟩ := trimmed_none hN hi
    have hle := ParserP.spRest_le i
    have e1 := h.bad _ l (by omega) h1
    have : unit N * (spRest i).length ≤ unit N * i.length := Nat.mul_le_mul_left _ hle
    omega
  · obtain ⟨r', a', l, h1, rfl, h3, h4⟩ := trimmed_some hs hN hi
    have hle := ParserP.spRest_le i
    have hle' := ParserP.spRest_le r'
    have e1 := h.good _ r' a' l (by omega) h1
    have : unit N * ((spRest i).length - r'.length) ≤ unit N * (i.length - (spRest r').length) :=
      Nat.mul_le_mul_left _ (by omega)
    omega
  · obtain ⟨l, h1, h2⟩ := trimmed_none hN hi
    have hle := ParserP.spRest_le i
    have e1 := h.head _ l (by omega) hc h1
    omega

/-- A header, and contents in braces. -/
theorem enclosed {N c : Nat} {cond : Counted α} {inner : Counted β} (hcs : Suff (res cond)) (his : Suff (res inner))
    (hcond : ∀ i, i.length ≤ N → (cond i).2 ≤ unit N) (hin : Inner N c inner) (hc : c ≤ 35) :
    Rec N 2 (res cond) (pair cond (preceded (tag (c! "{")) (terminated inner (tag (c! "}"))))) := by
  have hu := unit_len N
  have hcu : c * unit N ≤ 35 * unit N := Nat.mul_le_mul_right _ hc
  have htag : ∀ (t : Str) (i : Str), (tag t i).2 = t.length + 1 := fun _ _ => rfl
  refine ⟨fun i k hN hi => ?_, fun i r x k hN hi => ?_, fun i k hN hc hi => ?_,
    fun i r a k hi => by
      obtain ⟨r1, x1, y1, k1, l1, h1, -⟩ := both_some hi
      rw [res_some h1]
      exact fun h => by cases h⟩
  · rcases both_none hi with ⟨k1, h1, rfl⟩ | ⟨r1, x1, k1, l1, h1, h2, rfl⟩
    · have e1 := hcond i hN
      rw [h1] at e1
      simp only at e1
      omega
    · have e1 := hcond i hN
      rw [h1] at e1
      simp only at e1
      have l0 := hcs.le (res_some h1)
      rcases both_none h2 with ⟨k2, h3, rfl⟩ | ⟨r2, x2, k2, l2, h3, h4, rfl⟩
      · have e2 := htag (c! "{") r1
        rw [h3] at e2
        simp at e2
        omega
      · have e2 := htag (c! "{") r1
        rw [h3] at e2
        simp at e2
        have e3 : r1 = '{' :: r2 := (NomP.tag_some.1 (res_some h3)).1
        have e4 : unit N * r2.length + unit N ≤ unit N * i.length := by
          rw [← Nat.mul_succ]
          exact Nat.mul_le_mul_left _ (by subst e3; simpa using l0)
        have hr2 : r2.length ≤ N := by subst e3; simp at l0; omega
        rcases both_none h4 with ⟨k3, h5, rfl⟩ | ⟨r3, x3, k3, l3, h5, h6, rfl⟩
        · have e5 := hin.bad r2 k3 hr2 h5
          omega
        · have e5 := (hin.good r2 r3 x3 k3 hr2 h5).1
          have e6 := htag (c! "}") r3
          rw [h6] at e6
          simp at e6
          omega
  · obtain ⟨r1, x1, y1, k1, l1, h1, h2, rfl⟩ := both_some hi
    obtain ⟨r2, x2, y2, k2, l2, h3, h4, rfl⟩ := both_some h2
    obtain ⟨r3, x3, y3, k3, l3, h5, h6, rfl⟩ := both_some h4
    have e1 := hcond i hN
    rw [h1] at e1
    simp only at e1
    have l0 := hcs.le (res_some h1)
    have e2 := htag (c! "{") r1
    rw [h3] at e2
    simp at e2
    have e3 : r1 = '{' :: r2 := (NomP.tag_some.1 (res_some h3)).1
    have e4 := htag (c! "}") r3
    rw [h6] at e4
    simp at e4
    have e5 : r3 = '}' :: r := (NomP.tag_some.1 (res_some h6)).1
    have l2 := his.le (res_some h5)
    have hr2 : r2.length ≤ N := by subst e3; simp at l0; omega
    have e6 := (hin.good r2 r3 x3 k3 hr2 h5).2 (by
      unfold Closed; rw [e5, ReparseP.spRest_brace]; rfl)
    have e7 : unit N * (r2.length - r3.length) + 2 * unit N ≤ unit N * (i.length - r.length) := by
      rw [Nat.mul_comm 2, ← Nat.mul_add]
      refine Nat.mul_le_mul_left _ ?_
      subst e3 e5
      simp only [List.length_cons] at l0 l2 ⊢
      omega
    omega
  · rcases both_none hi with ⟨k1, h1, rfl⟩ | ⟨r1, x1, k1, l1, h1, h2, rfl⟩
    · have e1 := hcond i hN
      rw [h1] at e1
      simp only at e1
      omega
    · rw [res_some h1] at hc; cases hc

/-! ## Headers -/

theorem closed_cons {i : Str} (h : Closed i) : ∃ x, spRest i = '}' :: x := by
  unfold Closed at h
  cases e : spRest i with
  | nil => rw [e] at h; cases h
  | cons c x => rw [e] at h; cases h; exact ⟨x, rfl⟩

theorem conditional_at : ∀ n ∈ conditionalNames, ∃ m, n = '@' :: m := by
  intro n hn
  simp only [conditionalNames, List.mem_cons, List.not_mem_nil, or_false] at hn
  rcases hn with rfl | rfl | rfl <;> exact ⟨_, rfl⟩

theorem names_keyframes : RejectedP.Names (Nom.alt (Nom.tag (c! "@keyframes")) Nom.fail) [c! "@keyframes"] :=
  RejectedP.names_alt (RejectedP.names_tag (by decide)) (RejectedP.names_fail _)

theorem keyframes_at : ∀ n ∈ [c! "@keyframes"], ∃ m, n = '@' :: m := by
  intro n hn
  simp only [List.mem_cons, List.not_mem_nil, or_false] at hn
  subst hn
  exact ⟨_, rfl⟩

theorem closed_other {i : Str} (h : Closed i) : Css.otherCondition (spRest i) = none := by
  obtain ⟨x, hx⟩ := closed_cons h
  exact RejectedP.at_char RejectedP.names_other conditional_at (by rw [ParserP.spRest_idem]; exact hx) (by decide)

theorem closed_condition {i : Str} (h : Closed i) : Css.condition (spRest i) = none := by
  obtain ⟨x, hx⟩ := closed_cons h
  rw [hx]
  exact HeadersP.condition_fail (by decide) (by decide) x

/-- The header of an at-rule that holds blocks. -/
abbrev ruleHeader : Parser (List Str) :=
  Css.atRuleCondition (Nom.alt (Nom.tag (c! "@container")) (Nom.alt (Nom.tag (c! "@supports")) (Nom.tag (c! "@media"))))

/-- The header of an animation. -/
abbrev framesHeader : Parser (List Str) := Css.atRuleCondition (Nom.alt (Nom.tag (c! "@keyframes")) Nom.fail)

/-- A header of an at-rule begins with its name. -/
theorem header_name {t : Parser Str} {names : List Str} (ht : RejectedP.Names t names) {i : Str}
    (hsp : spRest i = i) (h : Css.atRuleCondition t i ≠ none) : ∃ n ∈ names, ∃ r, i = n ++ r := by
  cases i with
  | nil =>
    exfalso; apply h
    refine ParserP.trimmed_none.2 ?_
    rw [hsp]; rfl
  | cons c x =>
    cases hx : t (c :: x) with
    | none => exact absurd (HeadersP.atRuleCondition_fail hsp hx) h
    | some y =>
      obtain ⟨n, hn, e⟩ := ht _ _ _ (show _ = some (y.1, y.2) from hx)
      exact ⟨n, hn, _, e⟩

/-- No text has two headers. -/
theorem one_header (i : Str) :
    (Css.condition (spRest i) = none ∧ ruleHeader (spRest i) = none) ∨
    (Css.condition (spRest i) = none ∧ framesHeader (spRest i) = none) ∨
    (ruleHeader (spRest i) = none ∧ framesHeader (spRest i) = none) := by
  have hsp := ParserP.spRest_idem i
  by_cases h1 : ruleHeader (spRest i) = none
  · by_cases h2 : framesHeader (spRest i) = none
    · exact .inr (.inr ⟨h1, h2⟩)
    · obtain ⟨n, hn, r, e⟩ := header_name names_keyframes hsp h2
      simp only [List.mem_cons, List.not_mem_nil, or_false] at hn
      subst hn
      refine .inl ⟨?_, h1⟩
      rw [e]
      exact HeadersP.condition_fail (by decide) (by decide) _
  · obtain ⟨n, hn, r, e⟩ := header_name RejectedP.names_rule hsp h1
    refine .inr (.inl ?_)
    obtain ⟨m, em⟩ := conditional_at n hn
    refine ⟨?_, ?_⟩
    · rw [e, em]
      exact HeadersP.condition_fail (by decide) (by decide) _
    · refine Classical.byContradiction fun h2 => ?_
      obtain ⟨n', hn', r', e'⟩ := header_name names_keyframes hsp h2
      simp only [List.mem_cons, List.not_mem_nil, or_false] at hn'
      subst hn'
      rw [e] at e'
      simp only [conditionalNames, List.mem_cons, List.not_mem_nil, or_false] at hn
      rcases hn with rfl | rfl | rfl <;> simp at e'

/-! ## The parsers -/

theorem const_keyframes : Const 60 (alt (tag (c! "@keyframes")) fail) := fun i =>
  Nat.le_trans (const_alt (const_tag _) const_fail i) (by decide)

theorem const_names (a b c : Str) (h : a.length + b.length + c.length ≤ 50) : Const 60 (alt (tag a) (alt (tag b) (tag c))) :=
  fun i => Nat.le_trans (const_alt (const_tag a) (const_alt (const_tag b) (const_tag c)) i) (by omega)

theorem suff_names (a b c : Str) : Suff (res (alt (tag a) (alt (tag b) (tag c)))) := by
  rw [res_alt, res_alt]
  exact NomP.suff_alt (suff_tag _) (NomP.suff_alt (suff_tag _) (suff_tag _))

theorem other_unit {N : Nat} {i : Str} (h : i.length ≤ N) : (otherCondition i).2 ≤ unit N :=
  quad_unit (mid_atRuleCondition (suff_names _ _ _) (const_names _ _ _ (by decide))).quad (by decide) h

theorem rule_unit {N : Nat} {i : Str} (h : i.length ≤ N) :
    (atRuleCondition (alt (tag (c! "@container")) (alt (tag (c! "@supports")) (tag (c! "@media")))) i).2 ≤ unit N :=
  quad_unit (mid_atRuleCondition (suff_names _ _ _) (const_names _ _ _ (by decide))).quad (by decide) h

theorem frames_unit {N : Nat} {i : Str} (h : i.length ≤ N) :
    (atRuleCondition (alt (tag (c! "@keyframes")) fail) i).2 ≤ unit N :=
  quad_unit (mid_atRuleCondition (suff_of (by rw [res_alt]; rfl) ParserP.suff_keyframesTag) const_keyframes).quad (by decide) h

theorem condition_unit {N : Nat} {i : Str} (h : i.length ≤ N) : (condition i).2 ≤ unit N :=
  quad_unit mid_condition.quad (by decide) h

theorem frame_unit {N : Nat} {i : Str} (h : i.length ≤ N) :
    (map (recognize condition) (fun m => [Str.trim m]) i).2 ≤ unit N :=
  quad_unit (mid_map (mid_recognize mid_condition)).quad (by decide) h

theorem attributes_unit {N : Nat} {i : Str} (d : Bool) (h : i.length ≤ N) : (attributes d i).2 ≤ unit N :=
  quad_unit (quad_attributes d) (by decide) h

theorem dangling_unit {N : Nat} {i : Str} (h : i.length ≤ N) : (danglingBlock i).2 ≤ unit N := by
  refine quad_unit (quad_trimmed ?_ (quad_nonEmpty (quad_map (quad_attributes true)))) (by decide) h
  rw [res_nonEmpty, res_map, res_attributes]
  exact ParserP.suff_nonEmpty (NomP.suff_map (ParserP.suff_attributes true))

/-- Declarations and nested blocks. -/
theorem inner_contents {N : Nat} {rb : Counted Css.RuleP} (hs : Suff (res rb)) (hp : Prog (res rb))
    (h : Rec N 7 (fun i => Css.otherCondition (spRest i)) rb) : Inner N 12 (contentsWith rb) := by
  have hu := unit_len N
  refine inner_map (c := 11) (inner_many0 ?_ ?_ ?_ ?_ ?_)
  · rw [res_alt, res_map, res_map, res_attributes]
    exact NomP.suff_alt (NomP.suff_map (ParserP.suff_attributes _)) (NomP.suff_map hs)
  · rw [res_alt, res_map, res_map, res_attributes]
    exact NomP.prog_alt (NomP.prog_map (ParserP.prog_attributes _)) (NomP.prog_map hp)
  · intro i r a k hN hi
    rcases alt_some hi with ⟨k1, h1, rfl⟩ | ⟨k1, l, h1, h2, rfl⟩
    · obtain ⟨a', k2, h3, rfl⟩ := map_some h1
      have e1 := attributes_unit false hN
      rw [h3] at e1
      simp only at e1
      have : r.length < i.length := by
        have := res_some h3
        rw [res_attributes] at this
        exact ParserP.prog_attributes _ _ _ _ this
      have := unit_pos N (x := i.length - r.length) (by omega)
      omega
    · obtain ⟨k2, h3, rfl⟩ := map_none h1
      have e1 := attributes_unit false hN
      rw [h3] at e1
      simp only at e1
      obtain ⟨a', k4, h4, rfl⟩ := map_some h2
      have e2 := h.good i r a' k4 hN h4
      omega
  · intro i k hN hi
    obtain ⟨k1, l, h1, h2, rfl⟩ := alt_none hi
    obtain ⟨k2, h3, rfl⟩ := map_none h1
    have e1 := attributes_unit false hN
    rw [h3] at e1
    simp only at e1
    obtain ⟨k4, h4, rfl⟩ := map_none h2
    have e2 := h.bad i k4 hN h4
    omega
  · intro i k hN hc hi
    obtain ⟨k1, l, h1, h2, rfl⟩ := alt_none hi
    obtain ⟨k2, h3, rfl⟩ := map_none h1
    have e1 := attributes_unit false hN
    rw [h3] at e1
    simp only at e1
    obtain ⟨k4, h4, rfl⟩ := map_none h2
    have e2 := h.head i k4 hN (closed_other hc) h4
    omega

theorem suff_contents {rb : Counted Css.RuleP} (hs : Suff (res rb)) : Suff (res (contentsWith rb)) := by
  rw [res_contentsWith]; exact ParserP.suff_contentsWith hs

theorem rec_ruleBlockWith {N : Nat} {cond : Counted (List Str)} {rb : Counted Css.RuleP} (hcs : Suff (res cond))
    (hcond : ∀ i, i.length ≤ N → (cond i).2 ≤ unit N) (hs : Suff (res rb)) (hp : Prog (res rb))
    (h : Rec N 7 (fun i => Css.otherCondition (spRest i)) rb) :
    Rec N 7 (fun i => res cond (spRest i)) (ruleBlockWith cond rb) := by
  have his : Suff (res (ruleBlockContentsWith rb)) := by
    unfold ruleBlockContentsWith; rw [res_nonEmpty]; exact ParserP.suff_nonEmpty (suff_contents hs)
  refine (rec_trimmed (s := 3) ?_ (rec_nonEmpty (enclosed hcs his hcond (inner_nonEmpty (inner_contents hs hp h))
    (by decide)))).mono (by decide)
  rw [res_nonEmpty, res_pair, res_preceded, res_terminated]
  exact ParserP.suff_nonEmpty (NomP.suff_pair hcs (NomP.suff_preceded (suff_tag _) (NomP.suff_terminated his (suff_tag _))))

theorem suff_ruleBlock (n : Nat) : Suff (res (ruleBlock n)) := suff_of (res_ruleBlock n) (ParserP.suff_ruleBlock n)
theorem prog_ruleBlock (n : Nat) : Prog (res (ruleBlock n)) := prog_of (res_ruleBlock n) (ParserP.prog_ruleBlock n)

theorem rec_fail {N s : Nat} {c : Parser γ} (hs : 0 < s) : Rec N s c (fail : Counted α) := by
  have hu := unit_len N
  have : unit N ≤ s * unit N := Nat.le_mul_of_pos_left _ hs
  refine ⟨fun i k hN hi => ?_, fun i r a k hN hi => ?_, fun i k hN hc hi => ?_,
    fun i r a k hi => by cases hi⟩ <;> cases hi <;> omega

theorem rec_ruleBlock (N : Nat) : ∀ n, Rec N 7 (fun i => Css.otherCondition (spRest i)) (ruleBlock n)
  | 0 => rec_fail (by decide)
  | n + 1 => by
    have h := rec_ruleBlockWith (N := N) (cond := otherCondition) (suff_of res_otherCondition ParserP.suff_otherCondition)
      (fun i hi => other_unit hi) (suff_ruleBlock n) (prog_ruleBlock n) (rec_ruleBlock N n)
    rw [res_otherCondition] at h
    exact h

theorem rec_frame (N n : Nat) : Rec N 7 (fun i => Css.condition (spRest i)) (ruleBlockKeyframes n) := by
  have h := rec_ruleBlockWith (N := N) (cond := map (recognize condition) (fun m => [Str.trim m]))
    (suff_of res_frame ParserP.suff_frameCondition)
    (fun i hi => frame_unit hi) (suff_ruleBlock n) (prog_ruleBlock n) (rec_ruleBlock N n)
  have e : ∀ i, res (map (recognize condition) (fun m => [Str.trim m])) (spRest i) = none ↔ Css.condition (spRest i) = none := by
    intro i
    rw [res_frame, NomP.map_none, NomP.recognize_none]
  exact ⟨h.bad, h.good, fun i k hN hc hi => h.head i k hN ((e i).2 hc) hi,
    fun i r a k hi hc => h.need i r a k hi ((e i).2 hc)⟩

theorem inner_frames (N n : Nat) : Inner N 9 (many0 (ruleBlockKeyframes n)) := by
  have hu := unit_len N
  have h := rec_frame N n
  refine inner_many0 (suff_of (res_ruleBlockKeyframes n) (ParserP.suff_ruleBlockKeyframes n))
    (prog_of (res_ruleBlockKeyframes n) (ParserP.prog_ruleBlockKeyframes n)) ?_ ?_ ?_
  · intro i r a k hN hi
    have := h.good i r a k hN hi
    omega
  · intro i k hN hi
    have := h.bad i k hN hi
    omega
  · intro i k hN hc hi
    have := h.head i k hN (closed_condition hc) hi
    omega

theorem rec_block (N n : Nat) : Rec N 7 (fun i => Css.condition (spRest i)) (block n) := by
  have hbs : Suff (res (blockContents n)) := suff_of (res_blockContents n) (ParserP.suff_blockContents n)
  have his : Suff (res (trimmed (blockContents n))) := by rw [res_trimmed]; exact ParserP.suff_trimmed hbs
  have hcs : Suff (res condition) := suff_of res_condition ParserP.suff_condition
  have hin : Inner N 19 (trimmed (blockContents n)) := by
    refine inner_trimmed (c := 16) hbs (inner_trimmed (c := 13) ?_
      (inner_nonEmpty (inner_contents (suff_ruleBlock n) (prog_ruleBlock n) (rec_ruleBlock N n))))
    rw [res_nonEmpty]
    exact ParserP.suff_nonEmpty (suff_contents (suff_ruleBlock n))
  have h := rec_trimmed (s := 4) (p := nonEmpty (map (pair condition (delimited (tag (c! "{")) (trimmed (blockContents n)) (tag (c! "}"))))
    (fun p => ScopeContent.block p.1 p.2))) ?_
    (rec_nonEmpty (rec_map (enclosed hcs his (fun i hi => condition_unit (N := N) hi) hin (by decide))))
  · rw [res_condition] at h
    exact h
  · rw [res_nonEmpty, res_map, res_pair, res_delimited]
    exact ParserP.suff_nonEmpty (NomP.suff_map (NomP.suff_pair hcs (NomP.suff_delimited (suff_tag _) his (suff_tag _))))

theorem rec_keyframes (N n : Nat) : Rec N 7 (fun i => framesHeader (spRest i)) (keyframes n) := by
  have his : Suff (res (many0 (ruleBlockKeyframes n))) := by
    rw [res_many0, res_ruleBlockKeyframes]; exact NomP.suff_many0 (ParserP.suff_ruleBlockKeyframes n)
  have e : res (atRuleCondition (alt (tag (c! "@keyframes")) fail)) = framesHeader := by
    rw [res_atRuleCondition, res_alt, res_tag, res_fail]
  have hcs : Suff (res (atRuleCondition (alt (tag (c! "@keyframes")) fail))) :=
    suff_of e (ParserP.suff_atRuleCondition ParserP.suff_keyframesTag)
  have h := rec_map (f := fun (p : List Str × List Css.RuleP) => ScopeContent.rule p.1 (p.2.map (fun r => RBC.rule r.1 r.2)))
    (rec_trimmed (s := 2) ?_ (enclosed hcs his (fun i hi => frames_unit (N := N) hi) (inner_frames N n) (by decide)))
  · rw [e] at h
    exact h.mono (by decide)
  · rw [res_pair, res_preceded, res_terminated]
    exact NomP.suff_pair hcs (NomP.suff_preceded (suff_tag _) (NomP.suff_terminated his (suff_tag _)))

theorem rec_atRuleWith {N : Nat} {sc : Counted (List ScopeContent)} (his : Suff (res sc)) (hin : Inner N 35 sc) :
    Rec N 7 (fun i => ruleHeader (spRest i)) (atRuleWith sc) := by
  have e : res (atRuleCondition (alt (tag (c! "@container")) (alt (tag (c! "@supports")) (tag (c! "@media"))))) = ruleHeader := by
    rw [res_atRuleCondition, res_alt, res_alt, res_tag, res_tag, res_tag]
  have hcs : Suff (res (atRuleCondition (alt (tag (c! "@container")) (alt (tag (c! "@supports")) (tag (c! "@media")))))) :=
    suff_of e (ParserP.suff_atRuleCondition ParserP.suff_scopeTags)
  have h := rec_trimmed (s := 4) (p := nonEmpty (map (pair (atRuleCondition (alt (tag (c! "@container")) (alt (tag (c! "@supports")) (tag (c! "@media")))))
    (preceded (tag (c! "{")) (terminated sc (tag (c! "}"))))) (fun p => ScopeContent.rule p.1 (p.2.map ScopeContent.toRBC)))) ?_
    (rec_nonEmpty (rec_map (enclosed hcs his (fun i hi => rule_unit (N := N) hi) hin (by decide))))
  · rw [e] at h
    exact h
  · rw [res_nonEmpty, res_map, res_pair, res_preceded, res_terminated]
    exact ParserP.suff_nonEmpty (NomP.suff_map (NomP.suff_pair hcs (NomP.suff_preceded (suff_tag _) (NomP.suff_terminated his (suff_tag _)))))

theorem suff_scopeContents (n : Nat) : Suff (res (scopeContents n)) :=
  suff_of (res_scopeContents n) (ParserP.suff_scopeContents n)

/-- The three alternatives with a header: one of them at most is expensive. -/
theorem inner_scopeContents (N : Nat) : ∀ n, Inner N 35 (scopeContents n)
  | 0 => by
    have hu := unit_len N
    refine ⟨fun i k hN hi => ?_, fun i r a k hN hi => ?_⟩ <;> cases hi
    omega
  | n + 1 => by
    have hu := unit_len N
    have h1 := rec_block N n
    have h2 := rec_atRuleWith (suff_scopeContents n) (inner_scopeContents N n)
    have h3 := rec_keyframes N n
    have es : res (scopeItemWith n (scopeContents n)) = Css.scopeItemWith n (Css.scopeContents n) := by
      rw [res_scopeItemWith, res_scopeContents]
    have hs : Suff (res (scopeItemWith n (scopeContents n))) :=
      suff_of es (ParserP.suff_scopeItemWith n (ParserP.suff_scopeContents n))
    have hp : Prog (res (scopeItemWith n (scopeContents n))) :=
      prog_of es (ParserP.prog_scopeItemWith n (ParserP.suff_scopeContents n))
    have hm : Inner N 31 (many0 (scopeItemWith n (scopeContents n))) := by
      refine inner_many0 hs hp ?_ ?_ ?_
      · intro i r a k hN hi
        have e1 := dangling_unit hN
        have hlt : r.length < i.length := hp _ _ _ (res_some hi)
        have hpos := unit_pos N (x := i.length - r.length) (by omega)
        rcases alt_some hi with ⟨k1, g1, rfl⟩ | ⟨k1, l1, g1, g2, rfl⟩
        · rw [g1] at e1
          simp only at e1
          omega
        · rw [g1] at e1
          simp only at e1
          rcases alt_some g2 with ⟨k2, g3, rfl⟩ | ⟨k2, l2, g3, g4, rfl⟩
          · have := h1.good i r a k2 hN g3
            omega
          · rcases alt_some g4 with ⟨k3, g5, rfl⟩ | ⟨k3, l3, g5, g6, rfl⟩
            · have a1 := h2.good i r a k3 hN g5
              have a2 := h2.need i r a k3 g5
              have a3 := h1.head i k2 hN (by
                rcases one_header i with ⟨q1, q2⟩ | ⟨q1, q2⟩ | ⟨q1, q2⟩
                · exact q1
                · exact q1
                · exact absurd q1 a2) g3
              omega
            · have a1 := h3.good i r a l3 hN g6
              have a2 := h3.need i r a l3 g6
              obtain ⟨q1, q2⟩ : Css.condition (spRest i) = none ∧ ruleHeader (spRest i) = none := by
                rcases one_header i with q | ⟨q1, q2⟩ | ⟨q1, q2⟩
                · exact q
                · exact absurd q2 a2
                · exact absurd q2 a2
              have a3 := h1.head i k2 hN q1 g3
              have a4 := h2.head i k3 hN q2 g5
              omega
      · intro i k hN hi
        obtain ⟨k1, l1, g1, g2, rfl⟩ := alt_none hi
        obtain ⟨k2, l2, g3, g4, rfl⟩ := alt_none g2
        obtain ⟨k3, l3, g5, g6, rfl⟩ := alt_none g4
        have e1 := dangling_unit hN
        rw [g1] at e1
        simp only at e1
        have b1 := h1.bad i k2 hN g3
        have b2 := h2.bad i k3 hN g5
        have b3 := h3.bad i l3 hN g6
        rcases one_header i with ⟨q1, q2⟩ | ⟨q1, q2⟩ | ⟨q1, q2⟩
        · have := h1.head i k2 hN q1 g3
          have := h2.head i k3 hN q2 g5
          omega
        · have := h1.head i k2 hN q1 g3
          have := h3.head i l3 hN q2 g6
          omega
        · have := h2.head i k3 hN q1 g5
          have := h3.head i l3 hN q2 g6
          omega
      · intro i k hN hc hi
        obtain ⟨k1, l1, g1, g2, rfl⟩ := alt_none hi
        obtain ⟨k2, l2, g3, g4, rfl⟩ := alt_none g2
        obtain ⟨k3, l3, g5, g6, rfl⟩ := alt_none g4
        have e1 := dangling_unit hN
        rw [g1] at e1
        simp only at e1
        obtain ⟨x, hx⟩ := closed_cons hc
        have hx' : spRest (spRest i) = '}' :: x := by rw [ParserP.spRest_idem]; exact hx
        have := h1.head i k2 hN (closed_condition hc) g3
        have := h2.head i k3 hN (RejectedP.at_char RejectedP.names_rule conditional_at hx' (by decide)) g5
        have := h3.head i l3 hN (RejectedP.at_char names_keyframes keyframes_at hx' (by decide)) g6
        omega
    exact inner_trimmed (c := 32) (by rw [res_nonEmpty]; exact ParserP.suff_nonEmpty (by rw [res_many0]; exact NomP.suff_many0 hs))
      (inner_nonEmpty hm)

/-! ## The whole text -/

/-- After one round of a scope, another one reads nothing. -/
theorem scope_again {n : Nat} {i r r' : Str} {l l' : List ScopeContent} (h : Css.scope n i = some (r, l))
    (h' : Css.scope n r = some (r', l')) : r'.length = r.length := by
  cases n with
  | zero =>
    obtain ⟨r1, h1, -⟩ := ParserP.trimmed_some.1 h
    obtain ⟨-, h2⟩ := ParserP.nonEmpty_some.1 h1
    cases h2
  | succ n =>
    obtain ⟨r1, h1, rfl⟩ := ParserP.trimmed_some.1 h
    obtain ⟨-, h2⟩ := ParserP.nonEmpty_some.1 h1
    obtain ⟨r2, h3, rfl⟩ := ParserP.trimmed_some.1 h2
    obtain ⟨-, h4⟩ := ParserP.nonEmpty_some.1 h3
    have hs := ParserP.suff_scopeItemWith n (ParserP.suff_scopeContents n)
    have h5 := NomP.many0_stops hs h4
    have hstop : Css.scopeItemWith n (Css.scopeContents n) (spRest r2) = none := by
      have e : spRest (spRest r2) = spRest r2 := ParserP.spRest_idem r2
      rw [← h5]
      simp only [Css.scopeItemWith, Nom.alt]
      rw [show Css.danglingBlock (spRest r2) = Css.danglingBlock r2 from ParserP.trimmed_eq_of_spRest e,
        show Css.block n (spRest r2) = Css.block n r2 from ParserP.trimmed_eq_of_spRest e,
        show Css.atRuleWith (Css.scopeContents n) (spRest r2) = Css.atRuleWith (Css.scopeContents n) r2 from
          ParserP.trimmed_eq_of_spRest e,
        show Css.keyframes n (spRest r2) = Css.keyframes n r2 from by
          simp only [Css.keyframes, Nom.map]
          rw [ParserP.trimmed_eq_of_spRest e]]
    rw [ParserP.spRest_idem] at h'
    obtain ⟨r3, g1, rfl⟩ := ParserP.trimmed_some.1 h'
    obtain ⟨-, g2⟩ := ParserP.nonEmpty_some.1 g1
    obtain ⟨r4, g3, rfl⟩ := ParserP.trimmed_some.1 g2
    obtain ⟨-, g4⟩ := ParserP.nonEmpty_some.1 g3
    rw [ParserP.spRest_idem, ParserP.spRest_idem, NomP.many0_stop hs hstop] at g4
    cases g4
    simp [ParserP.spRest_idem]

theorem many0_scope {N n : Nat} {i : Str} (hN : i.length ≤ N) :
    (many0 (scope n) i).2 ≤ 120 * (unit N * N) + 80 * unit N := by
  have hu := unit_len N
  have hin : Inner N 39 (scope n) := by
    refine inner_trimmed (c := 36) ?_ (inner_nonEmpty (inner_scopeContents N n))
    rw [res_nonEmpty]
    exact ParserP.suff_nonEmpty (suff_scopeContents n)
  have hs : Suff (res (scope n)) := suff_of (res_scope n) (ParserP.suff_scope n)
  have hmul : ∀ {x}, x ≤ N → unit N * x ≤ unit N * N := fun h => Nat.mul_le_mul_left _ h
  have m1 := hmul hN
  simp only [many0, many0Loop]
  rcases h1 : scope n i with ⟨_ | ⟨r, a⟩, k⟩
  · have := hin.bad i k hN h1
    simp only
    omega
  · have e1 := (hin.good i r a k hN h1).1
    have hr := hs.le (res_some h1)
    simp only
    split
    · simp only; omega
    · rename_i hne
      obtain ⟨m, hm⟩ : ∃ m, i.length = m + 1 := ⟨i.length - 1, by omega⟩
      rw [hm]
      simp only [many0Loop]
      have m2 := hmul (x := r.length) (by omega)
      rcases h2 : scope n r with ⟨_ | ⟨r', a'⟩, k'⟩
      · have := hin.bad r k' (by omega) h2
        simp only
        omega
      · have e2 := (hin.good r r' a' k' (by omega) h2).1
        have g1 := res_some h1
        have g2 := res_some h2
        rw [res_scope] at g1 g2
        simp only [scope_again g1 g2, if_true]
        omega

theorem sheet_steps (n : Nat) (i : Str) : (sheet n i).2 ≤ 120 * (unit i.length * i.length) + 85 * unit i.length := by
  have hu := unit_len i.length
  have hle := ParserP.spRest_le i
  have hm := many0_scope (n := n) hle
  rcases h : sheet n i with ⟨_ | ⟨r, a⟩, k⟩
  · obtain ⟨l, h1, h2⟩ := trimmed_none (Nat.le_refl _) h
    obtain ⟨k1, h3, rfl⟩ := map_none h1
    rw [h3] at hm
    simp only at hm ⊢
    omega
  · have hs : Suff (res (map (many0 (scope n)) List.flatten)) := by
      rw [res_map, res_many0, res_scope]
      exact NomP.suff_map (NomP.suff_many0 (ParserP.suff_scope n))
    obtain ⟨r', a', l, h1, -, h3, h4⟩ := trimmed_some hs (Nat.le_refl _) h
    obtain ⟨a2, k1, h5, rfl⟩ := map_some h1
    rw [h5] at hm
    simp only at hm ⊢
    omega

theorem parse_steps (css : Str) :
    (parse css).2 ≤ 2000000 * ((css.length + 1) * (css.length + 1) * (css.length + 1)) := by
  have hu := unit_len css.length
  have h : (parse css).2 = (sheet (css.length + 1) css).2 + 1 := rfl
  have e := sheet_steps (css.length + 1) css
  have : unit css.length * (css.length + 1) = 16000 * ((css.length + 1) * (css.length + 1) * (css.length + 1)) := by
    unfold unit; rw [Nat.mul_assoc]
  rw [Nat.mul_add, Nat.mul_one] at this
  omega

end Steps
