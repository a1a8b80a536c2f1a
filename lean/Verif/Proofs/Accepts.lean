import Verif.Proofs.Accepted
import Verif.Proofs.Swallow

/-! # Exactly the css that is accepted: declarations, selectors, heads -/

namespace AcceptedP
open Nom NomP Css ParserP LexP ShapeP GrammarP DeclsP HeadersP ReparseP LayoutP ReadableP Spec

variable {α β : Type}

/-! ## Declarations -/

theorem decl_iff {i r : Str} {d : Str × List Str} : styleAttribute i = some (r, d) ↔ DeclAt i d r := by
  constructor
  · intro h
    obtain ⟨r', h1, rfl⟩ := trimmed_some.1 h
    obtain ⟨-, h2⟩ := nonEmpty_some.1 h1
    obtain ⟨⟨k, v⟩, h3, rfl⟩ := map_some.1 h2
    obtain ⟨r1', r2, x, h4, h5, h6⟩ := separatedPair_some.1 h3
    obtain ⟨ra, h7, rfl⟩ := trimmed_some.1 h4
    obtain ⟨h8, -⟩ := tag_some.1 h5
    obtain ⟨r3, h9, rfl⟩ := trimmed_some.1 h6
    obtain ⟨raw, h10, e⟩ := map_some.1 h9
    obtain ⟨e1, hne, hl⟩ := value_iff.1 h10
    rw [spRest_idem] at h7
    subst e
    exact .intro i k ra r2 raw r3 _ (gap_iff.2 (ident_text h7).symm) (ident_sound h7) (gap_iff.2 h8.symm)
      (gap_iff.2 e1.symm) hne hl (gap_iff.2 (spRest_idem _))
  · intro h
    obtain ⟨key, r1, r2, raw, r3, _, g1, hk, g2, g3, hne, hl, g4⟩ := h
    obtain ⟨b, hb, e, -⟩ := id g2
    have hno : NoIdent r1 := by
      rw [e]; exact blank_noIdent hb (by intro c hc; simp at hc; subst hc; decide)
    rw [gap_iff] at g1 g2 g3 g4
    refine trimmed_some.2 ⟨spRest r3, nonEmpty_some.2 ⟨?_, map_some.2 ⟨(key, Str.trim raw), separatedPair_some.2
      ⟨_, r2, c! ":", trimmed_some.2 ⟨r1, ?_, g2⟩, tag_append (c! ":") r2, trimmed_some.2 ⟨r3, map_some.2 ⟨raw, ?_, rfl⟩, rfl⟩⟩, rfl⟩⟩,
      by rw [spRest_idem, g4]⟩
    · rw [← g1]
      cases key with
      | nil => exact hk.elim
      | cons c k => simp
    · rw [← g1, ident_nonblank hk]
      exact ident_read hk hno
    · rw [← g3]
      exact value_iff.2 ⟨rfl, hne, hl⟩

theorem decl_none {i : Str} : styleAttribute i = none ↔ ∀ d r, ¬ DeclAt i d r := by
  constructor
  · intro h d r hd
    rw [decl_iff.2 hd] at h
    cases h
  · intro h
    cases hx : styleAttribute i with
    | none => rfl
    | some x => exact absurd (decl_iff.1 (show _ = some (x.1, x.2) from hx)) (h _ _)

theorem decl_end {i r : Str} {d : Str × List Str} (h : styleAttribute i = some (r, d)) : spRest r = r := by
  obtain ⟨_, -, rfl⟩ := trimmed_some.1 h; exact spRest_idem _

theorem decl_sp (i : Str) : styleAttribute (spRest i) = styleAttribute i :=
  trimmed_eq_of_spRest (spRest_idem i)

/-- Declarations with semicolons between them. -/
abbrev declList : Parser (List (Str × List Str)) := separatedList1 (tag (c! ";")) styleAttribute

theorem list_sp (i : Str) : declList (spRest i) = declList i := by
  show separatedList1 _ _ _ = separatedList1 _ _ _
  simp only [separatedList1, decl_sp]

theorem semi_len (r1 : Str) : r1.length ≠ (';' :: r1).length := by simp

theorem list_one {i r : Str} {d : Str × List Str} (h : styleAttribute i = some (r, d))
    (hr : ∀ r1, r = ';' :: r1 → styleAttribute r1 = none) : declList i = some (r, [d]) := by
  have h1 : sepLoop (tag (c! ";")) styleAttribute (r.length + 1) r = some (r, []) := by
    cases ht : tag (c! ";") r with
    | none => simp only [sepLoop, ht]
    | some x =>
      obtain ⟨r1, t⟩ := x
      obtain ⟨e, -⟩ := tag_some.1 ht
      subst e
      exact sepLoop_end ht (semi_len r1) (hr r1 rfl)
  show separatedList1 _ _ _ = _
  simp only [separatedList1, h, h1]

theorem list_more {i r1 r : Str} {d : Str × List Str} {ds : List (Str × List Str)}
    (h : styleAttribute i = some (';' :: r1, d)) (hr : declList r1 = some (r, ds)) :
    declList i = some (r, d :: ds) := by
  change separatedList1 _ _ _ = _ at hr
  simp only [separatedList1] at hr
  split at hr
  · cases hr
  · rename_i r2 b h1
    split at hr
    · cases hr
    · rename_i r3 bs h2
      cases hr
      have hl := prog_styleAttribute _ _ _ h1
      have h3 : sepLoop (tag (c! ";")) styleAttribute ((';' :: r1).length + 1) (';' :: r1) = some (r, b :: bs) := by
        refine sepLoop_step (tag_append (c! ";") r1) (semi_len r1) h1 ?_
        rw [sepLoop_budget (suff_tag _) suff_styleAttribute _ (r2.length + 1) r2 (by simp; omega) (by omega)]
        exact h2
      show separatedList1 _ _ _ = _
      simp only [separatedList1, h, h3]

theorem list_inv {i r : Str} {ds : List (Str × List Str)} (h : declList i = some (r, ds)) :
    ∃ r0 d, styleAttribute i = some (r0, d) ∧
      ((r = r0 ∧ ds = [d] ∧ ∀ r1, r0 = ';' :: r1 → styleAttribute r1 = none) ∨
        ∃ r1 ds', r0 = ';' :: r1 ∧ ds = d :: ds' ∧ declList r1 = some (r, ds')) := by
  change separatedList1 _ _ _ = _ at h
  simp only [separatedList1] at h
  split at h
  · cases h
  · rename_i r0 d h1
    refine ⟨r0, d, h1, ?_⟩
    split at h
    · cases h
    · rename_i r' bs h2
      cases h
      simp only [sepLoop] at h2
      cases ht : tag (c! ";") r0 with
      | none =>
        rw [ht] at h2
        cases h2
        refine Or.inl ⟨rfl, rfl, fun r1 e => ?_⟩
        subst e
        have := tag_append (c! ";") r1
        rw [List.cons_append, List.nil_append, ht] at this
        cases this
      | some x =>
        obtain ⟨r1, t⟩ := x
        obtain ⟨e, -⟩ := tag_some.1 ht
        subst e
        rw [ht] at h2
        simp only [List.cons_append, List.nil_append] at h1 h2 ⊢
        rw [if_neg (semi_len r1)] at h2
        cases h3 : styleAttribute r1 with
        | none =>
          rw [h3] at h2
          cases h2
          refine Or.inl ⟨rfl, rfl, fun r1' e => ?_⟩
          cases e
          exact h3
        | some y =>
          obtain ⟨r2, b⟩ := y
          rw [h3] at h2
          simp only at h2
          split at h2
          · cases h2
          · rename_i r3 bs' h4
            cases h2
            have hl := prog_styleAttribute _ _ _ h3
            rw [sepLoop_budget (suff_tag _) suff_styleAttribute _ (r2.length + 1) r2 (by simp; omega) (by omega)] at h4
            refine Or.inr ⟨r1, _, rfl, rfl, ?_⟩
            show separatedList1 _ _ _ = _
            simp only [separatedList1, h3, h4]

theorem list_end {ds : List (Str × List Str)} : ∀ {i r : Str}, declList i = some (r, ds) → spRest r = r := by
  induction ds with
  | nil =>
    intro i r h
    obtain ⟨_, _, _, ⟨-, h, -⟩ | ⟨_, _, -, h, -⟩⟩ := list_inv h <;> cases h
  | cons d ds ih =>
    intro i r h
    obtain ⟨r0, d', h1, ⟨rfl, -, -⟩ | ⟨r1, ds', -, h2, h3⟩⟩ := list_inv h
    · exact decl_end h1
    · cases h2
      exact ih h3

theorem attributes_iff {b : Bool} {i r : Str} {ds : List (Str × List Str)} :
    attributes b i = some (r, ds) ↔ ∃ e r' o, declList i = some (e, ds) ∧ finalSemicolon b e = some (r', o) ∧ r = spRest r' := by
  constructor
  · intro h
    obtain ⟨r', h1, rfl⟩ := trimmed_some.1 h
    obtain ⟨-, h2⟩ := nonEmpty_some.1 h1
    obtain ⟨e, o, h3, h4⟩ := terminated_some.1 h2
    obtain ⟨e', x, h5, h6⟩ := preceded_some.1 h4
    have h7 : declList i = some (e, ds) := by rw [← list_sp]; exact h3
    have h8 : e' = e := by
      rcases opt_some.1 h5 with ⟨-, h, -⟩ | ⟨a, h, -⟩
      · exact h
      · obtain ⟨u, hu⟩ := sp_total e
        rw [hu] at h
        cases h
        exact list_end h7
    subst h8
    exact ⟨_, _, _, h7, h6, rfl⟩
  · rintro ⟨e, r', o, h1, h2, rfl⟩
    exact attributes_of_list (by rw [← h1]; exact list_sp i) (list_end h1) h2

theorem decls_of_list {ds : List (Str × List Str)} : ∀ {i e : Str}, declList i = some (';' :: e, ds) →
    DeclsAt i ds (spRest e) := by
  induction ds with
  | nil =>
    intro i r h
    obtain ⟨_, _, _, ⟨-, h, -⟩ | ⟨_, _, -, h, -⟩⟩ := list_inv h <;> cases h
  | cons d ds ih =>
    intro i e h
    obtain ⟨r0, d', h1, ⟨rfl, h2, h3⟩ | ⟨r1, ds', rfl, h2, h3⟩⟩ := list_inv h
    · cases h2
      exact .last _ _ _ _ (decl_iff.1 h1) (decl_none.1 (h3 _ rfl)) (gap_sp _)
    · cases h2
      exact .more _ _ _ _ _ (decl_iff.1 h1) (ih h3)

theorem list_of_decls {i r : Str} {ds : List (Str × List Str)} (h : DeclsAt i ds r) :
    ∃ e, declList i = some (';' :: e, ds) ∧ r = spRest e := by
  induction h with
  | last i r1 r d h1 h2 h3 =>
    refine ⟨r1, list_one (decl_iff.2 h1) (fun r' e => ?_), gap_iff.1 h3⟩
    cases e
    exact decl_none.2 h2
  | more i r1 r d ds h1 _ ih =>
    obtain ⟨e, h2, h3⟩ := ih
    exact ⟨e, list_more (decl_iff.2 h1) h2, h3⟩

theorem decls_iff {i r : Str} {ds : List (Str × List Str)} : attributes true i = some (r, ds) ↔ DeclsAt i ds r := by
  rw [attributes_iff]
  constructor
  · rintro ⟨e, r', o, h1, h2, rfl⟩
    obtain ⟨t, h3, -⟩ := map_some.1 h2
    obtain ⟨e', -⟩ := tag_some.1 h3
    subst e'
    exact decls_of_list h1
  · intro h
    obtain ⟨e, h1, rfl⟩ := list_of_decls h
    exact ⟨_, e, _, h1, map_some.2 ⟨_, tag_append (c! ";") e, rfl⟩, rfl⟩

/-- Declarations outside of all blocks. -/
theorem dangling_iff {i r : Str} {x : ScopeContent} : danglingBlock i = some (r, x) ↔
    ∃ ds, DeclsAt i ds r ∧ x = .block [] (declContents ds) := by
  constructor
  · intro h
    obtain ⟨r', h1, rfl⟩ := trimmed_some.1 h
    obtain ⟨-, h2⟩ := nonEmpty_some.1 h1
    obtain ⟨ds, h3, rfl⟩ := map_some.1 h2
    have h4 : attributes true i = some (r', ds) := by rw [← h3]; exact trimmed_eq_of_spRest (spRest_idem i).symm
    have h5 : spRest r' = r' := by obtain ⟨_, -, rfl⟩ := trimmed_some.1 h4; exact spRest_idem _
    rw [h5]
    exact ⟨ds, decls_iff.1 h4, rfl⟩
  · rintro ⟨ds, h1, rfl⟩
    have h2 := decls_iff.2 h1
    have h5 : spRest r = r := by obtain ⟨_, -, rfl⟩ := trimmed_some.1 h2; exact spRest_idem _
    have h3 : attributes true (spRest i) = some (r, ds) := by
      rw [← h2]; exact trimmed_eq_of_spRest (spRest_idem i)
    refine trimmed_some.2 ⟨r, nonEmpty_some.2 ⟨?_, map_some.2 ⟨ds, h3, rfl⟩⟩, h5.symm⟩
    intro e
    rw [e] at h3
    have : attributes true [] = none := by decide
    rw [this] at h3
    cases h3

theorem dangling_none {i : Str} : danglingBlock i = none ↔ ∀ ds r, ¬ DeclsAt i ds r := by
  constructor
  · intro h ds r hd
    rw [dangling_iff.2 ⟨ds, hd, rfl⟩] at h
    cases h
  · intro h
    cases hx : danglingBlock i with
    | none => rfl
    | some x =>
      obtain ⟨ds, hd, -⟩ := dangling_iff.1 (show _ = some (x.1, x.2) from hx)
      exact absurd hd (h _ _)

/-! ## Selectors -/

theorem many0_nil_iff {p : Parser α} (hp : Suff p) (hpp : Prog p) {i r : Str} :
    many0 p i = some (r, []) ↔ p i = none ∧ r = i := by
  cases h : p i with
  | none => rw [many0_stop hp h]; simp [eq_comm]
  | some x =>
    rw [many0_step hp hpp (show _ = some (x.1, x.2) from h)]
    cases many0 p x.1 <;> simp

theorem many0_cons_iff {p : Parser α} (hp : Suff p) (hpp : Prog p) {i r : Str} {a : α} {as : List α} :
    many0 p i = some (r, a :: as) ↔ ∃ r1, p i = some (r1, a) ∧ many0 p r1 = some (r, as) := by
  cases h : p i with
  | none => rw [many0_stop hp h]; simp
  | some x =>
    rw [many0_step hp hpp (show _ = some (x.1, x.2) from h)]
    obtain ⟨r1, b⟩ := x
    cases h2 : many0 p r1 with
    | none => simp; intro _ h3; rw [h2] at h3; cases h3
    | some y =>
      obtain ⟨r2, bs⟩ := y
      simp
      constructor
      · rintro ⟨rfl, rfl, rfl⟩
        exact ⟨r1, ⟨rfl, rfl⟩, h2⟩
      · rintro ⟨_, ⟨rfl, rfl⟩, h3⟩
        rw [h2] at h3
        cases h3
        exact ⟨rfl, rfl, rfl⟩

theorem sel_iff {i r : Str} {s : Selector} : selector i = some (r, s) ↔ SelAt i s r := by
  constructor
  · intro h
    obtain ⟨r1, h1, rfl⟩ := trimmed_some.1 h
    obtain ⟨-, h2⟩ := nonEmpty_some.1 h1
    obtain ⟨raw, h3, rfl⟩ := map_some.1 h2
    obtain ⟨e, hne, hl⟩ := selectorRaw_iff.1 h3
    exact .intro i raw r1 _ (gap_iff.2 e.symm) hne hl (gap_sp _)
  · intro h
    obtain ⟨raw, r1, _, g1, hne, hl, g2⟩ := h
    rw [gap_iff] at g1 g2
    subst g2
    refine trimmed_some.2 ⟨r1, nonEmpty_some.2 ⟨?_, map_some.2 ⟨raw, ?_, rfl⟩⟩, rfl⟩
    · rw [← g1]; simp [hne]
    · rw [← g1]; exact selectorRaw_iff.2 ⟨rfl, hne, hl⟩

theorem sel_sp (i : Str) : selector (spRest i) = selector i := trimmed_eq_of_spRest (spRest_idem i)

theorem sels_fwd {ss : List Selector} : ∀ {i r : Str}, many0 condPiece i = some (r, ss) → ss ≠ [] →
    SelsAt i ss (spRest r) := by
  induction ss with
  | nil => intro i r _ h; exact absurd rfl h
  | cons s ss ih =>
    intro i r h _
    obtain ⟨r1, h1, h2⟩ := (many0_cons_iff suff_conditionPiece prog_conditionPiece).1 h
    obtain ⟨r0, x, h3, h4⟩ := terminated_some.1 h1
    obtain ⟨-, -, -, -, -, -, -, -, -, hno⟩ := selector_text h3
    have hend : spRest r0 = r0 := by obtain ⟨_, -, rfl⟩ := trimmed_some.1 h3; exact spRest_idem _
    rcases opt_some.1 h4 with ⟨h5, rfl, -⟩ | ⟨t, h5, -⟩
    · rw [many0_stop suff_conditionPiece (conditionPiece_none hno)] at h2
      cases h2
      rw [hend]
      exact .last _ _ _ (sel_iff.1 h3)
    · obtain ⟨e, -⟩ := tag_some.1 h5
      subst e
      cases ss with
      | nil =>
        obtain ⟨-, rfl⟩ := (many0_nil_iff suff_conditionPiece prog_conditionPiece).1 h2
        exact .comma _ _ _ _ (sel_iff.1 h3) (gap_sp _)
      | cons s' ss => exact .more _ _ _ _ _ (sel_iff.1 h3) (ih h2 (by simp))

theorem sels_bwd {i r y : Str} {ss : List Selector} (h : SelsAt i ss r) (hr : r = '{' :: y) :
    ∃ r', many0 condPiece i = some (r', ss) ∧ spRest r' = '{' :: y ∧ ss ≠ [] := by
  have hsp : spRest ('{' :: y) = '{' :: y := spRest_nonblank (by simp) (by simp) y
  induction h with
  | last i r s h1 =>
    subst hr
    refine ⟨_, (many0_cons_iff suff_conditionPiece prog_conditionPiece).2 ⟨'{' :: y, terminated_some.2
      ⟨_, none, sel_iff.2 h1, opt_some.2 (Or.inl ⟨tag_fail (by decide) y, rfl, rfl⟩)⟩,
      many0_stop suff_conditionPiece (condPiece_fail (by simp) (by simp) y)⟩, hsp, by simp⟩
  | comma i r1 r s h1 h2 =>
    subst hr
    rw [gap_iff] at h2
    have hno : selector r1 = none := by
      rw [← sel_sp, ← h2]
      exact trimmed_none.2 (by rw [hsp]; exact (by
        cases hx : selector ('{' :: y) with
        | none => have := trimmed_none.1 hx; rwa [hsp] at this
        | some x =>
          have h3 : condPiece ('{' :: y) = none := condPiece_fail (by simp) (by simp) y
          obtain ⟨x1, x2⟩ := x
          cases ht : opt (tag (c! ",")) x1 with
          | none => exact absurd ht (by unfold opt; cases tag (c! ",") x1 <;> simp)
          | some z =>
            have : condPiece ('{' :: y) = some (z.1, x2) := terminated_some.2 ⟨x1, z.2, hx, ht⟩
            rw [h3] at this; cases this))
    exact ⟨r1, (many0_cons_iff suff_conditionPiece prog_conditionPiece).2 ⟨r1, terminated_some.2
      ⟨_, _, sel_iff.2 h1, opt_some.2 (Or.inr ⟨_, tag_append (c! ",") r1, rfl⟩)⟩,
      many0_stop suff_conditionPiece (conditionPiece_none hno)⟩, h2.symm, by simp⟩
  | more i r1 r s ss h1 _ ih =>
    obtain ⟨r', h2, h3, -⟩ := ih hr
    exact ⟨r', (many0_cons_iff suff_conditionPiece prog_conditionPiece).2 ⟨r1, terminated_some.2
      ⟨_, _, sel_iff.2 h1, opt_some.2 (Or.inr ⟨_, tag_append (c! ",") r1, rfl⟩)⟩, h2⟩, h3, by simp⟩

theorem condition_sp (i : Str) : condition (spRest i) = condition i := trimmed_eq_of_spRest (spRest_idem i)

theorem many0_cond_sp {i r : Str} {ss : List Selector} (hne : ss ≠ []) :
    many0 condPiece (spRest i) = some (r, ss) ↔ many0 condPiece i = some (r, ss) := by
  cases ss with
  | nil => exact absurd rfl hne
  | cons s ss =>
    rw [many0_cons_iff suff_conditionPiece prog_conditionPiece, many0_cons_iff suff_conditionPiece prog_conditionPiece,
      show terminated selector (opt (tag (c! ","))) (spRest i) = terminated selector (opt (tag (c! ","))) i from
        condPiece_sp (spRest_idem i)]

theorem condition_fwd {i r : Str} {ss : List Selector} (h : condition i = some (r, ss)) : SelsAt i ss r := by
  obtain ⟨r', h1, rfl⟩ := trimmed_some.1 h
  obtain ⟨-, h2⟩ := nonEmpty_some.1 h1
  obtain ⟨r1, a, as, h3, h4, rfl⟩ := many1_some.1 h2
  have h5 := (many0_cons_iff suff_conditionPiece prog_conditionPiece).2 ⟨r1, h3, h4⟩
  exact sels_fwd ((many0_cond_sp (by simp)).1 h5) (by simp)

theorem condition_bwd {i y : Str} {ss : List Selector} (h : SelsAt i ss ('{' :: y)) :
    condition i = some ('{' :: y, ss) := by
  obtain ⟨r', h1, h2, h3⟩ := sels_bwd h rfl
  rw [← many0_cond_sp h3] at h1
  cases ss with
  | nil => exact absurd rfl h3
  | cons s ss =>
    obtain ⟨r1, h4, h5⟩ := (many0_cons_iff suff_conditionPiece prog_conditionPiece).1 h1
    refine trimmed_some.2 ⟨r', nonEmpty_some.2 ⟨?_, many1_some.2 ⟨r1, s, ss, h4, h5, rfl⟩⟩, h2.symm⟩
    intro e
    rw [e] at h4
    rw [prog_nil prog_conditionPiece] at h4
    cases h4

/-! ## Heads of at-rules -/

theorem head_iff {tags : Parser Str} {names : List Str}
    (h1 : ∀ i r a, tags i = some (r, a) → a ∈ names ∧ i = a ++ r)
    (h2 : ∀ n ∈ names, ∀ x, tags (n ++ ' ' :: x) = some (' ' :: x, n)) {i r : Str} {c : List Str} :
    atRuleCondition tags i = some (r, c) ↔ HeadAt names i c r := by
  constructor
  · intro h
    obtain ⟨r', h3, rfl⟩ := trimmed_some.1 h
    obtain ⟨-, h4⟩ := nonEmpty_some.1 h3
    obtain ⟨⟨x, y⟩, h5, rfl⟩ := map_some.1 h4
    obtain ⟨r2, h6, h7⟩ := pair_some.1 h5
    obtain ⟨a, h8, h9⟩ := recognize_some.1 h6
    obtain ⟨r3, z, h10, h11⟩ := terminated_some.1 h8
    obtain ⟨hn, e1⟩ := h1 _ _ _ h10
    obtain ⟨e2, -⟩ := tag_some.1 h11
    obtain ⟨w, h12, h13⟩ := map_some.1 h7
    obtain ⟨e3, hne, hl⟩ := conditionRaw_iff.1 h12
    simp only at h9 h13
    subst h13
    have hx : x = a ++ c! " " := by rw [h9, e1, e2, ← List.append_assoc, take_text]
    rw [hx]
    refine .intro i a w r' _ (gap_iff.2 ?_) hn hne hl (gap_sp _)
    rw [e1, e2, e3]; rfl
  · intro h
    obtain ⟨n, raw, r1, _, g1, hn, hne, hl, g2⟩ := h
    rw [gap_iff] at g1 g2
    subst g2
    refine trimmed_some.2 ⟨r1, nonEmpty_some.2 ⟨by rw [← g1]; simp, map_some.2 ⟨(n ++ c! " ", Str.trim raw), ?_, rfl⟩⟩, rfl⟩
    rw [← g1]
    refine pair_some.2 ⟨raw ++ r1, ?_, map_some.2 ⟨raw, conditionRaw_iff.2 ⟨rfl, hne, hl⟩, rfl⟩⟩
    have e : n ++ ' ' :: (raw ++ r1) = (n ++ c! " ") ++ (raw ++ r1) := by simp
    have := terminated_some.2 ⟨_, _, h2 n hn (raw ++ r1), tag_append (c! " ") (raw ++ r1)⟩
    rw [e] at this ⊢
    exact recognize_append this

theorem tags3 {a b c : Str} {i r x : Str} (h : alt (tag a) (alt (tag b) (tag c)) i = some (r, x)) :
    (x = a ∨ x = b ∨ x = c) ∧ i = x ++ r := by
  rcases alt_some.1 h with h | ⟨-, h⟩
  · obtain ⟨e, rfl⟩ := tag_some.1 h; exact ⟨Or.inl rfl, e⟩
  · rcases alt_some.1 h with h | ⟨-, h⟩
    · obtain ⟨e, rfl⟩ := tag_some.1 h; exact ⟨Or.inr (Or.inl rfl), e⟩
    · obtain ⟨e, rfl⟩ := tag_some.1 h; exact ⟨Or.inr (Or.inr rfl), e⟩

theorem other_iff {i r : Str} {c : List Str} : otherCondition i = some (r, c) ↔ HeadAt conditionalNames i c r := by
  refine head_iff ?_ (fun n hn x => conditional_media hn x)
  intro i r a h
  obtain ⟨h, e⟩ := tags3 h
  refine ⟨?_, e⟩
  simp only [conditionalNames, List.mem_cons, List.not_mem_nil, or_false]
  grind

theorem rule_iff {i r : Str} {c : List Str} :
    atRuleCondition (alt (tag (c! "@container")) (alt (tag (c! "@supports")) (tag (c! "@media")))) i = some (r, c) ↔
      HeadAt conditionalNames i c r := by
  refine head_iff ?_ (fun n hn x => conditional_supports hn x)
  intro i r a h
  obtain ⟨h, e⟩ := tags3 h
  refine ⟨?_, e⟩
  simp only [conditionalNames, List.mem_cons, List.not_mem_nil, or_false]
  grind

theorem keyframes_iff {i r : Str} {c : List Str} :
    atRuleCondition (alt (tag (c! "@keyframes")) fail) i = some (r, c) ↔ HeadAt [c! "@keyframes"] i c r := by
  refine head_iff ?_ ?_
  · intro i r a h
    rcases alt_some.1 h with h | ⟨-, h⟩
    · obtain ⟨e, rfl⟩ := tag_some.1 h; exact ⟨by simp, e⟩
    · cases h
  · intro n hn x
    simp only [List.mem_cons, List.not_mem_nil, or_false] at hn
    subst hn
    exact alt_some.2 (Or.inl (tag_append (c! "@keyframes") _))

end AcceptedP
