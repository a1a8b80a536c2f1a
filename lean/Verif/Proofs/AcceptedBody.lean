import Verif.Proofs.Accepts

/-! # Exactly the css that is accepted: bodies, frames, sheets -/

namespace AcceptedP
open Nom NomP Css ParserP LexP ShapeP GrammarP DeclsP HeadersP ReparseP LayoutP ReadableP SwallowP Spec

variable {α β : Type}

/-! ## Bodies -/

theorem declAt_sp {i r : Str} {d : Str × List Str} : DeclAt (spRest i) d r ↔ DeclAt i d r := by
  rw [← decl_iff, ← decl_iff, decl_sp]

theorem headAt_sp {names : List Str} {i r : Str} {c : List Str} : HeadAt names i c r → HeadAt names (spRest i) c r := by
  intro h
  obtain ⟨n, raw, r1, _, g1, h1, h2, h3, g2⟩ := h
  refine .intro _ n raw r1 _ (gap_iff.2 ?_) h1 h2 h3 g2
  rw [spRest_idem]; exact gap_iff.1 g1

theorem body_sp {i r : Str} {xs : List RBC} (h : BodyAt i xs r) (hne : xs ≠ []) : BodyAt (spRest i) xs r := by
  cases h with
  | stop => exact absurd rfl hne
  | semi _ r1 r2 _ d rest h1 h2 h3 => exact .semi _ _ _ _ _ _ (declAt_sp.2 h1) h2 h3
  | bare _ r1 _ d rest h1 h2 h3 => exact .bare _ _ _ _ _ (declAt_sp.2 h1) h2 h3
  | rule _ r1 r2 r3 _ c content rest h1 h2 h3 h4 => exact .rule _ _ _ _ _ _ _ _ (headAt_sp h1) h2 h3 h4

theorem decls_body {rest : List RBC} {r r' : Str} {o : Option Str} :
    ∀ {ds : List (Str × List Str)} {i e : Str}, declList i = some (e, ds) → finalSemicolon false e = some (r', o) →
      BodyAt (spRest r') rest r → BodyAt i (attrsToRBC ds ++ rest) r := by
  intro ds
  induction ds with
  | nil =>
    intro i e h
    obtain ⟨_, _, _, ⟨-, h, -⟩ | ⟨_, _, -, h, -⟩⟩ := list_inv h <;> cases h
  | cons d ds ih =>
    intro i e h hf hb
    obtain ⟨r0, d', h1, ⟨rfl, h2, h3⟩ | ⟨r1, ds', rfl, h2, h3⟩⟩ := list_inv h
    · cases h2
      rcases opt_some.1 hf with ⟨h4, rfl, -⟩ | ⟨t, h4, -⟩
      · rw [decl_end h1] at hb
        refine .bare _ _ _ _ _ (decl_iff.1 h1) ?_ hb
        rintro c hc rfl
        cases r' with
        | nil => simp at hc
        | cons c w =>
          simp at hc
          subst hc
          exact absurd (tag_append (c! ";") w) (by rw [List.cons_append, List.nil_append, h4]; simp)
      · obtain ⟨e, -⟩ := tag_some.1 h4
        subst e
        exact .semi _ _ _ _ _ _ (decl_iff.1 h1) (gap_sp _) hb
    · cases h2
      have := ih h3 hf hb
      have hne : attrsToRBC ds ++ rest ≠ [] := by
        cases ds with
        | nil => obtain ⟨_, _, _, ⟨-, h, -⟩ | ⟨_, _, -, h, -⟩⟩ := list_inv h3 <;> cases h
        | cons => simp [attrsToRBC]
      exact .semi _ _ _ _ _ _ (decl_iff.1 h1) (gap_sp _) (body_sp this hne)

theorem head_lt {i r : Str} {names : List Str} {c : List Str} (h : HeadAt names i c r) : r.length < i.length := by
  obtain ⟨n, raw, r1, _, g1, h1, h2, h3, g2⟩ := h
  rw [gap_iff] at g1 g2
  have l1 := congrArg List.length g1
  have l2 := ParserP.spRest_le i
  have l3 := ParserP.spRest_le r1
  rw [← g2] at l3
  simp at l1
  omega

theorem body_fwd : ∀ (N : Nat) {n : Nat} {i r : Str} {ps : List (List RBC)}, i.length ≤ N →
    many0 (piece n) i = some (r, ps) → BodyAt i ps.flatten r := by
  intro N
  induction N using Nat.strongRecOn with
  | ind N ih =>
  intro n i r ps hN h
  cases ps with
  | nil =>
    obtain ⟨-, rfl⟩ := (many0_nil_iff (suff_piece n) (prog_piece n)).1 h
    exact .stop _
  | cons p ps =>
    obtain ⟨r1, h1, h2⟩ := (many0_cons_iff (suff_piece n) (prog_piece n)).1 h
    have hl := prog_piece n _ _ _ h1
    have hrest := ih r1.length (by omega) (Nat.le_refl _) h2
    rw [List.flatten_cons]
    rcases alt_some.1 h1 with h3 | ⟨-, h3⟩
    · obtain ⟨ds, h4, rfl⟩ := map_some.1 h3
      obtain ⟨e, r', o, h5, h6, rfl⟩ := attributes_iff.1 h4
      exact decls_body h5 h6 hrest
    · obtain ⟨⟨c, content⟩, h4, rfl⟩ := map_some.1 h3
      cases n with
      | zero => cases h4
      | succ n =>
        obtain ⟨r2, h5, rfl⟩ := trimmed_some.1 h4
        obtain ⟨-, h6⟩ := nonEmpty_some.1 h5
        obtain ⟨r3, r4, t, h7, h8, h9⟩ := separatedPair_some.1 h6
        obtain ⟨e, -⟩ := tag_some.1 h8
        subst e
        obtain ⟨r5, t', h10, h11⟩ := terminated_some.1 h9
        obtain ⟨e, -⟩ := tag_some.1 h11
        subst e
        obtain ⟨-, h12⟩ := nonEmpty_some.1 h10
        obtain ⟨qs, h13, hq⟩ := map_some.1 h12
        rw [show otherCondition (spRest i) = otherCondition i from trimmed_eq_of_spRest (spRest_idem i)] at h7
        have hh := other_iff.1 h7
        have hlt := head_lt hh
        simp at hlt
        have hb := ih r4.length (by omega) (Nat.le_refl _) h13
        simp only at hq
        rw [hq] at hb
        exact .rule _ _ _ _ _ _ _ _ hh hb (gap_sp _) hrest

theorem attributes_none {b : Bool} {i : Str} (h : styleAttribute i = none) : attributes b i = none := by
  cases hx : attributes b i with
  | none => rfl
  | some x =>
    obtain ⟨e, r', o, h1, -, -⟩ := attributes_iff.1 (show _ = some (x.1, x.2) from hx)
    obtain ⟨_, _, h2, -⟩ := list_inv h1
    rw [h] at h2; cases h2

theorem attributes_decl {i : Str} (h : styleAttribute i ≠ none) : ∃ x, attributes false i = some x := by
  have : ∃ e ds, declList i = some (e, ds) := by
    cases hd : styleAttribute i with
    | none => exact absurd hd h
    | some x =>
      obtain ⟨r, d⟩ := x
      generalize hn : i.length = n
      induction n using Nat.strongRecOn generalizing i r d with
      | ind n ih =>
      by_cases h1 : ∃ r1, r = ';' :: r1 ∧ styleAttribute r1 ≠ none
      · obtain ⟨r1, rfl, h2⟩ := h1
        have := prog_styleAttribute _ _ _ hd
        simp at this
        cases hd' : styleAttribute r1 with
        | none => exact absurd hd' h2
        | some y =>
          obtain ⟨e, ds, h3⟩ := ih r1.length (by omega) h2 y.1 y.2 hd' rfl
          exact ⟨_, _, list_more hd h3⟩
      · refine ⟨_, _, list_one hd (fun r1 e => ?_)⟩
        cases h2 : styleAttribute r1 with
        | none => rfl
        | some x => exact absurd ⟨r1, e, by rw [h2]; simp⟩ h1
  obtain ⟨e, ds, h1⟩ := this
  cases hf : tag (c! ";") e with
  | none => exact ⟨_, attributes_iff.2 ⟨e, e, none, h1, opt_some.2 (Or.inl ⟨hf, rfl, rfl⟩), rfl⟩⟩
  | some x => exact ⟨_, attributes_iff.2 ⟨e, x.1, _, h1, opt_some.2 (Or.inr ⟨x.2, hf, rfl⟩), rfl⟩⟩

theorem gap_le {i r : Str} (h : Skips i r) : r.length ≤ i.length := by
  rw [gap_iff.1 h]; exact ParserP.spRest_le i

theorem decl_lt {i r : Str} {d : Str × List Str} (h : DeclAt i d r) : r.length < i.length :=
  prog_styleAttribute _ _ _ (decl_iff.2 h)

theorem body_le {i r : Str} {xs : List RBC} (h : BodyAt i xs r) : r.length ≤ i.length := by
  induction h with
  | stop => exact Nat.le_refl _
  | semi i r1 r2 r d rest h1 h2 _ ih => have := decl_lt h1; have := gap_le h2; simp at *; omega
  | bare i r1 r d rest h1 h2 _ ih => have := decl_lt h1; omega
  | rule i r1 r2 r3 r c content rest h1 h2 h3 _ ih1 ih2 =>
    have := head_lt h1; have := gap_le h3; simp at *; omega

theorem head_at {i r : Str} {c : List Str} {names : List Str} (hn : ∀ n ∈ names, ∃ m, n = '@' :: m) (h : HeadAt names i c r) :
    ∃ m, spRest i = '@' :: m := by
  obtain ⟨n, raw, r1, _, g1, h1, h2, h3, g2⟩ := h
  obtain ⟨m, rfl⟩ := hn n h1
  exact ⟨_, (gap_iff.1 g1).symm⟩

theorem ruleBlock_bwd {i r1 r2 r : Str} {c : List Str} {content : List RBC} {n : Nat} {ps : List (List RBC)}
    (h1 : HeadAt conditionalNames i c ('{' :: r1)) (h2 : many0 (piece n) r1 = some ('}' :: r2, ps))
    (h3 : ps.flatten = content) (h4 : Skips r2 r) : ruleBlock (n + 1) i = some (r, (c, content)) := by
  obtain ⟨m, hm⟩ := head_at conditional_at h1
  refine trimmed_some.2 ⟨r2, nonEmpty_some.2 ⟨by rw [hm]; simp, separatedPair_some.2
    ⟨'{' :: r1, r1, c! "{", ?_, tag_append (c! "{") _, terminated_some.2
      ⟨'}' :: r2, c! "}", nonEmpty_some.2 ⟨?_, map_some.2 ⟨ps, h2, h3⟩⟩, tag_append (c! "}") _⟩⟩⟩, gap_iff.1 h4⟩
  · rw [show otherCondition (spRest i) = otherCondition i from trimmed_eq_of_spRest (spRest_idem i)]
    exact other_iff.2 h1
  · intro e
    subst e
    have := (suff_many0 (suff_piece n)).le h2
    simp at this

theorem piece_sp {n : Nat} {i : Str} : piece n (spRest i) = piece n i := by
  have h1 : attributes false (spRest i) = attributes false i := trimmed_eq_of_spRest (spRest_idem i)
  have h2 : ruleBlock n (spRest i) = ruleBlock n i := by
    cases n with
    | zero => rfl
    | succ n => exact trimmed_eq_of_spRest (spRest_idem i)
  show alt _ _ _ = alt _ _ _
  simp only [alt, map, h1, h2]

theorem body_bwd {i r y : Str} {xs : List RBC} (h : BodyAt i xs r) (hr : r = '}' :: y) :
    ∀ n, i.length ≤ n → ∃ ps, many0 (piece n) i = some ('}' :: y, ps) ∧ ps.flatten = xs := by
  induction h generalizing y with
  | stop i =>
    intro n _
    subst hr
    exact ⟨[], many0_stop (suff_piece n) (piece_brace n y), rfl⟩
  | semi i r1 r2 r d rest h1 h2 _ ih =>
    intro n hn
    have hl := decl_lt h1
    have hl2 := gap_le h2
    simp at hl
    obtain ⟨ps, h3, h4⟩ := ih hr n (by omega)
    have h1' := decl_iff.2 h1
    rw [gap_iff.1 h2] at h3
    by_cases hd : styleAttribute r1 = none
    · have h5 : attributes false i = some (spRest r1, [d]) :=
        attributes_iff.2 ⟨_, r1, _, list_one h1' (by intro r' e; cases e; exact hd),
          opt_some.2 (Or.inr ⟨_, tag_append (c! ";") r1, rfl⟩), rfl⟩
      refine ⟨[.attr d.1 d.2] :: ps, (many0_cons_iff (suff_piece n) (prog_piece n)).2 ⟨_, alt_some.2 (Or.inl
        (map_some.2 ⟨_, h5, rfl⟩)), h3⟩, by simp [h4]⟩
    · obtain ⟨⟨rr, ds⟩, h5⟩ := attributes_decl hd
      obtain ⟨e, r', o, h6, h7, h8⟩ := attributes_iff.1 h5
      have h9 : attributes false i = some (rr, d :: ds) :=
        attributes_iff.2 ⟨e, r', o, list_more h1' h6, h7, h8⟩
      have h10 : piece n (spRest r1) = some (rr, attrsToRBC ds) := by
        rw [piece_sp]
        exact alt_some.2 (Or.inl (map_some.2 ⟨_, h5, rfl⟩))
      cases ps with
      | nil => rw [((many0_nil_iff (suff_piece n) (prog_piece n)).1 h3).1] at h10; cases h10
      | cons p ps =>
        obtain ⟨rr', h11, h12⟩ := (many0_cons_iff (suff_piece n) (prog_piece n)).1 h3
        rw [h10] at h11
        cases h11
        refine ⟨attrsToRBC (d :: ds) :: ps, (many0_cons_iff (suff_piece n) (prog_piece n)).2 ⟨_, alt_some.2 (Or.inl
          (map_some.2 ⟨_, h9, rfl⟩)), h12⟩, ?_⟩
        rw [← h4]
        simp [attrsToRBC]
  | bare i r1 r d rest h1 h2 _ ih =>
    intro n hn
    have hl := decl_lt h1
    obtain ⟨ps, h3, h4⟩ := ih hr n (by omega)
    have h1' := decl_iff.2 h1
    have ht : tag (c! ";") r1 = none := by
      cases r1 with
      | nil => rfl
      | cons c w => exact tag_fail (h2 c rfl) w
    have h5 : attributes false i = some (r1, [d]) :=
      attributes_iff.2 ⟨_, r1, none, list_one h1' (by rintro r' rfl; exact absurd rfl (h2 _ rfl)),
        opt_some.2 (Or.inl ⟨ht, rfl, rfl⟩), (decl_end h1').symm⟩
    exact ⟨[.attr d.1 d.2] :: ps, (many0_cons_iff (suff_piece n) (prog_piece n)).2 ⟨_, alt_some.2 (Or.inl
      (map_some.2 ⟨_, h5, rfl⟩)), h3⟩, by simp [h4]⟩
  | rule i r1 r2 r3 r c content rest h1 hb h3 hrest ih1 ih2 =>
    intro n hn
    have hl := head_lt h1
    have hl2 := body_le hb
    have hl3 := gap_le h3
    simp at hl hl2
    obtain ⟨m, rfl⟩ : ∃ m, n = m + 1 := ⟨n - 1, by omega⟩
    obtain ⟨ps1, e1, e2⟩ := ih1 rfl m (by omega)
    obtain ⟨ps2, e3, e4⟩ := ih2 hr (m + 1) (by omega)
    obtain ⟨x, hx⟩ := head_at conditional_at h1
    refine ⟨[.rule c content] :: ps2, (many0_cons_iff (suff_piece _) (prog_piece _)).2 ⟨r3, alt_some.2 (Or.inr
      ⟨map_none.2 (attributes_fail false (by rw [hx]; exact noIdent_at _)),
        map_some.2 ⟨_, ruleBlock_bwd h1 e1 e2 h3, rfl⟩⟩), e3⟩, by simp [e4]⟩

/-! ## Frames -/

theorem sels_sp {i r : Str} {ss : List Selector} (h : SelsAt i ss r) : SelsAt (spRest i) ss r := by
  have key : ∀ {s r}, SelAt i s r → SelAt (spRest i) s r := by
    intro s r h
    rw [← sel_iff] at h ⊢
    rw [sel_sp, h]
  cases h with
  | last _ _ s h => exact .last _ _ _ (key h)
  | comma _ r1 _ s h g => exact .comma _ _ _ _ (key h) g
  | more _ r1 _ s ss h g => exact .more _ _ _ _ _ (key h) g

theorem frame_fwd {n : Nat} {i r : Str} {x : RuleP} (h : ruleBlockKeyframes n i = some (r, x)) :
    ∃ t r1 r2 ss ps, Skips i (t ++ '{' :: r1) ∧ SelsAt i ss ('{' :: r1) ∧ many0 (piece n) r1 = some ('}' :: r2, ps) ∧
      Skips r2 r ∧ x = ([Str.trim t], ps.flatten) ∧ r1.length < i.length := by
  obtain ⟨r2, h5, rfl⟩ := trimmed_some.1 h
  obtain ⟨-, h6⟩ := nonEmpty_some.1 h5
  obtain ⟨r3, r4, t, h7, h8, h9⟩ := separatedPair_some.1 h6
  obtain ⟨e, -⟩ := tag_some.1 h8
  subst e
  obtain ⟨r5, t', h10, h11⟩ := terminated_some.1 h9
  obtain ⟨e, -⟩ := tag_some.1 h11
  subst e
  obtain ⟨-, h12⟩ := nonEmpty_some.1 h10
  obtain ⟨qs, h13, hq⟩ := map_some.1 h12
  obtain ⟨w, h14, hw⟩ := map_some.1 h7
  obtain ⟨ss, h15, e⟩ := recognize_some.1 h14
  obtain ⟨u, hu⟩ := suff_condition _ _ _ h15
  rw [condition_sp] at h15
  have hl := ParserP.spRest_le i
  have hl2 := congrArg List.length hu
  simp at hl2
  refine ⟨u, r4, r2, ss, qs, gap_iff.2 hu, condition_fwd h15, h13, gap_sp _, ?_, by omega⟩
  rw [← hu, take_text] at e
  subst e
  obtain ⟨x1, x2⟩ := x
  simp only at hw hq
  rw [hw, hq]

theorem frames_fwd : ∀ {rs : List RuleP} {n : Nat} {i r : Str}, many0 (ruleBlockKeyframes n) i = some (r, rs) →
    FramesAt i (rs.map (fun r => RBC.rule r.1 r.2)) r := by
  intro rs
  induction rs with
  | nil =>
    intro n i r h
    obtain ⟨-, rfl⟩ := (many0_nil_iff (suff_ruleBlockKeyframes n) (prog_ruleBlockKeyframes n)).1 h
    exact .stop _
  | cons x rs ih =>
    intro n i r h
    obtain ⟨r1, h1, h2⟩ := (many0_cons_iff (suff_ruleBlockKeyframes n) (prog_ruleBlockKeyframes n)).1 h
    obtain ⟨t, r1, r2, ss, ps, g1, hs, hb, g2, rfl, -⟩ := frame_fwd h1
    exact .frame _ _ _ _ _ _ _ _ _ g1 hs (body_fwd _ (Nat.le_refl _) hb) g2 (ih h2)

theorem frame_bwd {n : Nat} {i t r1 r2 r : Str} {ss : List Selector} {ps : List (List RBC)}
    (g1 : Skips i (t ++ '{' :: r1)) (hs : SelsAt i ss ('{' :: r1)) (hb : many0 (piece n) r1 = some ('}' :: r2, ps))
    (g2 : Skips r2 r) : ruleBlockKeyframes n i = some (r, ([Str.trim t], ps.flatten)) := by
  have hc := condition_bwd hs
  rw [← condition_sp, ← gap_iff.1 g1] at hc
  refine trimmed_some.2 ⟨r2, nonEmpty_some.2 ⟨by rw [← gap_iff.1 g1]; simp, separatedPair_some.2
    ⟨'{' :: r1, r1, c! "{", map_some.2 ⟨t, ?_, rfl⟩, tag_append (c! "{") _, terminated_some.2
      ⟨'}' :: r2, c! "}", nonEmpty_some.2 ⟨?_, map_some.2 ⟨ps, hb, rfl⟩⟩, tag_append (c! "}") _⟩⟩⟩, gap_iff.1 g2⟩
  · rw [← gap_iff.1 g1]
    exact recognize_append hc
  · intro e
    subst e
    have := (suff_many0 (suff_piece n)).le hb
    simp at this

theorem frames_bwd {i r y : Str} {xs : List RBC} (h : FramesAt i xs r) (hr : r = '}' :: y) :
    ∀ n, i.length ≤ n → ∃ rs, many0 (ruleBlockKeyframes n) i = some ('}' :: y, rs) ∧
      rs.map (fun r => RBC.rule r.1 r.2) = xs := by
  induction h with
  | stop i =>
    intro n _
    subst hr
    exact ⟨[], many0_stop (suff_ruleBlockKeyframes n) (frame_brace n y), rfl⟩
  | frame i t r1 r2 r3 r ss content rest g1 hs hb g2 _ ih =>
    intro n hn
    have l1 := gap_le g1
    have l2 := gap_le g2
    have l3 := body_le hb
    simp at l1 l3
    obtain ⟨ps, e1, e2⟩ := body_bwd hb rfl n (by omega)
    obtain ⟨rs, e3, e4⟩ := ih hr n (by omega)
    refine ⟨([Str.trim t], content) :: rs, (many0_cons_iff (suff_ruleBlockKeyframes n) (prog_ruleBlockKeyframes n)).2
      ⟨r3, ?_, e3⟩, by simp [e4]⟩
    rw [← e2]
    exact frame_bwd g1 hs e1 g2

/-! ## Sheets -/

theorem pieces_end {n : Nat} {ps : List (List RBC)} : ∀ {i r : Str}, spRest i = i →
    many0 (piece n) i = some (r, ps) → spRest r = r := by
  induction ps with
  | nil =>
    intro i r hi h
    obtain ⟨-, rfl⟩ := (many0_nil_iff (suff_piece n) (prog_piece n)).1 h
    exact hi
  | cons p ps ih =>
    intro i r _ h
    obtain ⟨r1, h1, h2⟩ := (many0_cons_iff (suff_piece n) (prog_piece n)).1 h
    refine ih ?_ h2
    rcases alt_some.1 h1 with h3 | ⟨-, h3⟩
    · obtain ⟨_, h4, -⟩ := map_some.1 h3
      obtain ⟨_, -, rfl⟩ := trimmed_some.1 h4; exact spRest_idem _
    · obtain ⟨_, h4, -⟩ := map_some.1 h3
      cases n with
      | zero => cases h4
      | succ n => obtain ⟨_, -, rfl⟩ := trimmed_some.1 h4; exact spRest_idem _

theorem block_fwd {n : Nat} {i r : Str} {x : ScopeContent} (h : block n i = some (r, x)) :
    ∃ r1 r2 r3 ss content, SelsAt i ss ('{' :: r1) ∧ Skips r1 r2 ∧ BodyAt r2 content ('}' :: r3) ∧ Skips r3 r ∧
      x = .block ss content := by
  obtain ⟨r3, h1, rfl⟩ := trimmed_some.1 h
  obtain ⟨-, h2⟩ := nonEmpty_some.1 h1
  obtain ⟨⟨ss, content⟩, h3, rfl⟩ := map_some.1 h2
  obtain ⟨r0, h4, h5⟩ := pair_some.1 h3
  obtain ⟨r1, t, r4, t', h6, h7, h8⟩ := delimited_some.1 h5
  obtain ⟨e, -⟩ := tag_some.1 h6
  subst e
  obtain ⟨e, -⟩ := tag_some.1 h8
  subst e
  obtain ⟨q, h9, e1⟩ := trimmed_some.1 h7
  obtain ⟨q', h10, e2⟩ := trimmed_some.1 h9
  obtain ⟨-, h11⟩ := nonEmpty_some.1 h10
  obtain ⟨ps, h12, hp⟩ := map_some.1 h11
  rw [spRest_idem] at h12
  have hq := pieces_end (spRest_idem r1) h12
  rw [hq] at e2
  subst e2
  rw [hq] at e1
  subst e1
  rw [condition_sp] at h4
  simp only at hp
  refine ⟨r1, _, r3, ss, content, condition_fwd h4, gap_sp _, ?_, gap_sp _, rfl⟩
  rw [← hp]
  exact body_fwd _ (Nat.le_refl _) h12

theorem block_bwd {n : Nat} {i r1 r2 r3 r : Str} {ss : List Selector} {content : List RBC}
    (hs : SelsAt i ss ('{' :: r1)) (g1 : Skips r1 r2) (hb : BodyAt r2 content ('}' :: r3)) (g2 : Skips r3 r)
    (hn : r2.length ≤ n) : block n i = some (r, .block ss content) := by
  obtain ⟨ps, e1, e2⟩ := body_bwd hb rfl n hn
  rw [gap_iff.1 g1] at e1
  have hc := condition_bwd hs
  refine trimmed_some.2 ⟨r3, nonEmpty_some.2 ⟨?_, map_some.2 ⟨(ss, content), pair_some.2 ⟨'{' :: r1, by rw [condition_sp]; exact hc,
    delimited_some.2 ⟨r1, c! "{", '}' :: r3, c! "}", tag_append (c! "{") _, trimmed_some.2 ⟨'}' :: r3, trimmed_some.2
      ⟨'}' :: r3, nonEmpty_some.2 ⟨?_, map_some.2 ⟨ps, by rw [spRest_idem]; exact e1, e2⟩⟩, (spRest_brace _).symm⟩,
      (spRest_brace _).symm⟩, tag_append (c! "}") _⟩⟩, rfl⟩⟩, gap_iff.1 g2⟩
  · intro e
    rw [← condition_sp, e] at hc
    cases hc
  · intro e
    rw [spRest_idem] at e
    rw [e] at e1
    have := (suff_many0 (suff_piece n)).le e1
    simp at this

theorem frames_le {i r : Str} {xs : List RBC} (h : FramesAt i xs r) : r.length ≤ i.length := by
  induction h with
  | stop => exact Nat.le_refl _
  | frame i t r1 r2 r3 r ss content rest g1 _ hb g2 _ ih =>
    have l1 := gap_le g1
    have l2 := gap_le g2
    have l3 := body_le hb
    simp at l1 l3
    omega

theorem keyframes_fwd {n : Nat} {i r : Str} {x : ScopeContent} (h : keyframes n i = some (r, x)) :
    ∃ r1 r2 c frames, HeadAt [c! "@keyframes"] i c ('{' :: r1) ∧ FramesAt r1 frames ('}' :: r2) ∧ Skips r2 r ∧
      x = .rule c frames := by
  obtain ⟨⟨c, rs⟩, h1, rfl⟩ := map_some.1 h
  obtain ⟨r2, h2, rfl⟩ := trimmed_some.1 h1
  obtain ⟨r0, r1, t, h3, h4, h5⟩ := separatedPair_some.1 h2
  obtain ⟨e, -⟩ := tag_some.1 h4
  subst e
  obtain ⟨r4, t', h6, h7⟩ := terminated_some.1 h5
  obtain ⟨e, -⟩ := tag_some.1 h7
  subst e
  rw [atRuleCondition_sp (spRest_idem i)] at h3
  exact ⟨r1, r2, c, _, keyframes_iff.1 h3, frames_fwd h6, gap_sp _, rfl⟩

theorem keyframes_bwd {n : Nat} {i r1 r2 r : Str} {c : List Str} {frames : List RBC}
    (h1 : HeadAt [c! "@keyframes"] i c ('{' :: r1)) (h2 : FramesAt r1 frames ('}' :: r2)) (g : Skips r2 r)
    (hn : r1.length ≤ n) : keyframes n i = some (r, .rule c frames) := by
  obtain ⟨rs, e1, e2⟩ := frames_bwd h2 rfl n hn
  refine map_some.2 ⟨(c, rs), trimmed_some.2 ⟨r2, separatedPair_some.2 ⟨'{' :: r1, r1, c! "{", ?_, tag_append (c! "{") _,
    terminated_some.2 ⟨'}' :: r2, c! "}", e1, tag_append (c! "}") _⟩⟩, gap_iff.1 g⟩, by rw [← e2]⟩
  rw [atRuleCondition_sp (spRest_idem i)]
  exact keyframes_iff.2 h1

theorem items_fwd : ∀ (N : Nat) {n : Nat} {i r : Str} {s : Sheet}, i.length ≤ N →
    many0 (item n) i = some (r, s) → ItemsAt i s r := by
  intro N
  induction N using Nat.strongRecOn with
  | ind N ih =>
  intro n i r s hN h
  cases s with
  | nil =>
    obtain ⟨-, rfl⟩ := (many0_nil_iff (suff_item n) (prog_item n)).1 h
    exact .stop _
  | cons x s =>
    obtain ⟨r1, h1, h2⟩ := (many0_cons_iff (suff_item n) (prog_item n)).1 h
    have hl := prog_item n _ _ _ h1
    have hrest := ih r1.length (by omega) (Nat.le_refl _) h2
    rcases alt_some.1 h1 with h3 | ⟨hd, h3⟩
    · obtain ⟨ds, h4, rfl⟩ := dangling_iff.1 h3
      exact .decls _ _ _ _ _ h4 hrest
    · rcases alt_some.1 h3 with h4 | ⟨-, h4⟩
      · obtain ⟨_, _, _, _, _, h5, h6, h7, h8, rfl⟩ := block_fwd h4
        exact .block _ _ _ _ _ _ _ _ _ (dangling_none.1 hd) h5 h6 h7 h8 hrest
      · rcases alt_some.1 h4 with h5 | ⟨-, h5⟩
        · obtain ⟨r2, h6, rfl⟩ := trimmed_some.1 h5
          obtain ⟨-, h7⟩ := nonEmpty_some.1 h6
          obtain ⟨⟨c, content⟩, h8, rfl⟩ := map_some.1 h7
          obtain ⟨r0, r3, t, h9, h10, h11⟩ := separatedPair_some.1 h8
          obtain ⟨e, -⟩ := tag_some.1 h10
          subst e
          obtain ⟨r4, t', h12, h13⟩ := terminated_some.1 h11
          obtain ⟨e, -⟩ := tag_some.1 h13
          subst e
          rw [atRuleCondition_sp (spRest_idem i)] at h9
          have hh := rule_iff.1 h9
          have hlt := head_lt hh
          simp at hlt
          cases n with
          | zero => cases h12
          | succ n =>
            obtain ⟨q, h14, e⟩ := trimmed_some.1 h12
            obtain ⟨-, h15⟩ := nonEmpty_some.1 h14
            rw [items_sp_end (spRest_idem r3) h15] at e
            subst e
            have hsp := ParserP.spRest_le r3
            exact .rule _ _ _ _ _ _ _ _ _ hh (gap_sp _) (ih (spRest r3).length (by omega) (Nat.le_refl _) h15) (gap_sp _) hrest
        · obtain ⟨_, _, _, _, h6, h7, h8, rfl⟩ := keyframes_fwd h5
          exact .keyframes _ _ _ _ _ _ _ _ h6 h7 h8 hrest

theorem decls_lt {i r : Str} {ds : List (Str × List Str)} (h : DeclsAt i ds r) : r.length < i.length := by
  induction h with
  | last i r1 r d h1 _ g => have := decl_lt h1; have := gap_le g; simp at *; omega
  | more i r1 r d ds h1 _ ih => have := decl_lt h1; simp at *; omega

theorem sels_lt {i y : Str} {ss : List Selector} (h : SelsAt i ss ('{' :: y)) : y.length < i.length := by
  have h1 := suff_condition.le (condition_bwd h)
  simp at h1; omega

theorem items_le {i r : Str} {s : Sheet} (h : ItemsAt i s r) : r.length ≤ i.length := by
  induction h with
  | stop => exact Nat.le_refl _
  | decls i r1 r ds rest h1 _ ih => have := decls_lt h1; omega
  | block i r1 r2 r3 r4 r ss content rest _ hs g1 hb g2 _ ih =>
    have l1 := sels_lt hs
    have l2 := gap_le g1
    have l3 := body_le hb
    have l4 := gap_le g2
    simp at l1 l3
    omega
  | rule i r1 r2 r3 r4 r c content rest h1 g1 _ g2 _ ih1 ih2 =>
    have l1 := head_lt h1
    have l2 := gap_le g1
    have l4 := gap_le g2
    simp at l1 ih1
    omega
  | keyframes i r1 r2 r3 r c frames rest h1 hf g _ ih =>
    have l1 := head_lt h1
    have l2 := frames_le hf
    have l4 := gap_le g
    simp at l1 l2
    omega

/-- Where the contents of a sheet or an at-rule end. -/
def Stops (r : Str) : Prop := r = [] ∨ ∃ y, r = '}' :: y

theorem item_stops {r : Str} (h : Stops r) (n : Nat) : item n r = none := by
  rcases h with rfl | ⟨y, rfl⟩
  · exact (ends_nil n).1
  · exact (ends_brace n y).1

theorem items_bwd {i r : Str} {s : Sheet} (h : ItemsAt i s r) (hr : Stops r) :
    ∀ n, i.length ≤ n → many0 (item n) i = some (r, s) := by
  induction h with
  | stop i => exact fun n _ => many0_stop (suff_item n) (item_stops hr n)
  | decls i r1 r ds rest h1 _ ih =>
    intro n hn
    have := decls_lt h1
    exact (many0_cons_iff (suff_item n) (prog_item n)).2 ⟨r1, alt_some.2 (Or.inl (dangling_iff.2 ⟨ds, h1, rfl⟩)),
      ih hr n (by omega)⟩
  | block i r1 r2 r3 r4 r ss content rest hd hs g1 hb g2 _ ih =>
    intro n hn
    have l1 := sels_lt hs
    have l2 := gap_le g1
    have l3 := body_le hb
    have l4 := gap_le g2
    simp at l1 l3
    exact (many0_cons_iff (suff_item n) (prog_item n)).2 ⟨r4, alt_some.2 (Or.inr ⟨dangling_none.2 hd, alt_some.2 (Or.inl
      (block_bwd hs g1 hb g2 (by omega)))⟩), ih hr n (by omega)⟩
  | rule i r1 r2 r3 r4 r c content rest h1 g1 hc g2 _ ih1 ih2 =>
    intro n hn
    have l1 := head_lt h1
    have l2 := gap_le g1
    have l3 := items_le hc
    have l4 := gap_le g2
    simp at l1 l3
    obtain ⟨m, rfl⟩ : ∃ m, n = m + 1 := ⟨n - 1, by omega⟩
    have e1 := ih1 (Or.inr ⟨_, rfl⟩) m (by omega)
    rw [gap_iff.1 g1] at e1
    obtain ⟨x, hx⟩ := head_at conditional_at h1
    refine (many0_cons_iff (suff_item _) (prog_item _)).2 ⟨r4, ?_, ih2 hr _ (by omega)⟩
    refine Eq.trans (item_sp (spRest_idem i).symm) ?_
    have hh := rule_iff.2 h1
    rw [← atRuleCondition_sp (spRest_idem i), ← atRuleCondition_sp (spRest_idem (spRest i))] at hh
    refine alt_some.2 (Or.inr ⟨by rw [hx]; exact dangling_at _, alt_some.2 (Or.inr ⟨by rw [hx]; exact block_at _ _,
      alt_some.2 (Or.inl ?_)⟩)⟩)
    refine trimmed_some.2 ⟨r3, nonEmpty_some.2 ⟨by rw [spRest_idem, hx]; simp, map_some.2 ⟨(c, content), separatedPair_some.2
      ⟨'{' :: r1, r1, c! "{", hh, tag_append (c! "{") _, terminated_some.2 ⟨'}' :: r3, c! "}", trimmed_some.2
        ⟨'}' :: r3, nonEmpty_some.2 ⟨?_, e1⟩, (spRest_brace _).symm⟩, tag_append (c! "}") _⟩⟩, rfl⟩⟩, gap_iff.1 g2⟩
    intro e
    rw [e] at e1
    have := (suff_many0 (suff_item m)).le e1
    simp at this
  | keyframes i r1 r2 r3 r c frames rest h1 hf g _ ih =>
    intro n hn
    have l1 := head_lt h1
    have l2 := frames_le hf
    have l4 := gap_le g
    simp at l1 l2
    have hk := keyframes_bwd (n := n) h1 hf g (by omega)
    obtain ⟨x, hx⟩ := head_at keyframes_at h1
    have hx' : ∃ z, spRest i = c! "@keyframes" ++ ' ' :: z := by
      obtain ⟨name, raw, r1, _, g1, hm, -⟩ := h1
      simp only [List.mem_cons, List.not_mem_nil, or_false] at hm
      subst hm
      exact ⟨_, (gap_iff.1 g1).symm⟩
    obtain ⟨z, hz⟩ := hx'
    refine (many0_cons_iff (suff_item _) (prog_item _)).2 ⟨r3, ?_, ih hr _ (by omega)⟩
    refine Eq.trans (item_sp (spRest_idem i).symm) ?_
    have hk' : keyframes n (spRest i) = some (r3, .rule c frames) := by
      rw [← hk]
      show map _ _ _ = map _ _ _
      simp only [map]
      rw [trimmed_eq_of_spRest (spRest_idem i)]
    exact alt_some.2 (Or.inr ⟨by rw [hx]; exact dangling_at _, alt_some.2 (Or.inr ⟨by rw [hx]; exact block_at _ _,
      alt_some.2 (Or.inr ⟨by rw [hz]; exact not_conditional _ _, hk'⟩)⟩)⟩)

/-- The parser accepts exactly the texts of the grammar, and reads them as it says. -/
theorem parse_iff {css : Str} {s : Sheet} : parse css = some s ↔ Accepted css s := by
  by_cases hne : spRest css = []
  · have hp : parse css = some [] := by
      obtain ⟨b, hb, e⟩ := spRest_text css
      rw [hne, List.append_nil] at e
      subst e
      exact layout_parse (.nil _ hb)
    constructor
    · intro h
      rw [hp] at h
      cases h
      exact ⟨[], gap_iff.2 hne.symm, .stop _⟩
    · rintro ⟨i, g, h⟩
      rw [gap_iff.1 g, hne] at h
      have := items_bwd h (Or.inl rfl) 0 (by simp)
      rw [many0_stop (suff_item 0) (ends_nil 0).1] at this
      cases this
      exact hp
  · constructor
    · intro h
      obtain ⟨r, h1⟩ := parse_items h hne
      have hr : r = [] := by
        by_cases hr : r = []
        · exact hr
        · rw [RejectedP.parse_stuck hr (items_sp_end (spRest_idem css) h1) (many0_stops (suff_item _) h1) h1] at h
          cases h
      subst hr
      exact ⟨_, gap_sp _, items_fwd _ (Nat.le_refl _) h1⟩
    · rintro ⟨i, g, h⟩
      rw [gap_iff.1 g] at h
      exact parse_intro hne (items_bwd h (Or.inl rfl) _ (ParserP.spRest_le css))

end AcceptedP
