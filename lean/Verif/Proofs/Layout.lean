import Verif.Proofs.Reparse
import Verif.Proofs.Grammar
import Verif.Spec.Layout

/-! # Reading css in any layout -/

namespace LayoutP
open Nom NomP Css ParserP LexP ShapeP DeclsP HeadersP Spec ReparseP

/-! ## Selector lists -/

/-- As `SelSrc.Ok`, with the grammar of selector texts. -/
def SrcI (s : SelSrc) : Prop := Blank s.before ∧ SelI s.sel ∧ NonBlank s.sel

theorem srcI_of_ok {s : SelSrc} (h : s.Ok) : SrcI s := ⟨h.1, selI_of_selText h.2.1, h.2.2⟩

theorem condPiece_sp {i j : Str} (h : spRest i = spRest j) : condPiece i = condPiece j := by
  have : selector i = selector j := trimmed_eq_of_spRest h
  show map (pair _ _) _ i = map (pair _ _) _ j
  unfold Nom.map pair
  rw [this]

theorem selsText_cons (s t : SelSrc) (l : List SelSrc) (x : Str) :
    selsText (s :: t :: l) ++ x = s.before ++ (s.sel ++ ',' :: (selsText (t :: l) ++ x)) := by
  simp [selsText, Str.join]

theorem many0_srcs {l : List SelSrc} (hne : l ≠ []) (h : ∀ s ∈ l, SrcI s) (r : Str) :
    many0 condPiece (selsText l ++ '{' :: r) = some ('{' :: r, l.map (fun s => [Str.trim s.sel])) := by
  induction l with
  | nil => exact absurd rfl hne
  | cons s l ih =>
    obtain ⟨h1, h2, h3⟩ := h s (by simp)
    cases l with
    | nil =>
      have e : condPiece (selsText [s] ++ '{' :: r) = some ('{' :: r, [Str.trim s.sel]) := by
        rw [← condPiece_brace h2 h3]
        have e : selsText [s] ++ '{' :: r = s.before ++ (s.sel ++ '{' :: r) := by simp [selsText, Str.join]
        rw [e]
        exact condPiece_sp (spRest_blank h1 _)
      rw [many0_step suff_conditionPiece prog_conditionPiece e,
        many0_stop suff_conditionPiece (condPiece_fail (by simp) (by simp) r)]
      rfl
    | cons t l =>
      have e : condPiece (selsText (s :: t :: l) ++ '{' :: r) =
          some (selsText (t :: l) ++ '{' :: r, [Str.trim s.sel]) := by
        rw [selsText_cons, ← condPiece_comma h2 h3]
        exact condPiece_sp (spRest_blank h1 _)
      rw [many0_step suff_conditionPiece prog_conditionPiece e]
      have := ih (by simp) (fun x hx => h x (by simp [hx]))
      unfold condPiece at this
      rw [this]
      rfl

theorem many1_of_many0 {α : Type} {p : Parser α} (hs : Suff p) {i j r : Str} {a : α} {as : List α}
    (h : many0 p j = some (r, a :: as)) (e : p i = p j) : many1 p i = some (r, a :: as) := by
  rw [many0_unfold hs] at h
  cases hx : p j with
  | none => rw [hx] at h; simp at h
  | some x =>
    obtain ⟨r1, b⟩ := x
    rw [hx] at h
    simp only at h
    split at h
    · cases h
    · cases hy : many0 p r1 with
      | none => rw [hy] at h; cases h
      | some y =>
        rw [hy] at h
        simp only [Option.some.injEq, Prod.mk.injEq, List.cons.injEq] at h
        exact many1_some.2 ⟨r1, b, y.2, by rw [e, hx], by rw [hy, ← h.1], by rw [h.2.1, h.2.2]⟩

theorem condition_srcs {l : List SelSrc} (hne : l ≠ []) (h : ∀ s ∈ l, SrcI s) (r i : Str)
    (hi : spRest i = spRest (selsText l ++ '{' :: r)) :
    condition i = some ('{' :: r, l.map (fun s => [Str.trim s.sel])) := by
  have hm := many0_srcs hne h r
  cases l with
  | nil => exact absurd rfl hne
  | cons s l =>
    have e : condPiece (spRest i) = condPiece (selsText (s :: l) ++ '{' :: r) :=
      condPiece_sp (by rw [spRest_idem, hi])
    have hm1 := many1_of_many0 suff_conditionPiece hm e
    refine trimmed_some.2 ⟨'{' :: r, nonEmpty_some.2 ⟨?_, hm1⟩, (spRest_nonblank (by simp) (by simp) r).symm⟩
    intro h0
    rw [h0] at hm1
    obtain ⟨_, _, _, h2, -⟩ := many1_some.1 hm1
    have := prog_nil prog_conditionPiece
    rw [this] at h2
    cases h2

theorem selsText_hi : ∀ (l : List SelSrc), (∀ s ∈ l, SrcI s) → HI (selsText l)
  | [], _ => .nil
  | [s], h => by
    have := h s (by simp)
    simpa [selsText, Str.join] using (hi_of_blank this.1).append (hi_of_selI this.2.1)
  | s :: t :: l, h => by
    have hs := h s (by simp)
    have ih := selsText_hi (t :: l) (fun x hx => h x (by simp [List.mem_cons.1 hx]))
    have e := selsText_cons s t l []
    simp only [List.append_nil] at e
    rw [e]
    exact (hi_of_blank hs.1).append ((hi_of_selI hs.2.1).append (.char ',' _ (by decide) (by decide) ih))

/-! ## At-rule conditions -/

theorem atCondition_read {t : Parser Str} {n x r : Str} (u : Str)
    (ht : t (n ++ ' ' :: (x ++ '{' :: r)) = some (' ' :: (x ++ '{' :: r), u))
    (hn : ∃ m, n = '@' :: m) (hx : x ≠ []) (h1 : '$' ∉ x) (h2 : '{' ∉ x) :
    atRuleCondition t (n ++ ' ' :: (x ++ '{' :: r)) = some ('{' :: r, [n ++ c! " ", Str.trim x]) := by
  obtain ⟨m, rfl⟩ := hn
  refine trimmed_some.2 ⟨'{' :: r, ?_, (spRest_nonblank (by simp) (by simp) r).symm⟩
  rw [List.cons_append, spRest_nonblank (by simp) (by simp)]
  refine nonEmpty_some.2 ⟨by simp, map_some.2 ⟨('@' :: m ++ c! " ", Str.trim x), ?_, rfl⟩⟩
  refine pair_some.2 ⟨x ++ '{' :: r, ?_, ?_⟩
  · have e : '@' :: (m ++ ' ' :: (x ++ '{' :: r)) =
        ('@' :: m ++ c! " ") ++ (x ++ '{' :: r) := by simp
    have := terminated_some.2 ⟨_, _, ht, tag_append (c! " ") (x ++ '{' :: r)⟩
    rw [List.cons_append, e] at this
    rw [e]
    exact recognize_append this
  · have key : ∀ y : Str, '$' ∉ y → '{' ∉ y → rest0 atRulePiece (y ++ '{' :: r) = '{' :: r := by
      intro y
      induction y with
      | nil =>
        intro _ _
        refine rest0_stop suff_atRulePiece (alt_none.2 ⟨isNot_fail (by simp) _,
          recognize_none.2 (interpolation_fail ?_)⟩)
        rw [List.nil_append, spRest_nonblank (by simp) (by simp)]
        simp
      | cons c y ih =>
        intro h1 h2
        simp only [List.mem_cons, not_or] at h1 h2
        refine Eq.trans (rest0_run suff_atRulePiece prog_atRulePiece (f := fun c => !(c! "${").elem c) ?_ ?_ _)
          (ih h1.2 h2.2)
        · intro d j hd
          obtain ⟨a, ha⟩ := takeWhile1_run (f := fun c => !(c! "${").elem c) hd j
          exact ⟨a, alt_some.2 (Or.inl ha)⟩
        · have := h1.1; have := h2.1
          refine elem_false ?_
          simp only [List.mem_cons, List.not_mem_nil, or_false]
          grind
    have hrest := key x h1 h2
    obtain ⟨z, hz⟩ : ∃ z, atRulePiece (x ++ '{' :: r) = some z := by
      cases x with
      | nil => exact absurd rfl hx
      | cons c y =>
        simp only [List.mem_cons, not_or] at h1 h2
        obtain ⟨a, ha⟩ := isNot_run (set := c! "${") (c := c) (by
          have := h1.1; have := h2.1
          simp only [List.mem_cons, List.not_mem_nil, or_false]; grind) (y ++ '{' :: r)
        exact ⟨_, alt_some.2 (Or.inl ha)⟩
    obtain ⟨as, has⟩ := many1_rest0 suff_atRulePiece prog_atRulePiece hz
    rw [hrest] at has
    exact map_some.2 ⟨x, recognize_append has, rfl⟩

theorem atRuleCondition_sp {t : Parser Str} {i j : Str} (h : spRest i = spRest j) :
    atRuleCondition t i = atRuleCondition t j := trimmed_eq_of_spRest h

/-- The text of the head of an at-rule, after the blanks. -/
theorem at_sp {names : List Str} (hnames : ∀ n ∈ names, ∃ m, n = '@' :: m) {a : AtSrc}
    (h : a.Ok names) (x : Str) :
    spRest (a.text ++ x) = a.name ++ ' ' :: (a.cond ++ x) ∧ ∃ m, a.name = '@' :: m := by
  obtain ⟨m, hm⟩ := hnames _ h.2.1
  refine ⟨?_, m, hm⟩
  have e : a.text ++ x = a.before ++ (a.name ++ ' ' :: (a.cond ++ x)) := by simp [AtSrc.text]
  rw [e, spRest_blank h.1, hm, List.cons_append, spRest_at]

theorem conditional_at : ∀ n ∈ conditionalNames, ∃ m, n = '@' :: m := by
  intro n hn
  simp only [conditionalNames, List.mem_cons, List.not_mem_nil, or_false] at hn
  rcases hn with rfl | rfl | rfl <;> exact ⟨_, rfl⟩

theorem conditional_media {n : Str} (hn : n ∈ conditionalNames) (x : Str) :
    alt (tag (c! "@container")) (alt (tag (c! "@media")) (tag (c! "@supports"))) (n ++ ' ' :: x) =
      some (' ' :: x, n) := by
  simp only [conditionalNames, List.mem_cons, List.not_mem_nil, or_false] at hn
  rcases hn with rfl | rfl | rfl
  · exact alt_some.2 (Or.inr ⟨rfl, alt_some.2 (Or.inl (tag_append (c! "@media") _))⟩)
  · exact alt_some.2 (Or.inr ⟨rfl, alt_some.2 (Or.inr ⟨rfl, tag_append (c! "@supports") _⟩)⟩)
  · exact alt_some.2 (Or.inl (tag_append (c! "@container") _))

theorem conditional_supports {n : Str} (hn : n ∈ conditionalNames) (x : Str) :
    alt (tag (c! "@container")) (alt (tag (c! "@supports")) (tag (c! "@media"))) (n ++ ' ' :: x) =
      some (' ' :: x, n) := by
  simp only [conditionalNames, List.mem_cons, List.not_mem_nil, or_false] at hn
  rcases hn with rfl | rfl | rfl
  · exact alt_some.2 (Or.inr ⟨rfl, alt_some.2 (Or.inr ⟨rfl, tag_append (c! "@media") _⟩)⟩)
  · exact alt_some.2 (Or.inr ⟨rfl, alt_some.2 (Or.inl (tag_append (c! "@supports") _))⟩)
  · exact alt_some.2 (Or.inl (tag_append (c! "@container") _))

/-! ## Bodies -/

/-- Declarations as contents. -/
def attrsOf (ds : List DeclSrc) : List RBC := ds.map (fun d => .attr d.key [d.value])

/-- The texts of declarations. -/
abbrev texts (ds : List DeclSrc) : Str := (ds.map DeclSrc.text).flatten

theorem body_nil {u : Str} (h : BodyLayout u []) : Blank u := by
  generalize hl : ([] : List RBC) = l at h
  cases h with
  | nil w hw => exact hw
  | last d hd => cases hl
  | decl d u rest hd hu => cases hl
  | rule a body u c rest ha hb hc hu => cases hl

/-- A body is a run of declarations, and then the end, a declaration without semicolon, or an
at-rule. -/
theorem body_split {b : Str} {content : List RBC} (h : BodyLayout b content) :
    ∃ ds : List DeclSrc, (∀ d ∈ ds, d.Ok) ∧
      ((∃ w, Blank w ∧ b = texts ds ++ w ∧ content = attrsOf ds) ∨
       (∃ d : DeclSrc, d.Ok ∧ b = texts ds ++ d.bare ∧ content = attrsOf (ds ++ [d])) ∨
       (∃ (a : AtSrc) (body u : Str) (c rest : List RBC), a.Ok conditionalNames ∧
          BodyLayout body c ∧ (body = [] ∨ c ≠ []) ∧ BodyLayout u rest ∧
          b = texts ds ++ (a.text ++ '{' :: (body ++ '}' :: u)) ∧
          content = attrsOf ds ++ .rule a.value c :: rest)) := by
  induction h with
  | nil w hw => exact ⟨[], by simp, Or.inl ⟨w, hw, rfl, rfl⟩⟩
  | last d hd => exact ⟨[], by simp, Or.inr (Or.inl ⟨d, hd, rfl, rfl⟩)⟩
  | decl d u rest hd _ ih =>
    obtain ⟨ds, h1, h2⟩ := ih
    refine ⟨d :: ds, ?_, ?_⟩
    · intro x hx
      rcases List.mem_cons.1 hx with rfl | hx
      · exact hd
      · exact h1 x hx
    · rcases h2 with ⟨w, hw, e1, e2⟩ | ⟨x, hx, e1, e2⟩ | ⟨a, body, v, c, rest', h3, h4, h5, h6, e1, e2⟩
      · exact Or.inl ⟨w, hw, by rw [e1]; simp [texts], by rw [e2]; rfl⟩
      · exact Or.inr (Or.inl ⟨x, hx, by rw [e1]; simp [texts], by rw [e2]; rfl⟩)
      · exact Or.inr (Or.inr ⟨a, body, v, c, rest', h3, h4, h5, h6, by rw [e1]; simp [texts], by rw [e2]; rfl⟩)
  | rule a body u c rest ha hb hc hu _ _ =>
    exact ⟨[], by simp, Or.inr (Or.inr ⟨a, body, u, c, rest, ha, hb, hc, hu, by simp [texts], rfl⟩)⟩

/-- One round of the loop over contents. -/
abbrev piece (n : Nat) : Parser (List RBC) :=
  alt (map (attributes false) attrsToRBC) (map (ruleBlock n) (fun r => [RBC.rule r.1 r.2]))

theorem suff_piece (n : Nat) : Suff (piece n) := suff_contentPiece (suff_ruleBlock n)
theorem prog_piece (n : Nat) : Prog (piece n) := prog_contentPiece (prog_ruleBlock n)

theorem piece_brace (n : Nat) (r : Str) : piece n ('}' :: r) = none :=
  alt_none.2 ⟨map_none.2 (attributes_brace false r), map_none.2 (ruleBlock_brace n r)⟩

theorem attrs_rbc (ds : List DeclSrc) :
    attrsToRBC (ds.map (fun d => (d.key, [d.value]))) = attrsOf ds := by
  simp [attrsToRBC, attrsOf]

theorem styleAttribute_brace {w : Str} (hw : Blank w) (r : Str) : styleAttribute (w ++ '}' :: r) = none := by
  refine styleAttribute_fail ?_
  rw [spRest_blank hw, spRest_brace]
  exact endsDecls_noIdent (Or.inr ⟨r, Or.inl rfl⟩)

theorem noIdent_at (t : Str) : NoIdent ('@' :: t) := endsDecls_noIdent (Or.inr ⟨t, Or.inr rfl⟩)

/-- The bodies of blocks, of nested at-rules and of frames. -/
theorem body_read : ∀ (N : Nat) (b : Str) (content : List RBC), b.length ≤ N → BodyLayout b content →
    ∀ (n : Nat) (r i : Str), b.length ≤ n → spRest i = spRest (b ++ '}' :: r) →
      (content = [] → i = '}' :: r) →
      ∃ ps, many0 (piece n) i = some ('}' :: r, ps) ∧ ps.flatten = content := by
  intro N
  induction N using Nat.strongRecOn with
  | ind N ih =>
  intro b content hN hb n r i hn hi h0
  -- an at-rule, and what follows it
  have rule : ∀ (a : AtSrc) (body u : Str) (c rest : List RBC), a.Ok conditionalNames →
      BodyLayout body c → (body = [] ∨ c ≠ []) → BodyLayout u rest →
      (a.text ++ '{' :: (body ++ '}' :: u)).length ≤ b.length → ∀ j,
      spRest j = spRest (a.text ++ '{' :: (body ++ '}' :: u) ++ '}' :: r) →
      ∃ ps, many0 (piece n) j = some ('}' :: r, ps) ∧ ps.flatten = .rule a.value c :: rest := by
    intro a body u c rest ha hbody hc hu hlen j hj
    let B := body ++ '}' :: (u ++ '}' :: r)
    obtain ⟨hsp, m, hm⟩ := at_sp conditional_at ha ('{' :: B)
    have ej : spRest j = a.name ++ ' ' :: (a.cond ++ '{' :: B) := by
      rw [hj, ← hsp]; simp [B]
    have hlen' : body.length + u.length + 2 ≤ b.length := by
      simp only [List.length_append, List.length_cons] at hlen; omega
    have hattr : attributes false j = none := by
      refine attributes_fail false ?_
      rw [ej, hm]
      exact noIdent_at _
    obtain ⟨k, rfl⟩ : ∃ k, n = k + 1 := ⟨n - 1, by omega⟩
    -- the contents of the at-rule
    obtain ⟨ps1, e1, e2⟩ := ih body.length (by omega) body c (Nat.le_refl _) hbody k
      (u ++ '}' :: r) B (by omega) rfl (by
        intro hc0
        rcases hc with h | h
        · simp [B, h]
        · exact absurd hc0 h)
    have hrb : ruleBlock (k + 1) j = some (spRest (u ++ '}' :: r), (a.value, c)) := by
      refine trimmed_some.2 ⟨u ++ '}' :: r, nonEmpty_some.2 ⟨by rw [ej, hm]; simp, separatedPair_some.2
        ⟨'{' :: B, B, c! "{", ?_, tag_append (c! "{") _, terminated_some.2
          ⟨'}' :: (u ++ '}' :: r), c! "}", ?_, tag_append (c! "}") _⟩⟩⟩, rfl⟩
      · rw [ej]
        exact atCondition_read a.name (conditional_media ha.2.1 _) ⟨m, hm⟩ ha.2.2.1 ha.2.2.2.1 ha.2.2.2.2
      · exact nonEmpty_some.2 ⟨by simp [B], map_some.2 ⟨ps1, e1, e2⟩⟩
    obtain ⟨ps2, e3, e4⟩ := ih u.length (by omega) u rest (Nat.le_refl _) hu (k + 1) r
      (spRest (u ++ '}' :: r)) (by omega) (by rw [spRest_idem]) (by
        intro h0
        subst h0
        rw [spRest_blank (body_nil hu), spRest_brace])
    refine ⟨[.rule a.value c] :: ps2, ?_, by simp [e4]⟩
    refine Eq.trans (many0_step (suff_piece _) (prog_piece _) (alt_some.2 (Or.inr
      ⟨map_none.2 hattr, map_some.2 ⟨_, hrb, rfl⟩⟩))) ?_
    rw [e3]
  obtain ⟨ds, hds, hcase⟩ := body_split hb
  rcases hcase with ⟨w, hw, rfl, rfl⟩ | ⟨d, hd, rfl, rfl⟩ | ⟨a, body, u, c, rest, h1, h2, h3, h4, rfl, rfl⟩
  · cases ds with
    | nil =>
      rw [h0 rfl]
      exact ⟨[], many0_stop (suff_piece n) (piece_brace n r), rfl⟩
    | cons d ds =>
      have hread := attributes_before false (by simp) hds (styleAttribute_brace hw r) i
        (by rw [hi, List.append_assoc])
      rw [spRest_blank hw, spRest_brace] at hread
      refine ⟨[attrsOf (d :: ds)], ?_, by simp⟩
      refine Eq.trans (many0_step (suff_piece _) (prog_piece _) (alt_some.2 (Or.inl
        (map_some.2 ⟨_, hread, rfl⟩)))) ?_
      rw [many0_stop (suff_piece n) (piece_brace n r), attrs_rbc]
  · have hread := attributes_last hds hd r i (by rw [hi, List.append_assoc])
    refine ⟨[attrsOf (ds ++ [d])], ?_, by simp⟩
    refine Eq.trans (many0_step (suff_piece _) (prog_piece _) (alt_some.2 (Or.inl
      (map_some.2 ⟨_, hread, rfl⟩)))) ?_
    rw [many0_stop (suff_piece n) (piece_brace n r), attrs_rbc]
  · cases ds with
    | nil =>
      exact rule a body u c rest h1 h2 h3 h4 (by simp [texts]) i hi
    | cons d ds =>
      have hsp := (at_sp conditional_at h1 ('{' :: (body ++ '}' :: u) ++ '}' :: r)).1
      obtain ⟨m, hm⟩ := (at_sp conditional_at h1 []).2
      have hnone : styleAttribute (a.text ++ '{' :: (body ++ '}' :: u) ++ '}' :: r) = none := by
        refine styleAttribute_fail ?_
        rw [List.append_assoc, hsp, hm]
        exact noIdent_at _
      have hread := attributes_before false (by simp) hds hnone i (by rw [hi, List.append_assoc])
      obtain ⟨ps, e1, e2⟩ := rule a body u c rest h1 h2 h3 h4 (by rw [List.length_append (as := texts (d :: ds))]; omega)
        (spRest (a.text ++ '{' :: (body ++ '}' :: u) ++ '}' :: r)) (by rw [spRest_idem])
      refine ⟨attrsOf (d :: ds) :: ps, ?_, by simp [e2]⟩
      refine Eq.trans (many0_step (suff_piece _) (prog_piece _) (alt_some.2 (Or.inl
        (map_some.2 ⟨_, hread, rfl⟩)))) ?_
      rw [e1, attrs_rbc]

/-! ## Frames -/

theorem frames_nil {u : Str} (h : FramesLayout u []) : Blank u := by
  generalize hl : ([] : List RBC) = l at h
  cases h with
  | nil w hw => exact hw
  | frame => cases hl

theorem selsText_lead (w s : Str) (l : List SelSrc) :
    selsText (⟨[], w ++ s⟩ :: l) = w ++ selsText (⟨[], s⟩ :: l) := by
  cases l <;> simp [selsText, Str.join]

/-- The steps of a frame. -/
theorem frame_head {b s : Str} {l : List SelSrc} (hb : Blank b) (hs : SelText s) (hnb : NonBlank s) (hl : ∀ x ∈ l, x.Ok)
    (B i : Str) (hi : spRest i = spRest (b ++ selsText (⟨[], s⟩ :: l) ++ '{' :: B)) :
    map (recognize condition) (fun m => [Str.trim m]) (spRest i) =
      some ('{' :: B, [Str.trim (selsText (⟨[], s⟩ :: l))]) := by
  obtain ⟨w, s', es, hw, hs0, hs', hsp⟩ := selI_lead (selI_of_selText hs) hnb []
  subst es
  have hnb' : NonBlank s' := by
    obtain ⟨c, hc, hc2⟩ := hnb
    rcases List.mem_append.1 hc with hc | hc
    · exact absurd (hw c hc) hc2
    · exact ⟨c, hc, hc2⟩
  have hall : ∀ x ∈ (⟨[], s'⟩ :: l : List SelSrc), SrcI x := by
    intro x hx
    rcases List.mem_cons.1 hx with rfl | hx
    · exact ⟨.nil, hs', hnb'⟩
    · exact srcI_of_ok (hl x hx)
  have hsp' : ∀ y, spRest (s' ++ y) = s' ++ y := by
    intro y
    obtain ⟨c, t, rfl⟩ : ∃ c t, s' = c :: t := by
      cases s' with
      | nil => exact absurd rfl hs0
      | cons c t => exact ⟨c, t, rfl⟩
    simp only [List.append_nil] at hsp
    rw [spRest_blank (blank_ws hw)] at hsp
    cases hs' with
    | char _ _ hq hcs _ =>
      refine spRest_nonblank ?_ (by rintro rfl; simp at hcs) _
      intro hm
      rw [spRest_ws (by simpa using hm)] at hsp
      have h1 := (spRest_suffix t).length_le
      rw [hsp] at h1
      simp at h1
      omega
    | str body t hb _ => exact spRest_nonblank (by simp) (by simp) _
  obtain ⟨y, hy⟩ : ∃ y, selsText (⟨[], s'⟩ :: l) ++ '{' :: B = s' ++ y := by
    cases l with
    | nil => exact ⟨'{' :: B, by simp [selsText, Str.join]⟩
    | cons t l => exact ⟨_, by rw [selsText_cons]; rfl⟩
  have ei : spRest i = selsText (⟨[], s'⟩ :: l) ++ '{' :: B := by
    rw [hi, selsText_lead]
    have e : b ++ (w ++ selsText (⟨[], s'⟩ :: l)) ++ '{' :: B =
        b ++ (w ++ (selsText (⟨[], s'⟩ :: l) ++ '{' :: B)) := by simp
    rw [e, spRest_blank hb, spRest_blank (blank_ws hw), hy, hsp']
  have hcond := condition_srcs (by simp) hall B (spRest i) (by rw [spRest_idem, ei, hy, hsp'])
  refine map_some.2 ⟨selsText (⟨[], s'⟩ :: l), ?_, ?_⟩
  · rw [ei] at hcond ⊢
    exact recognize_append hcond
  · rw [selsText_lead, Text.trim_ws_append _ (fun c hc => ascii_ws (hw c hc))]

/-- A whole frame. -/
theorem frame_read {b s : Str} {l : List SelSrc} (hb : Blank b) (hs : SelText s) (hnb : NonBlank s) (hl : ∀ x ∈ l, x.Ok)
    {body : Str} {content : List RBC} (hbody : BodyLayout body content) (hc : body = [] ∨ content ≠ []) {n : Nat}
    (hn : body.length ≤ n) (R i : Str) (hi : spRest i = spRest (b ++ selsText (⟨[], s⟩ :: l) ++ '{' :: (body ++ '}' :: R))) :
    ruleBlockKeyframes n i = some (spRest R, ([Str.trim (selsText (⟨[], s⟩ :: l))], content)) := by
  let B := body ++ '}' :: R
  have hhead := frame_head hb hs hnb hl B i hi
  obtain ⟨ps, e1, e2⟩ := body_read body.length body content (Nat.le_refl _) hbody n R B hn rfl (by
      intro hc0
      rcases hc with h | h
      · simp [B, h]
      · exact absurd hc0 h)
  refine trimmed_some.2 ⟨R, nonEmpty_some.2 ⟨?_, separatedPair_some.2
    ⟨'{' :: B, B, c! "{", hhead, tag_append (c! "{") _,
      terminated_some.2 ⟨'}' :: R, c! "}", ?_, tag_append (c! "}") _⟩⟩⟩, rfl⟩
  · intro h0
    rw [h0] at hhead
    cases hhead
  · exact nonEmpty_some.2 ⟨by simp [B], map_some.2 ⟨ps, e1, e2⟩⟩

theorem frames_read {b : Str} {frames : List RBC} (h : FramesLayout b frames) :
    ∀ (n : Nat) (r i : Str), b.length ≤ n → spRest i = spRest (b ++ '}' :: r) →
      (frames = [] → i = '}' :: r) →
      ∃ rs, many0 (ruleBlockKeyframes n) i = some ('}' :: r, rs) ∧
        rs.map (fun r => RBC.rule r.1 r.2) = frames := by
  induction h with
  | nil w hw =>
    intro n r i _ _ h0
    rw [h0 rfl]
    exact ⟨[], many0_stop (suff_ruleBlockKeyframes n) (frame_brace n r), rfl⟩
  | frame b s l body u content rest hb hs hnb hl hbody hc hu ih =>
    intro n r i hn hi _
    have hlen : body.length + u.length + 2 ≤ n := by
      simp only [List.length_append, List.length_cons] at hn; omega
    have hframe := frame_read hb hs hnb hl hbody hc (n := n) (by omega) (u ++ '}' :: r) i (by rw [hi]; simp)
    obtain ⟨rs, e3, e4⟩ := ih n r (spRest (u ++ '}' :: r)) (by omega) (by rw [spRest_idem]) (by
      intro h0
      subst h0
      rw [spRest_blank (frames_nil hu), spRest_brace])
    refine ⟨([Str.trim (selsText (⟨[], s⟩ :: l))], content) :: rs, ?_, by simp [e4]⟩
    rw [many0_step (suff_ruleBlockKeyframes n) (prog_ruleBlockKeyframes n) hframe, e3]

/-! ## What follows declarations -/

theorem layout_nil {u : Str} (h : Layout u []) : Blank u := by
  generalize hl : ([] : Sheet) = l at h
  cases h with
  | nil w hw => exact hw
  | _ => cases hl

/-- Where a sheet, or the contents of an at-rule, end: neither an item nor a declaration
begins there. -/
def Ends (n : Nat) (e : Str) : Prop := scopeItemWith n (scopeContents n) e = none ∧ styleAttribute e = none

theorem ends_nil (n : Nat) : Ends n [] :=
  ⟨prog_nil (prog_scopeItemWith _ (suff_scopeContents _)), styleAttribute_fail (by rw [spRest_nil]; intro c hc; simp at hc)⟩

theorem ends_brace (n : Nat) (r : Str) : Ends n ('}' :: r) :=
  ⟨item_brace n _ r, styleAttribute_fail (by rw [spRest_brace]; exact endsDecls_noIdent (Or.inr ⟨r, Or.inl rfl⟩))⟩

/-- A header is read as a declaration only if it looks like one. -/
theorem header_decl {x : Str} (hx : HI x) (y e : Str)
    (h : ¬ StartsLikeDecl (x ++ '{' :: y)) : styleAttribute (x ++ '{' :: (y ++ e)) = none := by
  cases hs : styleAttribute (x ++ '{' :: (y ++ e)) with
  | none => rfl
  | some v =>
    exfalso
    obtain ⟨r1, h1, -⟩ := trimmed_some.1 (show styleAttribute _ = some (v.1, v.2) from hs)
    obtain ⟨-, h2⟩ := nonEmpty_some.1 h1
    obtain ⟨_, h3, -⟩ := map_some.1 h2
    obtain ⟨r2, r3, _, h4, h5, -⟩ := separatedPair_some.1 h3
    obtain ⟨r4, h6, h7⟩ := trimmed_some.1 h4
    rw [spRest_idem] at h6
    have hH : H (y ++ e) (x ++ '{' :: (y ++ e)) := ⟨x, hx, rfl⟩
    have hH4 : H (y ++ e) r4 := pres_ident _ _ _ hH.sp h6
    have hH2 : H (y ++ e) r2 := by rw [h7]; exact hH4.sp
    obtain ⟨h8, -⟩ := tag_some.1 h5
    have hH3 : H (y ++ e) r3 := pres_tag (by decide) (by decide) (by decide) _ _ _ hH2 h5
    obtain ⟨z, -, ez⟩ := hH3
    obtain ⟨b, hb, eb⟩ := GrammarP.spRest_text (x ++ '{' :: (y ++ e))
    obtain ⟨b', hb', eb'⟩ := GrammarP.spRest_text r4
    have ek := GrammarP.ident_text h6
    refine h ⟨b, _, b', z ++ '{' :: y, hb, ShapeP.ident_sound h6, hb', ?_⟩
    rw [ek, eb', ← h7, h8, ez] at eb
    refine List.append_cancel_right (bs := e) ?_
    simpa using eb

theorem decls_like {ds : List DeclSrc} (hne : ds ≠ []) (h : ∀ d ∈ ds, d.Ok) (u : Str) :
    StartsLikeDecl (texts ds ++ u) := by
  cases ds with
  | nil => exact absurd rfl hne
  | cons d ds =>
    obtain ⟨h1, h2, -, h4, -⟩ := h d (by simp)
    exact ⟨d.before, d.key, d.afterKey, d.beforeValue ++ d.value ++ d.after ++ c! ";" ++ texts ds ++ u,
      h1, h2, h4, by simp [texts, DeclSrc.text, DeclSrc.bare]⟩

theorem keyframes_at : ∀ n ∈ [c! "@keyframes"], ∃ m, n = '@' :: m := by
  intro n hn
  simp only [List.mem_singleton] at hn
  exact ⟨_, hn⟩

/-- What follows declarations is not read as one more. -/
theorem after_decls {u : Str} {s : Sheet} (h : Layout u s) (hd : ¬ StartsLikeDecl u) {e : Str}
    (he : s = [] → styleAttribute e = none) : styleAttribute (u ++ e) = none := by
  cases h with
  | nil w hw =>
    exact Eq.trans (trimmed_eq_of_spRest (spRest_blank hw e)) (he rfl)
  | decls ds u rest hne hok _ _ => exact absurd (decls_like hne hok u) hd
  | block l body u content rest hne hok _ _ =>
    have := header_decl (selsText_hi l (fun x hx => srcI_of_ok (hok x hx))) (body ++ c! "}" ++ u) e
      (by simpa using hd)
    simpa using this
  | rule a body u content rest ha _ _ =>
    refine styleAttribute_fail ?_
    obtain ⟨m, hm⟩ := (at_sp conditional_at ha []).2
    have e1 : a.text ++ c! "{" ++ body ++ c! "}" ++ u ++ e = a.text ++ ('{' :: (body ++ '}' :: (u ++ e))) := by simp
    rw [e1, (at_sp conditional_at ha _).1, hm]
    exact noIdent_at _
  | keyframes a body u frames rest ha _ _ _ =>
    refine styleAttribute_fail ?_
    obtain ⟨m, hm⟩ := (at_sp keyframes_at ha []).2
    have e1 : a.text ++ c! "{" ++ body ++ c! "}" ++ u ++ e = a.text ++ ('{' :: (body ++ '}' :: (u ++ e))) := by simp
    rw [e1, (at_sp keyframes_at ha _).1, hm]
    exact noIdent_at _

/-! ## Sheets -/

/-- One round of the loop over a sheet. -/
abbrev item (n : Nat) : Parser ScopeContent := scopeItemWith n (scopeContents n)

theorem suff_item (n : Nat) : Suff (item n) := suff_scopeItemWith _ (suff_scopeContents _)
theorem prog_item (n : Nat) : Prog (item n) := prog_scopeItemWith _ (suff_scopeContents _)

theorem not_conditional (sc : Parser (List ScopeContent)) (x : Str) :
    atRuleWith sc (c! "@keyframes" ++ ' ' :: x) = none := by
  refine trimmed_none.2 ?_
  rw [List.cons_append, spRest_at, nonEmpty_cons _ (by simp), map_none]
  cases hx : separatedPair _ _ _ _ with
  | none => rfl
  | some y =>
    obtain ⟨_, _, _, h1, -⟩ := separatedPair_some.1 (show _ = some (y.1, y.2) from hx)
    rw [atRuleCondition_fail (spRest_at _) rfl] at h1
    cases h1

/-- The sheet ends in loose declarations. -/
def EndsIn (s : Sheet) : Prop := ∃ content s', s = s' ++ [.block [] content]

theorem endsIn_cons {x : ScopeContent} {s : Sheet} (h : EndsIn s) : EndsIn (x :: s) := by
  obtain ⟨c, s', rfl⟩ := h
  exact ⟨c, x :: s', rfl⟩

/-- A text is read item by item, whatever follows it. If it ends in loose declarations, no
declaration follows. -/
theorem layout_reads : ∀ (N : Nat) (css : Str) (s : Sheet), css.length ≤ N → Layout css s →
    ∀ (n : Nat) (e i r : Str) (xs : Sheet), css.length ≤ n → (EndsIn s → styleAttribute e = none) →
      many0 (item n) (spRest e) = some (r, xs) → spRest i = spRest (css ++ e) →
      (s = [] → i = spRest e) → many0 (item n) i = some (r, s ++ xs) := by
  intro N
  induction N using Nat.strongRecOn with
  | ind N ih =>
  intro css s hN h n e i r xs hn he hr hi h0
  have next : ∀ (u : Str) (rest : Sheet), u.length < N → u.length ≤ n → Layout u rest →
      (EndsIn rest → styleAttribute e = none) →
      many0 (item n) (spRest (u ++ e)) = some (r, rest ++ xs) := by
    intro u rest h1 h2 hu he
    refine ih u.length h1 u rest (Nat.le_refl _) hu n e _ r xs h2 he hr (by rw [spRest_idem]) ?_
    intro h3
    subst h3
    rw [spRest_blank (layout_nil hu)]
  have step : ∀ (u : Str) (rest : Sheet) (t : ScopeContent), u.length < N → u.length ≤ n → Layout u rest →
      (EndsIn rest → styleAttribute e = none) →
      item n i = some (spRest (u ++ e), t) → many0 (item n) i = some (r, t :: rest ++ xs) := by
    intro u rest t h1 h2 hu he ht
    refine Eq.trans (many0_step (suff_item n) (prog_item n) ht) ?_
    rw [next u rest h1 h2 hu he]
    rfl
  cases h with
  | nil w hw =>
    rw [h0 rfl]
    exact hr
  | decls ds u rest hne hok hlike hu =>
    have hlen : u.length < ((ds.map DeclSrc.text).flatten ++ u).length := by
      cases ds with
      | nil => exact absurd rfl hne
      | cons d ds => simp [DeclSrc.text]; omega
    refine step u rest _ (by omega) (by omega) hu (fun x => he (endsIn_cons x)) (alt_some.2 (Or.inl ?_))
    have hread := attributes_before true hne hok (after_decls hu hlike (fun h1 => he (by subst h1; exact ⟨_, [], rfl⟩))) (spRest i)
      (by rw [spRest_idem, hi, List.append_assoc])
    refine trimmed_some.2 ⟨spRest (u ++ e), nonEmpty_some.2 ⟨?_, map_some.2 ⟨_, hread, ?_⟩⟩,
      (spRest_idem _).symm⟩
    · intro h1
      rw [h1, prog_nil (prog_attributes true)] at hread
      cases hread
    · rw [attrs_rbc]; rfl
  | block l body u content rest hne hok hbody hu =>
    have hlen : body.length + u.length + 2 ≤ (selsText l ++ c! "{" ++ body ++ c! "}" ++ u).length := by
      simp; omega
    let B := body ++ '}' :: (u ++ e)
    have hsrc : ∀ x ∈ l, SrcI x := fun x hx => srcI_of_ok (hok x hx)
    have ei : spRest i = spRest (selsText l ++ '{' :: B) := by rw [hi]; simp [B]
    have hH : H B (spRest i) := by rw [ei]; exact H.sp ⟨_, selsText_hi l hsrc, rfl⟩
    have hne' : spRest i ≠ [] := by
      obtain ⟨c, t, e, -⟩ := hH.head
      rw [e]; simp
    refine step u rest _ (by omega) (by omega) hu (fun x => he (endsIn_cons x)) (alt_some.2 (Or.inr ⟨?_, alt_some.2 (Or.inl ?_)⟩))
    · refine trimmed_none.2 ?_
      rw [nonEmpty_cons _ hne', map_none]
      exact attributes_header hH
    · have hcond := condition_srcs hne hsrc B (spRest i) (by rw [spRest_idem, ei])
      refine trimmed_some.2 ⟨u ++ e, nonEmpty_some.2 ⟨hne', map_some.2 ⟨(_, content), pair_some.2
        ⟨'{' :: B, hcond, ?_⟩, rfl⟩⟩, rfl⟩
      refine delimited_some.2 ⟨B, c! "{", '}' :: (u ++ e), c! "}", tag_append (c! "{") _, ?_,
        tag_append (c! "}") _⟩
      obtain ⟨ps, e1, e2⟩ := body_read body.length body content (Nat.le_refl _) hbody n (u ++ e)
        (spRest (spRest B)) (by omega) (by simp only [spRest_idem]; rfl) (by
          intro hc
          subst hc
          rw [spRest_idem]
          show spRest (body ++ _) = _
          rw [spRest_blank (body_nil hbody), spRest_brace])
      refine trimmed_some.2 ⟨'}' :: (u ++ e), trimmed_some.2 ⟨'}' :: (u ++ e), nonEmpty_some.2
        ⟨?_, map_some.2 ⟨ps, e1, e2⟩⟩, (spRest_brace _).symm⟩, (spRest_brace _).symm⟩
      intro h1
      rw [h1, many0_stop (suff_piece n) (prog_nil (prog_piece n))] at e1
      simp at e1
  | rule a body u content rest ha hbody hu =>
    have hlen : body.length + u.length + 2 ≤ (a.text ++ c! "{" ++ body ++ c! "}" ++ u).length := by
      simp; omega
    let B := body ++ '}' :: (u ++ e)
    obtain ⟨hsp, m, hm⟩ := at_sp conditional_at ha ('{' :: B)
    have ei : spRest i = a.name ++ ' ' :: (a.cond ++ '{' :: B) := by rw [hi, ← hsp]; simp [B]
    obtain ⟨k, rfl⟩ : ∃ k, n = k + 1 := ⟨n - 1, by omega⟩
    refine step u rest _ (by omega) (by omega) hu (fun x => he (endsIn_cons x)) ?_
    rw [show item (k + 1) i = item (k + 1) (spRest i) from item_sp (by rw [spRest_idem]), ei]
    have hat := at_sp conditional_at ha ('{' :: B)
    refine alt_some.2 (Or.inr ⟨by rw [hm]; exact dangling_at _, alt_some.2 (Or.inr
      ⟨by rw [hm]; exact block_at _ _, alt_some.2 (Or.inl ?_)⟩)⟩)
    have hsp2 : spRest (a.name ++ ' ' :: (a.cond ++ '{' :: B)) = a.name ++ ' ' :: (a.cond ++ '{' :: B) := by
      rw [hm, List.cons_append, spRest_at]
    refine trimmed_some.2 ⟨u ++ e, ?_, rfl⟩
    rw [hsp2]
    refine nonEmpty_some.2 ⟨by rw [hm]; simp, map_some.2 ⟨(a.value, content), separatedPair_some.2
      ⟨'{' :: B, B, c! "{", atCondition_read a.name (conditional_supports ha.2.1 _) ⟨m, hm⟩ ha.2.2.1
        ha.2.2.2.1 ha.2.2.2.2, tag_append (c! "{") _, terminated_some.2
          ⟨'}' :: (u ++ e), c! "}", ?_, tag_append (c! "}") _⟩⟩, rfl⟩⟩
    have hm0 := ih body.length (by omega) body content (Nat.le_refl _) hbody k ('}' :: (u ++ e))
      (spRest B) ('}' :: (u ++ e)) [] (by omega) (fun _ => (ends_brace k _).2)
      (by rw [spRest_brace]; exact many0_stop (suff_item k) (ends_brace k _).1) (by rw [spRest_idem]) (by
        intro h1
        subst h1
        show spRest (body ++ _) = _
        rw [spRest_blank (layout_nil hbody)])
    rw [List.append_nil] at hm0
    refine trimmed_some.2 ⟨'}' :: (u ++ e), nonEmpty_some.2 ⟨?_, hm0⟩, (spRest_brace _).symm⟩
    intro h1
    rw [h1, many0_stop (suff_item k) (prog_nil (prog_item k))] at hm0
    simp at hm0
  | keyframes a body u frames rest ha hbody hc hu =>
    have hlen : body.length + u.length + 2 ≤ (a.text ++ c! "{" ++ body ++ c! "}" ++ u).length := by
      simp; omega
    let B := body ++ '}' :: (u ++ e)
    obtain ⟨hsp, m, hm⟩ := at_sp keyframes_at ha ('{' :: B)
    have hname : a.name = c! "@keyframes" := by simpa using ha.2.1
    have ei : spRest i = a.name ++ ' ' :: (a.cond ++ '{' :: B) := by rw [hi, ← hsp]; simp [B]
    refine step u rest _ (by omega) (by omega) hu (fun x => he (endsIn_cons x)) ?_
    rw [show item n i = item n (spRest i) from item_sp (by rw [spRest_idem]), ei]
    refine alt_some.2 (Or.inr ⟨by rw [hm]; exact dangling_at _, alt_some.2 (Or.inr
      ⟨by rw [hm]; exact block_at _ _, alt_some.2 (Or.inr ⟨by rw [hname]; exact not_conditional _ _, ?_⟩)⟩)⟩)
    have hsp2 : spRest (a.name ++ ' ' :: (a.cond ++ '{' :: B)) = a.name ++ ' ' :: (a.cond ++ '{' :: B) := by
      rw [hm, List.cons_append, spRest_at]
    obtain ⟨rs, e1, e2⟩ := frames_read hbody n (u ++ e) B (by omega) rfl (by
      intro h1
      rcases hc with h | h
      · simp [B, h]
      · exact absurd h1 h)
    refine map_some.2 ⟨(a.value, rs), trimmed_some.2 ⟨u ++ e, ?_, rfl⟩, by rw [← e2]⟩
    rw [hsp2]
    exact separatedPair_some.2 ⟨'{' :: B, B, c! "{", atCondition_read a.name
      (by rw [hname]; exact alt_some.2 (Or.inl (tag_append (c! "@keyframes") _))) ⟨m, hm⟩ ha.2.2.1
      ha.2.2.2.1 ha.2.2.2.2, tag_append (c! "{") _, terminated_some.2
        ⟨'}' :: (u ++ e), c! "}", e1, tag_append (c! "}") _⟩⟩

theorem layout_read (N : Nat) (css : Str) (s : Sheet) (hN : css.length ≤ N) (h : Layout css s)
    (n : Nat) (e i : Str) (hn : css.length ≤ n) (he : Ends n e) (hi : spRest i = spRest (css ++ e))
    (h0 : s = [] → i = spRest e) : many0 (item n) i = some (spRest e, s) := by
  have := layout_reads N css s hN h n e i (spRest e) [] hn (fun _ => he.2) (many0_stop (suff_item n) (by
    rw [show item n (spRest e) = item n e from item_sp (spRest_idem e)]; exact he.1)) hi h0
  rwa [List.append_nil] at this

theorem layout_parse {css : Str} {s : Sheet} (h : Layout css s) : parse css = some s := by
  by_cases hsp : spRest css = []
  · have hs : s = [] := by
      cases s with
      | nil => rfl
      | cons x s =>
        have := layout_read css.length css _ (Nat.le_refl _) h css.length [] (spRest css) (Nat.le_refl _)
          (ends_nil _) (by rw [spRest_idem, List.append_nil]) (by simp)
        rw [hsp, many0_stop (suff_item _) (prog_nil (prog_item _))] at this
        simp at this
    subst hs
    have hnil : scope (css.length + 1) [] = none := by
      refine trimmed_none.2 ?_
      rw [spRest_nil]; rfl
    have : sheet (css.length + 1) css = some ([], []) := by
      refine trimmed_some.2 ⟨[], map_some.2 ⟨[], ?_, rfl⟩, spRest_nil.symm⟩
      rw [hsp]
      exact many0_stop (suff_scope _) hnil
    unfold parse parseWith
    rw [this]; rfl
  · refine parse_intro hsp ?_
    have := layout_read css.length css s (Nat.le_refl _) h css.length [] (spRest css) (Nat.le_refl _)
      (ends_nil _) (by rw [spRest_idem, List.append_nil]) ?_
    · rw [spRest_nil] at this; exact this
    intro hs
    subst hs
    have := spRest_blank (layout_nil h) []
    rw [List.append_nil, spRest_nil] at this
    exact absurd this hsp

end LayoutP
