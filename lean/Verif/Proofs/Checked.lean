import Verif.Proofs.Reparse
import Verif.Proofs.Written
import Verif.Spec.Checked

/-! # Texts that are parsed again, with commas inside of selectors -/

namespace CheckedP
open Spec Nom NomP Css ParserP LexP ShapeP DeclsP GroupsP ReparseP HeadersP

/-! ## Scoping -/

theorem expandAmp_append (r : Str) (a b : Str) : expandAmp r (a ++ b) = expandAmp r a ++ expandAmp r b := by
  induction a using expandAmp.induct with
  | case1 => rfl
  | case2 s ih => simp only [List.cons_append, expandAmp, ih, List.append_assoc]
  | case3 c s hc ih =>
    rw [List.cons_append, expandAmp, expandAmp, ih]
    · rfl
    · exact hc
    · exact hc

theorem expand_comma (r : Str) (a b : Str) : expand r (a ++ ',' :: b) = expand r a ++ ',' :: expand r b := by
  induction a using expand.induct with
  | case1 =>
    simp [expand]
  | case2 s ih => simp only [List.cons_append, expand, ih, List.append_assoc]
  | case3 s ih => simp only [List.cons_append, expand, ih, List.append_assoc]
  | case4 c s h1 h2 ih =>
    rw [List.cons_append, expand, expand, ih]
    · rfl
    · exact h1
    · exact h2
    · exact h1
    · intro t hc ht
      subst hc
      -- the pattern does not reach over a comma
      rcases s with _ | ⟨c1, _ | ⟨c2, _ | ⟨c3, _ | ⟨c4, s⟩⟩⟩⟩ <;> simp at ht
      obtain ⟨rfl, rfl, rfl, rfl, -⟩ := ht
      exact h2 s rfl rfl

theorem join_expand (f : Str → Str) (h0 : f [] = []) (hf : ∀ a b, f (a ++ ',' :: b) = f a ++ ',' :: f b) :
    ∀ ps : List Str, f (Str.join (c! ",") ps) = Str.join (c! ",") (ps.map f)
  | [] => h0
  | [p] => rfl
  | p :: q :: ps => by
    have ih := join_expand f h0 hf (q :: ps)
    simp only [Str.join, List.map_cons, List.append_assoc, List.cons_append, List.nil_append] at ih ⊢
    rw [hf, ih]

theorem nonBlank_append_right {a b : Str} (h : NonBlank b) : NonBlank (a ++ b) := by
  obtain ⟨c, hc, h⟩ := h
  exact ⟨c, by simp [hc], h⟩

theorem nonBlank_neutral {r : Str} (h : Neutral r) : NonBlank r :=
  nonBlank_of_trim h.ne ((trim_iff r).2 ⟨h.head, h.last⟩)

theorem nonBlank_left {a b : Str} (h : NonBlank a) : NonBlank (a ++ b) := by
  obtain ⟨c, hc, h⟩ := h
  exact ⟨c, by simp [hc], h⟩

theorem nonBlank_cons {c : Char} {s t : Str} (h : NonBlank (c :: s)) (ih : NonBlank s → NonBlank t) :
    NonBlank (c :: t) := by
  obtain ⟨d, hd, h⟩ := h
  rcases List.mem_cons.1 hd with rfl | hd
  · exact ⟨d, by simp, h⟩
  · obtain ⟨e, he, h'⟩ := ih ⟨d, hd, h⟩
    exact ⟨e, by simp [he], h'⟩

theorem expandAmp_nonBlank {r : Str} (hr : Neutral r) (s : Str) : NonBlank s → NonBlank (expandAmp r s) := by
  induction s using expandAmp.induct with
  | case1 => exact id
  | case2 s ih => intro _; rw [expandAmp]; exact nonBlank_left (nonBlank_neutral hr)
  | case3 c s hc ih =>
    intro h
    rw [expandAmp]
    · exact nonBlank_cons h ih
    · exact hc

theorem expand_nonBlank {r : Str} (hr : Neutral r) (s : Str) : NonBlank s → NonBlank (expand r s) := by
  induction s using expand.induct with
  | case1 => exact id
  | case2 s ih => intro _; rw [expand]; exact nonBlank_left (nonBlank_neutral hr)
  | case3 s ih => intro _; rw [expand]; exact nonBlank_left (nonBlank_neutral hr)
  | case4 c s h1 h2 ih =>
    intro h
    rw [expand]
    · exact nonBlank_cons h ih
    · exact h1
    · exact h2

/-- A text in front of the pieces. -/
theorem frame_prepend {a : Str} (ha : SelText a) {ps : List Str} (hne : ps ≠ [])
    (hp : ∀ p ∈ ps, SelText p ∧ NonBlank p) :
    ∃ qs : List Str, qs ≠ [] ∧ (∀ q ∈ qs, SelText q ∧ NonBlank q) ∧
      a ++ Str.join (c! ",") ps = Str.join (c! ",") qs := by
  cases ps with
  | nil => exact absurd rfl hne
  | cons p ps =>
    obtain ⟨h1, h2⟩ := hp p (by simp)
    refine ⟨(a ++ p) :: ps, by simp, ?_, ?_⟩
    · intro q hq
      rcases List.mem_cons.1 hq with rfl | hq
      · exact ⟨SelText.append ha h1, nonBlank_append_right h2⟩
      · exact hp q (by simp [hq])
    · cases ps with
      | nil => rfl
      | cons q ps => simp [Str.join]

theorem printed_frame {cls : Option Str} (h : ∀ c ∈ cls, CleanClass c) {s : Str} (hs : CleanFrame s) :
    CleanFrame (scopeSelector cls s) := by
  obtain ⟨ps, h1, h2, h4, h3⟩ := hs
  have hne : s ≠ [] := (frame_ne ⟨ps, h1, h2, h4, h3⟩).1
  obtain ⟨hh, hl⟩ := (trim_iff s).1 h3
  cases cls with
  | none =>
    refine ⟨ps.map (expandAmp (c! ":root")), by simpa using h1, ?_, ?_,
      (trim_iff _).2 ⟨expandAmp_head neutral_root s hh, expandAmp_last neutral_root s hl⟩⟩
    · intro q hq
      obtain ⟨p, hp, rfl⟩ := List.mem_map.1 hq
      obtain ⟨e1, e2⟩ := h2 p hp
      refine ⟨?_, expandAmp_nonBlank neutral_root p e2⟩
      show lexRun _ _ _ = _
      rw [expandAmp_run neutral_root]
      exact e1
    · rw [scopeSelector, h4]
      refine join_expand _ rfl (fun a b => ?_) ps
      rw [expandAmp_append, expandAmp]
      simp
  | some c =>
    have hn := neutral_class (h c rfl)
    simp only [scopeSelector]
    split
    · refine ⟨ps.map (expand ('.' :: c)), by simpa using h1, ?_, ?_,
        (trim_iff _).2 ⟨expand_head hn s hh, expand_last hn s hl⟩⟩
      · intro q hq
        obtain ⟨p, hp, rfl⟩ := List.mem_map.1 hq
        obtain ⟨e1, e2⟩ := h2 p hp
        refine ⟨?_, expand_nonBlank hn p e2⟩
        show lexRun _ _ _ = _
        rw [expand_run hn]
        exact e1
      · rw [h4]
        exact join_expand _ rfl (fun a b => expand_comma _ a b) ps
    · split
      · obtain ⟨qs, q1, q2, q3⟩ := frame_prepend hn.out h1 h2
        refine ⟨qs, q1, q2, by rw [← q3, h4], (trim_iff _).2 ⟨hn.head.append hn.ne _, hn.last.append hl⟩⟩
      · obtain ⟨qs, q1, q2, q3⟩ := frame_prepend (a := '.' :: c ++ c! " ") (SelText.append hn.out (by decide)) h1 h2
        refine ⟨qs, q1, q2, by rw [← q3, h4]; simp,
          (trim_iff _).2 ⟨hn.head.append hn.ne _, hn.last.append ?_⟩⟩
        intro d hd
        cases s with
        | nil => exact absurd rfl hne
        | cons e t => exact hl d (by simpa [List.getLast?_cons_cons] using hd)

theorem frame_neutral {r : Str} (h : Neutral r) : CleanFrame r :=
  ⟨[r], by simp, by intro p hp; simp only [List.mem_singleton] at hp; subst hp; exact ⟨h.out, nonBlank_neutral h⟩, rfl,
    (trim_iff r).2 ⟨h.head, h.last⟩⟩

theorem printing_frame {cls : Option Str} (h : ∀ c ∈ cls, CleanClass c) : Printing cls CleanFrame CleanFrame :=
  ⟨h, frame_neutral (neutral_current h), fun _ hs => printed_frame h hs, fun _ hs => ⟨(frame_ne hs).1, frame_head hs⟩⟩

/-! ## Reading -/

theorem ws_pieces {w : Str} (hw : ∀ c ∈ w, c ∈ (c! " \t\r\n")) {ps : List Str} (hne : ps ≠ [])
    (hp : ∀ p ∈ ps, SelText p ∧ NonBlank p) :
    ∃ qs : List Str, qs ≠ [] ∧ (∀ q ∈ qs, SelText q ∧ NonBlank q) ∧
      w ++ Str.join (c! ",") ps = Str.join (c! ",") qs := frame_prepend (selText_ws hw) hne hp

theorem join_append : ∀ {ps qs : List Str}, ps ≠ [] → qs ≠ [] →
    Str.join (c! ",") ps ++ c! "," ++ Str.join (c! ",") qs = Str.join (c! ",") (ps ++ qs)
  | [], _, h, _ => absurd rfl h
  | [p], [], _, h => absurd rfl h
  | [p], q :: qs, _, _ => rfl
  | p :: p' :: ps, qs, _, hq => by
    have := join_append (ps := p' :: ps) (qs := qs) (by simp) hq
    simp only [Str.join, List.cons_append] at this ⊢
    rw [← this]
    simp

theorem frames_pieces : ∀ (σs : List Str) (w : Str), σs ≠ [] → (∀ c ∈ w, c ∈ (c! " \t\r\n")) →
    (∀ x ∈ σs, CleanFrame x) →
    ∃ ps : List Str, ps ≠ [] ∧ w ++ header σs ++ c! " " = Str.join (c! ",") ps ∧ ∀ p ∈ ps, SelI p ∧ NonBlank p
  | [], _, h, _, _ => absurd rfl h
  | [s], w, _, hw, hs => by
    obtain ⟨ps, e1, e2, e3⟩ := frame_pieces (hs s (by simp))
    obtain ⟨ps', f1, f2, f3, -⟩ := hs s (by simp)
    obtain ⟨qs, q1, q2, q3⟩ := ws_pieces hw f1 f2
    -- the blank at the end goes to the last piece
    have : ∀ qs : List Str, qs ≠ [] → (∀ q ∈ qs, SelText q ∧ NonBlank q) →
        ∃ ps : List Str, ps ≠ [] ∧ Str.join (c! ",") qs ++ c! " " = Str.join (c! ",") ps ∧ ∀ p ∈ ps, SelI p ∧ NonBlank p := by
      intro qs
      induction qs with
      | nil => intro h _; exact absurd rfl h
      | cons q qs ih =>
        intro _ h
        obtain ⟨g1, g2⟩ := h q (by simp)
        cases qs with
        | nil =>
          refine ⟨[q ++ c! " "], by simp, rfl, ?_⟩
          intro p hp
          simp only [List.mem_singleton] at hp
          subst hp
          exact ⟨selI_of_selText (SelText.append g1 (by decide)), nonBlank_left g2⟩
        | cons q' qs =>
          obtain ⟨ps, i1, i2, i3⟩ := ih (by simp) (fun x hx => h x (List.mem_cons_of_mem _ hx))
          refine ⟨q :: ps, by simp, ?_, ?_⟩
          · cases ps with
            | nil => exact absurd rfl i1
            | cons a ps =>
              simp only [Str.join] at i2 ⊢
              rw [← i2]; simp
          · intro p hp
            rcases List.mem_cons.1 hp with rfl | hp
            · exact ⟨selI_of_selText g1, g2⟩
            · exact i3 p hp
    obtain ⟨rs, r1, r2, r3⟩ := this qs q1 q2
    refine ⟨rs, r1, ?_, r3⟩
    rw [← r2, ← q3, ← f3]
    rfl
  | s :: s' :: t, w, _, hw, hs => by
    obtain ⟨ps, e0, e1, e3⟩ := frames_pieces (s' :: t) (c! " ") (by simp) (by decide)
      (fun x hx => hs x (by simp [List.mem_cons.1 hx]))
    obtain ⟨ps', f1, f2, f3, -⟩ := hs s (by simp)
    obtain ⟨qs, q1, q2, q3⟩ := ws_pieces hw f1 f2
    refine ⟨qs ++ ps, by simp [q1], ?_, ?_⟩
    · rw [← join_append q1 e0, ← e1, ← q3, ← f3]
      simp [header, Str.join]
    · intro p hp
      rcases List.mem_append.1 hp with hp | hp
      · exact ⟨selI_of_selText (q2 p hp).1, (q2 p hp).2⟩
      · exact e3 p hp

theorem group_reads {g : Group} (hg : g.Holds CleanFrame) : ∃ t m, ReparseP.Reads m g.text t ∧ m ≤ g.text.length := by
  cases g with
  | decls R σs D =>
    obtain ⟨h1, h2, h3, h4, h5⟩ := hg
    rw [decls_text]
    obtain ⟨ps, p0, p1, p3⟩ := frames_pieces σs [] h2 (by simp) h3
    have hr : ReparseP.Reads 0 (indent R.length ++ (header σs ++ c! " {" ++ bodyText (R.length + 1) R.length D (c! "\n")))
        (.block (ps.map (fun p => [Str.trim p])) (attrs D)) := by
      intro n i r _ hi
      have hi' : spRest i = spRest (header σs ++ ' ' :: '{' :: bodyText (R.length + 1) R.length D ('\n' :: r)) := by
        rw [hi]
        simp only [List.append_assoc, spRest_indent]
        simp [bodyText]
      obtain ⟨e1, e2⟩ := block_read_pieces p0 p1 p3 h4 h5 ('\n' :: r) n i hi'
      rw [spRest_nl] at e2
      exact alt_some.2 (Or.inr ⟨e1, alt_some.2 (Or.inl e2)⟩)
    obtain ⟨t, e1, -⟩ := reads_nest hr (scopeSelector none) [] R 0 h1
    refine ⟨t, 0 + R.length, e1, ?_⟩
    have hlen : ∀ (R : List Str) (X : Str) (d : Nat), R.length ≤ (nest d R X).length := by
      intro R X
      induction R with
      | nil => simp
      | cons a R ih => intro d; have := ih (d + 1); simp [nest]; omega
    rw [Nat.zero_add]; exact hlen _ _ _
  | frames R k F =>
    obtain ⟨t, m, h1, h2, -⟩ := ReparseP.group_reads (g := .frames R k F) hg []
    exact ⟨t, m, h1, h2⟩

theorem groups_parse {gs : List Group} (hg : ∀ g ∈ gs, g.Holds CleanFrame) :
    ∃ s', parse (gs.flatMap Group.text) = some s' := by
  have key : ∀ (n : Nat) (gs : List Group), (∀ g ∈ gs, g.Holds CleanFrame) → (∀ g ∈ gs, g.text.length ≤ n) →
      ∃ ts : List ScopeContent,
        many0 (scopeItemWith n (scopeContents n)) (spRest (gs.flatMap Group.text)) = some ([], ts) := by
    intro n gs
    induction gs with
    | nil =>
      intro _ _
      refine ⟨[], ?_⟩
      rw [List.flatMap_nil, spRest_nil]
      exact many0_stop (suff_scopeItemWith _ (suff_scopeContents _))
        (prog_nil (prog_scopeItemWith _ (suff_scopeContents _)))
    | cons g gs ih =>
      intro hg hn
      obtain ⟨ts, h1⟩ := ih (fun x hx => hg x (by simp [hx])) (fun x hx => hn x (by simp [hx]))
      obtain ⟨t, m, e1, e2⟩ := group_reads (hg g (by simp))
      have hle := hn g (by simp)
      have hitem := e1 n (spRest (g.text ++ gs.flatMap Group.text)) (gs.flatMap Group.text) (by omega)
        (by rw [spRest_idem])
      refine ⟨t :: ts, ?_⟩
      rw [List.flatMap_cons, many0_step (suff_scopeItemWith _ (suff_scopeContents _))
        (prog_scopeItemWith _ (suff_scopeContents _)) hitem, h1]
  cases gs with
  | nil => exact ⟨[], parse_nil⟩
  | cons g gs =>
    obtain ⟨ts, h1⟩ := key ((g :: gs).flatMap Group.text).length (g :: gs) hg
      (by
        intro x hx
        obtain ⟨a, b, e⟩ := List.append_of_mem hx
        rw [e]
        simp; omega)
    refine ⟨ts, parse_intro ?_ h1⟩
    intro h0
    obtain ⟨t, m, e1, e2⟩ := group_reads (hg g (by simp))
    have hitem := e1 m (spRest (g.text ++ gs.flatMap Group.text)) (gs.flatMap Group.text) (Nat.le_refl _)
      (by rw [spRest_idem])
    rw [List.flatMap_cons] at h0
    rw [h0, prog_nil (prog_scopeItemWith _ (suff_scopeContents _))] at hitem
    cases hitem

/-- The text of a sheet whose selectors may have commas inside is parsed. -/
theorem sheet_parses {s : Sheet} (hs : ∀ x ∈ s, ScopeWith CleanFrame x.toRBC) {cls : Option Str}
    (hc : ∀ c ∈ cls, CleanClass c) : ∃ s', parse (s.toStyleStr cls) = some s' := by
  obtain ⟨gs, h1, h2, -⟩ := sheet_groups_with (printing_frame hc) hs
  rw [h1]
  exact groups_parse h2

/-! ## Inline css -/

open Output WrittenP

theorem checkedL_append {ρ : Env} : ∀ x y : List SItem, CheckedL ρ (x ++ y) ↔ CheckedL ρ x ∧ CheckedL ρ y
  | [], y => by simp [CheckedL]
  | i :: x, y => by simp [CheckedL, checkedL_append x y, and_assoc]

theorem clean_condition {ρ : Env} {name : CssIdent} {ps : List CV} (hn : cssName name ∈ [c! "media", c! "supports"])
    (h1 : Str.trim (cvsText ρ ps) = cvsText ρ ps) (h2 : '$' ∉ cvsText ρ ps) (h3 : '{' ∉ cvsText ρ ps) :
    CleanAt conditionalNames ([fragsText ρ (condition name ps)] : List Str).flatten := by
  refine ⟨c! "@" ++ cssName name, ?_, cvsText ρ ps, ?_, h1, h2, h3⟩
  · simp only [List.mem_cons, List.not_mem_nil, or_false] at hn
    rcases hn with hn | hn <;> rw [hn] <;> decide
  · rw [cond_text]; simp

theorem emits_in {ρ : Env} {is : List SItem} {out : List ORBC} (h : EmitsIn is out) (hl : LawfulL is)
    (hp : CheckedL ρ is) : ∀ x ∈ meaningRBCs ρ out, CleanItem x := by
  induction h with
  | nil => simp [meaningRBCs]
  | decl name vs is out h ih =>
    intro x hx
    simp only [meaningRBCs, List.mem_cons] at hx
    rcases hx with rfl | hx
    · have h1 := hp.1
      refine CleanItem.attr _ _ ?_
      rw [Checked] at h1
      simpa [key_text ρ hl.1.1, spaced_text] using h1
    · exact ih hl.2 hp.2 x hx
  | rule name ps body a is out h1 h2 ih1 ih2 =>
    intro x hx
    simp only [meaningRBCs, List.mem_cons] at hx
    rcases hx with rfl | hx
    · have h1 := hp.1
      rw [Checked] at h1
      exact CleanItem.rule _ _ (clean_condition hl.1.1 h1.1 h1.2.1 h1.2.2.1) (ih1 hl.1.2.2 h1.2.2.2)
    · exact ih2 hl.2 hp.2 x hx

theorem emits {ρ : Env} {is : List SItem} {out : List ORBC} (h : Emits is out) (hl : LawfulL is)
    (hp : CheckedL ρ is) : ∀ x ∈ meaningRBCs ρ out, ScopeWith CleanFrame x := by
  induction h with
  | nil => simp [meaningRBCs]
  | decls ds is out hne hds hhd h ih =>
    obtain ⟨l1, l2⟩ := (lawfulL_append ds is).1 hl
    obtain ⟨p1, p2⟩ := (checkedL_append ds is).1 hp
    intro x hx
    simp only [meaningRBCs, List.mem_cons] at hx
    rcases hx with rfl | hx
    · exact .block _ _ (by simp) (emits_in (emitsIn_decls ds hds) l1 p1)
    · exact ih l2 p2 x hx
  | rule name ps body a is out h1 h2 ih1 ih2 =>
    intro x hx
    simp only [meaningRBCs, List.mem_cons] at hx
    rcases hx with rfl | hx
    · have h1 := hp.1
      rw [Checked] at h1
      exact .rule _ _ (clean_condition hl.1.1 h1.1 h1.2.1 h1.2.2.1) (ih1 hl.1.2.2 h1.2.2.2)
    · exact ih2 hl.2 hp.2 x hx
  | block qs body a is out h1 h2 ih =>
    intro x hx
    simp only [meaningRBCs, List.mem_cons] at hx
    rcases hx with rfl | hx
    · have h3 := hp.1
      rw [Checked] at h3
      refine .block _ _ ?_ (emits_in h1 hl.1.2 h3.2)
      rw [sels_text]
      intro s hs
      obtain ⟨s', hs', rfl⟩ := List.mem_map.1 hs
      simpa using h3.1 s' hs'
    · exact ih hl.2 hp.2 x hx

/-- The text of checked inline css is parsed. -/
theorem meaning_parses {ρ : Env} {is : List SItem} {out : OSheet} (h : Emits is (out.map scopeRBC)) (hl : LawfulL is)
    (hp : CheckedL ρ is) {cls : Option Str} (hc : ∀ c ∈ cls, CleanClass c) :
    ∃ s', parse ((meaning ρ out).toStyleStr cls) = some s' := by
  refine sheet_parses (fun x hx => ?_) hc
  have := emits h hl hp x.toRBC
  rw [← meaning_toRBC] at this
  exact this (List.mem_map_of_mem hx)

end CheckedP
