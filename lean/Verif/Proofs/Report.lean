import Verif.Proofs.Rejected
import Verif.Proofs.Grammar
import Verif.Spec.Report
import Verif.Model.Report

/-!
# Lemmas on the report of a parse error
-/

open Spec Css Nom NomP ParserP LexP DeclsP HeadersP ReparseP LayoutP RejectedP

namespace Report

variable {α : Type}

theorem loop_ok {p : Parser α} : ∀ {n : Nat} {i : Str} {x : Str × List α},
    many0Loop p n i = .ok x ↔ Nom.many0Loop p n i = some x
  | 0, i, x => by simp [many0Loop, Nom.many0Loop]
  | n + 1, i, x => by
    unfold many0Loop Nom.many0Loop
    rcases p i with _ | ⟨r, a⟩
    · simp
    · simp only
      split
      · simp
      · rcases h : many0Loop p n r with e | y
        · have : Nom.many0Loop p n r = none := by
            rcases h' : Nom.many0Loop p n r with _ | y
            · rfl
            · rw [loop_ok.2 h'] at h; cases h
          rw [this]; simp
        · rw [loop_ok.1 h]; simp

theorem loop_error {p : Parser α} (hp : Suff p) : ∀ {n : Nat} {i e : Str}, i.length < n → many0Loop p n i = .error e →
    e <:+ i ∧ (∃ r a, p e = some (r, a) ∧ r.length = e.length) ∧ (e = i ∨ ∃ j a, p j = some (e, a))
  | 0, i, e, hn, h => absurd hn (Nat.not_lt_zero _)
  | n + 1, i, e, hn, h => by
    unfold many0Loop at h
    rcases hpi : p i with _ | ⟨r, a⟩ <;> rw [hpi] at h
    · cases h
    · simp only at h
      split at h
      · rename_i hl
        cases h
        exact ⟨List.suffix_refl _, ⟨r, a, hpi, hl⟩, .inl rfl⟩
      · rename_i hl
        have hs := hp _ _ _ hpi
        rcases hr : many0Loop p n r with e' | y <;> rw [hr] at h
        · cases h
          have := hs.length_le
          obtain ⟨h1, h2, h3⟩ := loop_error hp (by omega) hr
          refine ⟨h1.trans hs, h2, .inr ?_⟩
          rcases h3 with h3 | h3
          · exact ⟨i, a, by rw [hpi, h3]⟩
          · exact h3
        · cases h

/-- The place of the error: the whole entry list is fixed by it. -/
def errorsAt (css r : Str) : List (Str × Kind) :=
  [(r, .many0), (css, .context (c! "Trimmed")), (css, .context (c! "StyleSheet"))]

theorem sheet_eq (css : Str) : sheet css =
    match many0Loop (scope (css.length + 1)) ((spRest css).length + 1) (spRest css) with
    | .error e => .error (errorsAt css e)
    | .ok (_, l) => .ok l.flatten := by
  obtain ⟨t, h⟩ := sp_total css
  unfold sheet
  rw [h]; rfl

theorem sheet_ok (css : Str) (s : Sheet) : sheet css = .ok s ↔ Css.parse css = some s := by
  rw [sheet_eq]
  unfold Css.parse parseWith Css.sheet
  constructor
  · intro h
    rcases hl : many0Loop (scope (css.length + 1)) ((spRest css).length + 1) (spRest css) with e | ⟨r, l⟩ <;> rw [hl] at h
    · cases h
    · cases h
      have := loop_ok.1 hl
      have h2 : trimmed (map (many0 (scope (css.length + 1))) List.flatten) css = some (spRest r, l.flatten) :=
        trimmed_some.2 ⟨r, map_some.2 ⟨l, this, rfl⟩, rfl⟩
      rw [h2]; rfl
  · intro h
    obtain ⟨⟨r, s'⟩, h1, h2⟩ := Option.map_eq_some_iff.1 h
    cases h2
    obtain ⟨r', h3, -⟩ := trimmed_some.1 h1
    obtain ⟨l, h4, h5⟩ := map_some.1 h3
    subst h5
    rw [loop_ok.2 h4]

/-- Nothing can be read here. -/
structure Here (r : Str) : Prop where
  ne : r ≠ []
  sp : spRest r = r
  item : ∀ n, r.length ≤ n → LayoutP.item n r = none

theorem item_budget {n m : Nat} {i : Str} (hn : i.length ≤ n) (hm : i.length ≤ m) : LayoutP.item n i = LayoutP.item m i := by
  refine scopeItemWith_congr i hn hm ?_
  intro k hk
  exact scopeContents_budget n m k (by omega) (by omega)

theorem scope_here {n : Nat} {e r : Str} {a : List ScopeContent} (hn : e.length ≤ n) (hsp : spRest e = e)
    (h : scope (n + 1) e = some (r, a)) (hl : r.length = e.length) : Here e := by
  obtain ⟨r1, h1, h2⟩ := trimmed_some.1 h
  rw [hsp] at h1
  obtain ⟨hne, h1⟩ := nonEmpty_some.1 h1
  obtain ⟨r2, h3, h4⟩ := trimmed_some.1 h1
  rw [hsp] at h3
  obtain ⟨-, h3⟩ := nonEmpty_some.1 h3
  refine ⟨hne, hsp, fun m hm => ?_⟩
  rw [item_budget hm hn]
  rcases hi : LayoutP.item n e with _ | ⟨r3, x⟩
  · rfl
  exfalso
  have hlt := prog_item n _ _ _ hi
  rw [show scopeItemWith n (scopeContents n) = LayoutP.item n from rfl, many0_step (suff_item n) (prog_item n) hi] at h3
  rcases h5 : many0 (LayoutP.item n) r3 with _ | ⟨r4, as⟩ <;> rw [h5] at h3
  · cases h3
  · simp only [Option.some.injEq, Prod.mk.injEq] at h3
    obtain ⟨rfl, -⟩ := h3
    have l1 := (suff_many0 (suff_item n)).le h5
    have l2 := spRest_le r4
    have l3 := spRest_le r1
    rw [← h4] at l2
    rw [← h2] at l3
    omega

theorem sheet_error {css : Str} {es : List (Str × Kind)} (h : sheet css = .error es) :
    ∃ r, es = errorsAt css r ∧ r <:+ css ∧ Here r := by
  rw [sheet_eq] at h
  rcases hl : many0Loop (scope (css.length + 1)) ((spRest css).length + 1) (spRest css) with e | ⟨r, l⟩ <;> rw [hl] at h
  · cases h
    obtain ⟨h1, ⟨r, a, h2, h3⟩, h4⟩ := loop_error (suff_scope _) (by omega) hl
    have hs := h1.trans (spRest_suffix css)
    refine ⟨e, rfl, hs, scope_here hs.length_le ?_ h2 h3⟩
    rcases h4 with h4 | ⟨j, a, h4⟩
    · rw [h4, spRest_idem]
    · obtain ⟨r', -, h5⟩ := trimmed_some.1 h4
      rw [h5, spRest_idem]
  · cases h

/-- What is read up to a place where nothing can be read. -/
theorem sheet_stuck {css e : Str} {s : Sheet} (hne : e ≠ []) (he : spRest e = e) (hi : LayoutP.item css.length e = none)
    (h : many0 (LayoutP.item css.length) (spRest css) = some (e, s)) : sheet css = .error (errorsAt css e) := by
  have stuck : scope (css.length + 1) e = some (e, []) := by
    refine trimmed_some.2 ⟨e, ?_, he.symm⟩
    rw [he]
    refine nonEmpty_some.2 ⟨hne, trimmed_some.2 ⟨e, ?_, he.symm⟩⟩
    rw [he]
    exact nonEmpty_some.2 ⟨hne, many0_stop (suff_item _) hi⟩
  have hcss : spRest css ≠ [] := by
    intro h0
    rw [h0, many0_stop (suff_item _) (prog_nil (prog_item _))] at h
    simp only [Option.some.injEq, Prod.mk.injEq] at h
    exact hne h.1.symm
  have first : scope (css.length + 1) (spRest css) = some (e, s) := by
    refine trimmed_some.2 ⟨e, ?_, he.symm⟩
    rw [spRest_idem]
    refine nonEmpty_some.2 ⟨hcss, trimmed_some.2 ⟨e, ?_, he.symm⟩⟩
    rw [spRest_idem]
    exact nonEmpty_some.2 ⟨hcss, h⟩
  have again : ∀ n, many0Loop (scope (css.length + 1)) (n + 1) e = .error e := by
    intro n
    unfold many0Loop
    rw [stuck]
    simp
  rw [sheet_eq]
  have : many0Loop (scope (css.length + 1)) ((spRest css).length + 1) (spRest css) = .error e := by
    unfold many0Loop
    rw [first]
    simp only
    have hle := (suff_scope _).le first
    split
    · rename_i hl
      have := (suff_scope _ _ _ _ first).eq_of_length hl
      rw [this]
    · rename_i hl
      obtain ⟨k, hk⟩ : ∃ k, (spRest css).length = k + 1 := ⟨(spRest css).length - 1, by omega⟩
      rw [hk, again]
  rw [this]

theorem here_report {r : Str} (h : Here r) : sheet r = .error (errorsAt r r) := by
  refine sheet_stuck h.ne h.sp (h.item _ (Nat.le_refl _)) (s := []) ?_
  rw [h.sp]
  exact many0_stop (suff_item _) (h.item _ (Nat.le_refl _))

theorem sheet_broken {u e : Str} {s : Sheet} (hu : Layout u s) (h : Broken e ∨ ∃ r, e = '}' :: r) :
    sheet (u ++ e) = .error (errorsAt (u ++ e) (spRest e)) := by
  have key : Ends (u ++ e).length e ∧ spRest e ≠ [] := by
    rcases h with h | ⟨r, rfl⟩
    · exact ⟨(broken_stop h (u ++ e).length (by simp)).1, broken_sp h⟩
    · exact ⟨ends_brace _ r, by rw [spRest_brace]; simp⟩
  have hread := layout_read u.length u s (Nat.le_refl _) hu (u ++ e).length e (spRest (u ++ e)) (by simp) key.1 (spRest_idem _) (by
    intro h0
    subst h0
    exact spRest_blank (layout_nil hu) e)
  refine sheet_stuck key.2 (spRest_idem e) ?_ hread
  rw [show LayoutP.item (u ++ e).length (spRest e) = LayoutP.item (u ++ e).length e from item_sp (spRest_idem e)]
  exact key.1.1

/-! ## What stands in front of the place -/

theorem scope_follows (n : Nat) : GrammarP.Follows (scope n) SheetText := by
  intro i r x h
  obtain ⟨c, c', j, s, hc, hc', f, f', h3⟩ := GrammarP.trimmed_text h
  obtain ⟨-, h4⟩ := nonEmpty_some.1 h3
  obtain ⟨t, e4, ht⟩ := GrammarP.scopeContents_follows n _ _ _ h4
  exact ⟨c ++ (t ++ c'), by rw [f, e4, f']; simp, .blank c _ x hc (GrammarP.sheet_suffix hc' ht)⟩

theorem loop_front {p : Parser (List ScopeContent)} (hp : GrammarP.Follows p SheetText) : ∀ {n : Nat} {i e : Str},
    many0Loop p n i = .error e → ∃ t s, i = t ++ e ∧ SheetText t s
  | 0, i, e, h => by cases h; exact ⟨[], [], rfl, .nil⟩
  | n + 1, i, e, h => by
    unfold many0Loop at h
    rcases hpi : p i with _ | ⟨r, a⟩ <;> rw [hpi] at h
    · cases h
    · simp only at h
      split at h
      · cases h
        exact ⟨[], [], rfl, .nil⟩
      · rcases hr : many0Loop p n r with e' | y <;> rw [hr] at h
        · cases h
          obtain ⟨t, s, h1, h2⟩ := loop_front hp hr
          obtain ⟨t', h3, h4⟩ := hp _ _ _ hpi
          exact ⟨t' ++ t, a ++ s, by rw [h3, h1, List.append_assoc], GrammarP.sheet_append h4 h2⟩
        · cases h

theorem sheet_front {css r : Str} (h : sheet css = .error (errorsAt css r)) : ∃ t s, css = t ++ r ∧ SheetText t s := by
  rw [sheet_eq] at h
  rcases hl : many0Loop (scope (css.length + 1)) ((spRest css).length + 1) (spRest css) with e | ⟨r, l⟩ <;> rw [hl] at h
  · simp only [errorsAt, Except.error.injEq, List.cons.injEq, Prod.mk.injEq, and_true] at h
    subst h
    obtain ⟨t, s, h1, h2⟩ := loop_front (scope_follows _) hl
    obtain ⟨b, hb, e1⟩ := GrammarP.spRest_text css
    exact ⟨b ++ t, s, by rw [List.append_assoc, ← h1]; exact e1, .blank b t s hb h2⟩
  · cases h

theorem noBlank_sp {r : Str} (h : spRest r = r) : NoBlank r := by
  intro w t hr hw
  have h1 := spRest_blank hw t
  rw [← hr, h] at h1
  have h2 := spRest_le t
  rw [← h1, hr] at h2
  simp only [List.length_append] at h2
  exact List.length_eq_zero_iff.1 (by omega)

/-! ## No block and no at-rule stands at the place -/

theorem item_reads {v : Str} {x : ScopeContent} (h : Layout v [x]) (hx : ∀ content, x ≠ .block [] content) (t : Str) {n : Nat}
    (hn : v.length ≤ n) : LayoutP.item n (v ++ t) ≠ none := by
  rw [Option.ne_none_iff_exists']
  generalize hl : [x] = l at h
  cases h with
  | nil w hw => cases hl
  | decls ds u rest hne hok hlike hu =>
    cases hl
    exact absurd rfl (hx _)
  | block l body u content rest hne hok hbody hu =>
    have hlen : body.length + u.length + 2 ≤ (selsText l ++ c! "{" ++ body ++ c! "}" ++ u).length := by
      simp; omega
    let B := body ++ '}' :: (u ++ t)
    have hsrc : ∀ x ∈ l, SrcI x := fun x hx => srcI_of_ok (hok x hx)
    generalize hi : selsText l ++ c! "{" ++ body ++ c! "}" ++ u ++ t = i
    have ei : spRest i = spRest (selsText l ++ '{' :: B) := by rw [← hi]; simp [B]
    have hH : H B (spRest i) := by rw [ei]; exact H.sp ⟨_, selsText_hi l hsrc, rfl⟩
    have hne' : spRest i ≠ [] := by
      obtain ⟨c, t, e, -⟩ := hH.head
      rw [e]; simp
    refine ⟨(spRest (u ++ t), .block (l.map (fun s => [Str.trim s.sel])) content),
      alt_some.2 (Or.inr ⟨?_, alt_some.2 (Or.inl ?_)⟩)⟩
    · refine trimmed_none.2 ?_
      rw [nonEmpty_cons _ hne', map_none]
      exact attributes_header hH
    · have hcond := condition_srcs hne hsrc B (spRest i) (by rw [spRest_idem, ei])
      refine trimmed_some.2 ⟨u ++ t, nonEmpty_some.2 ⟨hne', map_some.2 ⟨(_, content), pair_some.2
        ⟨'{' :: B, hcond, ?_⟩, rfl⟩⟩, rfl⟩
      refine delimited_some.2 ⟨B, c! "{", '}' :: (u ++ t), c! "}", tag_append (c! "{") _, ?_,
        tag_append (c! "}") _⟩
      obtain ⟨ps, e1, e2⟩ := body_read body.length body content (Nat.le_refl _) hbody n (u ++ t)
        (spRest (spRest B)) (by omega) (by simp only [spRest_idem]; rfl) (by
          intro hc
          subst hc
          rw [spRest_idem]
          show spRest (body ++ _) = _
          rw [spRest_blank (body_nil hbody), spRest_brace])
      refine trimmed_some.2 ⟨'}' :: (u ++ t), trimmed_some.2 ⟨'}' :: (u ++ t), nonEmpty_some.2
        ⟨?_, map_some.2 ⟨ps, e1, e2⟩⟩, (spRest_brace _).symm⟩, (spRest_brace _).symm⟩
      intro h1
      rw [h1, many0_stop (suff_piece n) (prog_nil (prog_piece n))] at e1
      simp at e1
  | rule a body u content rest ha hbody hu =>
    have hlen : body.length + u.length + 2 ≤ (a.text ++ c! "{" ++ body ++ c! "}" ++ u).length := by
      simp; omega
    let B := body ++ '}' :: (u ++ t)
    obtain ⟨hsp, m, hm⟩ := at_sp conditional_at ha ('{' :: B)
    generalize hi : a.text ++ c! "{" ++ body ++ c! "}" ++ u ++ t = i
    have ei : spRest i = a.name ++ ' ' :: (a.cond ++ '{' :: B) := by rw [← hi, ← hsp]; simp [B]
    obtain ⟨k, rfl⟩ : ∃ k, n = k + 1 := ⟨n - 1, by omega⟩
    rw [show LayoutP.item (k + 1) i = LayoutP.item (k + 1) (spRest i) from item_sp (by rw [spRest_idem]), ei]
    refine ⟨(spRest (u ++ t), .rule a.value (content.map ScopeContent.toRBC)), ?_⟩
    refine alt_some.2 (Or.inr ⟨by rw [hm]; exact dangling_at _, alt_some.2 (Or.inr
      ⟨by rw [hm]; exact block_at _ _, alt_some.2 (Or.inl ?_)⟩)⟩)
    have hsp2 : spRest (a.name ++ ' ' :: (a.cond ++ '{' :: B)) = a.name ++ ' ' :: (a.cond ++ '{' :: B) := by
      rw [hm, List.cons_append, spRest_at]
    refine trimmed_some.2 ⟨u ++ t, ?_, rfl⟩
    rw [hsp2]
    refine nonEmpty_some.2 ⟨by rw [hm]; simp, map_some.2 ⟨(a.value, content), separatedPair_some.2
      ⟨'{' :: B, B, c! "{", atCondition_read a.name (conditional_supports ha.2.1 _) ⟨m, hm⟩ ha.2.2.1
        ha.2.2.2.1 ha.2.2.2.2, tag_append (c! "{") _, terminated_some.2
          ⟨'}' :: (u ++ t), c! "}", ?_, tag_append (c! "}") _⟩⟩, rfl⟩⟩
    have hm0 := layout_read body.length body content (Nat.le_refl _) hbody k ('}' :: (u ++ t))
      (spRest B) (by omega) (ends_brace k _) (by rw [spRest_idem]) (by
        intro h1
        subst h1
        show spRest (body ++ _) = _
        rw [spRest_blank (layout_nil hbody)])
    rw [spRest_brace] at hm0
    refine trimmed_some.2 ⟨'}' :: (u ++ t), nonEmpty_some.2 ⟨?_, hm0⟩, (spRest_brace _).symm⟩
    intro h1
    rw [h1, many0_stop (suff_item k) (prog_nil (prog_item k))] at hm0
    simp at hm0
  | keyframes a body u frames rest ha hbody hc hu =>
    have hlen : body.length + u.length + 2 ≤ (a.text ++ c! "{" ++ body ++ c! "}" ++ u).length := by
      simp; omega
    let B := body ++ '}' :: (u ++ t)
    obtain ⟨hsp, m, hm⟩ := at_sp keyframes_at ha ('{' :: B)
    have hname : a.name = c! "@keyframes" := by simpa using ha.2.1
    generalize hi : a.text ++ c! "{" ++ body ++ c! "}" ++ u ++ t = i
    have ei : spRest i = a.name ++ ' ' :: (a.cond ++ '{' :: B) := by rw [← hi, ← hsp]; simp [B]
    rw [show LayoutP.item n i = LayoutP.item n (spRest i) from item_sp (by rw [spRest_idem]), ei]
    refine ⟨(spRest (u ++ t), .rule a.value frames), ?_⟩
    refine alt_some.2 (Or.inr ⟨by rw [hm]; exact dangling_at _, alt_some.2 (Or.inr
      ⟨by rw [hm]; exact block_at _ _, alt_some.2 (Or.inr ⟨by rw [hname]; exact not_conditional _ _, ?_⟩)⟩)⟩)
    have hsp2 : spRest (a.name ++ ' ' :: (a.cond ++ '{' :: B)) = a.name ++ ' ' :: (a.cond ++ '{' :: B) := by
      rw [hm, List.cons_append, spRest_at]
    obtain ⟨rs, e1, e2⟩ := frames_read hbody n (u ++ t) B (by omega) rfl (by
      intro h1
      rcases hc with h | h
      · simp [B, h]
      · exact absurd h1 h)
    refine map_some.2 ⟨(a.value, rs), trimmed_some.2 ⟨u ++ t, ?_, rfl⟩, by rw [← e2]⟩
    rw [hsp2]
    exact separatedPair_some.2 ⟨'{' :: B, B, c! "{", atCondition_read a.name
      (by rw [hname]; exact alt_some.2 (Or.inl (tag_append (c! "@keyframes") _))) ⟨m, hm⟩ ha.2.2.1
      ha.2.2.2.1 ha.2.2.2.2, tag_append (c! "{") _, terminated_some.2
        ⟨'}' :: (u ++ t), c! "}", e1, tag_append (c! "}") _⟩⟩

theorem Here.noItem {r : Str} (h : Here r) : NoItem r := by
  intro v t x hr hv
  refine Classical.byContradiction fun hx => ?_
  refine item_reads hv (fun c hc => hx ⟨c, hc⟩) t (n := r.length) (by rw [hr]; simp) ?_
  rw [← hr]
  exact h.item _ (Nat.le_refl _)

/-! ## The text -/

theorem lastLine (x : Str) : ∃ lines front, x = lines ++ front ∧ LineOf lines front := by
  induction x with
  | nil => exact ⟨[], [], rfl, by simp, .inl rfl⟩
  | cons c x ih =>
    obtain ⟨lines, front, e, h1, h2⟩ := ih
    rcases h2 with h2 | ⟨l, h2⟩
    · subst h2
      by_cases hc : c = '\n'
      · exact ⟨[c], front, by rw [e]; rfl, h1, .inr ⟨[], by rw [hc]; rfl⟩⟩
      · refine ⟨[], c :: front, by rw [e]; rfl, ?_, .inl rfl⟩
        simp only [List.mem_cons, not_or]
        exact ⟨fun h => hc h.symm, h1⟩
    · exact ⟨c :: lines, front, by rw [e]; rfl, h1, .inr ⟨c :: l, by rw [h2]; rfl⟩⟩

theorem takeWhile_no {s t : Str} (h : '\n' ∉ s) : (s ++ t).takeWhile (· != '\n') = s ++ t.takeWhile (· != '\n') := by
  induction s with
  | nil => rfl
  | cons c s ih =>
    simp only [List.mem_cons, not_or] at h
    have : (c != '\n') = true := by simpa using fun hc => h.1 hc.symm
    simp only [List.cons_append, List.takeWhile_cons, this, if_true]
    rw [ih h.2]

theorem entry_eq {lines front r : Str} (h : LineOf lines front) (idx : Nat) (kind : Kind) :
    entry (lines ++ front ++ r) idx r kind = caretEntry idx (lines.count '\n' + 1) kind.text front r := by
  have e1 : (lines ++ front ++ r).take ((lines ++ front ++ r).length - r.length) = lines ++ front := by
    rw [show (lines ++ front ++ r).length - r.length = (lines ++ front).length by
      simp only [List.length_append]; omega, List.take_left]
  have hin : ((lines ++ front).reverse.takeWhile (· != '\n')).reverse = front := by
    rw [List.reverse_append, takeWhile_no (by simpa using h.same)]
    rcases h.whole with h2 | ⟨l, h2⟩
    · rw [h2]; simp
    · rw [h2]; simp
  have hb : (lines ++ front).length - front.length = lines.length := by simp
  have hc : (lines ++ front).count '\n' = lines.count '\n' := by
    rw [List.count_append, List.count_eq_zero.2 h.same]; rfl
  unfold entry caretEntry
  simp only [e1, hin, hb, hc]
  rw [List.append_assoc lines, List.drop_left, takeWhile_no h.same]
  rfl

theorem entry_whole (css : Str) (idx : Nat) (kind : Kind) : entry css idx css kind = caretEntry idx 1 kind.text [] css :=
  entry_eq (lines := []) (front := []) ⟨by simp, .inl rfl⟩ idx kind

end Report
