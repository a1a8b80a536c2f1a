import Verif.Proofs.Decls
import Verif.Spec.Clean

/-! # Reading headers: selectors and at-rule conditions -/

namespace HeadersP
open Nom NomP Css ParserP LexP ShapeP DeclsP Spec

/-! ## Selector texts as a grammar -/

inductive SelI : Str → Prop
  | nil : SelI []
  | char (c : Char) (s : Str) : c ≠ '"' → c ∉ (c! "$,{};@/") → SelI s → SelI (c :: s)
  | str (body s : Str) : StrBody body → SelI s → SelI ('"' :: body ++ '"' :: s)

theorem inStr_cases (bad : Str) : ∀ (n : Nat) (s : Str), s.length ≤ n →
    lexRun bad .inStr s = some .out →
    ∃ body t, s = body ++ '"' :: t ∧ StrBody body ∧ lexRun bad .out t = some .out
  | _, [], _, h => by simp [lexRun] at h
  | n + 1, c :: s, hn, h => by
    simp only [lexRun] at h
    by_cases hc : c = '"'
    · rw [if_pos hc] at h
      exact ⟨[], s, by rw [hc]; rfl, .nil, h⟩
    · rw [if_neg hc] at h
      by_cases hb : c = '\\'
      · rw [if_pos hb] at h
        cases s with
        | nil => simp [lexRun] at h
        | cons d s =>
          simp only [lexRun] at h
          obtain ⟨body, t, e, h1, h2⟩ := inStr_cases bad n s (by simp at hn; omega) h
          exact ⟨'\\' :: d :: body, t, by rw [hb, e]; rfl, .esc d body h1, h2⟩
      · rw [if_neg hb] at h
        obtain ⟨body, t, e, h1, h2⟩ := inStr_cases bad n s (by simp at hn; omega) h
        exact ⟨c :: body, t, by rw [e]; rfl, .char c body hb hc h1, h2⟩

theorem selI_of_selText {s : Str} (h : SelText s) : SelI s := by
  unfold SelText at h
  generalize hn : s.length = n
  induction n using Nat.strongRecOn generalizing s with
  | ind n ih =>
    cases s with
    | nil => exact .nil
    | cons c s =>
      simp only [lexRun] at h
      by_cases hc : c = '"'
      · rw [if_pos hc] at h
        obtain ⟨body, t, e, h1, h2⟩ := inStr_cases _ _ s (Nat.le_refl _) h
        have : SelI t := ih t.length (by rw [← hn, e]; simp; omega) h2 rfl
        rw [hc, e]
        exact .str body t h1 this
      · rw [if_neg hc] at h
        split at h
        · cases h
        · rename_i hb
          exact .char c s hc hb (ih s.length (by rw [← hn]; simp) h rfl)

theorem lexRun_append (bad : Str) (s t : Str) : ∀ q, lexRun bad q (s ++ t) = (lexRun bad q s).bind
    (fun q' => lexRun bad q' t) := by
  induction s with
  | nil => intro q; cases q <;> simp [lexRun]
  | cons c s ih =>
    intro q
    cases q
    · simp only [List.cons_append, lexRun]
      split
      · exact ih _
      · split
        · rfl
        · exact ih _
    · simp only [List.cons_append, lexRun]
      split
      · exact ih _
      · split
        · exact ih _
        · exact ih _
    · simp only [List.cons_append, lexRun]
      exact ih _

theorem SelText.append {s t : Str} (hs : SelText s) (ht : SelText t) : SelText (s ++ t) := by
  unfold SelText at *
  rw [lexRun_append, hs]
  exact ht

theorem selText_ws {w : Str} (h : ∀ c ∈ w, c ∈ (c! " \t\r\n")) : SelText w := by
  unfold SelText
  induction w with
  | nil => rfl
  | cons c w ih =>
    have hc := h c (by simp)
    have h1 : c ≠ '"' := by rintro rfl; revert hc; decide
    have h2 : c ∉ (c! "$,{};@/") := by
      simp only [List.mem_cons, List.not_mem_nil, or_false] at hc
      rcases hc with rfl | rfl | rfl | rfl <;> decide
    rw [lexRun, if_neg h1, if_neg h2]
    exact ih (fun d hd => h d (by simp [hd]))

theorem elem_false {c : Char} {l : Str} (h : c ∉ l) : (!l.elem c) = true := by
  simp [h]

/-! ## One selector -/

/-- Texts that end a selector. -/
def StopsSel (r : Str) : Prop := ∃ t, r = ',' :: t ∨ r = '{' :: t

theorem stopsSel_sp {r : Str} (h : StopsSel r) : spRest r = r := by
  obtain ⟨t, rfl | rfl⟩ := h
  · exact spRest_nonblank (by simp) (by simp) t
  · exact spRest_nonblank (by simp) (by simp) t

theorem selectorPiece_fail {c : Char} (h : c ∈ (c! "$,}@{")) (h' : c ≠ '$') (i : Str) :
    selectorPiece (c :: i) = none := by
  have hsp : spRest (c :: i) = c :: i := by
    refine spRest_nonblank ?_ ?_ i
    · intro h2
      simp only [List.mem_cons, List.not_mem_nil, or_false] at h h2
      rcases h with rfl | rfl | rfl | rfl | rfl <;> revert h2 <;> decide
    · rintro rfl; revert h; decide
  refine alt_none.2 ⟨recognize_none.2 ?_, alt_none.2 ⟨string_fail ?_,
    recognize_none.2 (interpolation_fail ?_)⟩⟩
  · cases hx : preceded _ _ (c :: i) with
    | none => rfl
    | some x =>
      obtain ⟨_, _, h1, -⟩ := preceded_some.1 (show _ = some (x.1, x.2) from hx)
      obtain ⟨h2, h3⟩ := noneOf_some.1 h1
      simp only [List.cons.injEq] at h2
      rw [← h2.1] at h3
      exfalso
      apply h3
      simp only [List.mem_cons, List.not_mem_nil, or_false] at h ⊢
      grind
  · rw [hsp]
    intro d hd
    simp only [List.head?_cons, Option.mem_def, Option.some.injEq] at hd
    subst hd
    rintro rfl
    revert h; decide
  · rw [hsp]
    intro d hd
    simp only [List.head?_cons, Option.mem_def, Option.some.injEq] at hd
    subst hd
    exact h'

theorem selectorPiece_nil : selectorPiece [] = none := prog_nil prog_selectorPiece

/-- `selectorPiece` on a plain character reads to the next quote, comma or brace. -/
theorem selectorPiece_char {c : Char} (h : c ∉ (c! "$,}@{\"")) (i : Str) :
    ∃ a, selectorPiece (c :: i) = some (i.dropWhile (fun c => !(c! "$,\"{").elem c), a) := by
  have : ∃ b, preceded (noneOf (c! "$,}@{\"")) (opt (isNot (c! "$,\"{"))) (c :: i) =
      some (i.dropWhile (fun c => !(c! "$,\"{").elem c), b) := by
    cases ho : isNot (c! "$,\"{") i with
    | none =>
      refine ⟨none, preceded_some.2 ⟨i, c, noneOf_some.2 ⟨rfl, h⟩, opt_some.2 (Or.inl ⟨ho, ?_, rfl⟩)⟩⟩
      have := takeWhile1_none.1 ho
      have e := List.takeWhile_append_dropWhile (p := fun c => !(c! "$,\"{").elem c) (l := i)
      rw [this] at e
      simpa using e
    | some x =>
      have hx : isNot (c! "$,\"{") i = some (x.1, x.2) := ho
      have := (takeWhile1_some.1 hx).2.1
      exact ⟨some x.2, preceded_some.2 ⟨i, c, noneOf_some.2 ⟨rfl, h⟩, opt_some.2
        (Or.inr ⟨x.2, by rw [← this]; exact hx, rfl⟩)⟩⟩
  obtain ⟨b, hb⟩ := this
  exact ⟨_, alt_some.2 (Or.inl (recognize_some.2 ⟨b, hb, rfl⟩))⟩

theorem sel_start {s : Str} (hs : SelI s) (r : Str) (hr : StopsSel r) :
    rest0 selectorPiece (s ++ r) = r ∧ rest0 selectorPiece (spRest (s ++ r)) = r ∧
    rest0 selectorPiece ((s ++ r).dropWhile (fun c => !(c! "$,\"{").elem c)) = r ∧
    (s ≠ [] → ∃ x, selectorPiece (s ++ r) = some x) := by
  induction hs with
  | nil =>
    have h0 : rest0 selectorPiece r = r := by
      refine rest0_stop suff_selectorPiece ?_
      obtain ⟨t, rfl | rfl⟩ := hr
      · exact selectorPiece_fail (by simp) (by simp) t
      · exact selectorPiece_fail (by simp) (by simp) t
    refine ⟨h0, ?_, ?_, fun h => absurd rfl h⟩
    · rw [List.nil_append, stopsSel_sp hr]; exact h0
    · obtain ⟨t, rfl | rfl⟩ := hr <;> exact h0
  | char c s hq hc _ ih =>
    obtain ⟨ih1, ih2, ih3, -⟩ := ih
    have hc1 : c ∉ (c! "$,}@{\"") := by
      simp only [List.mem_cons, List.not_mem_nil, or_false] at hc ⊢; grind
    have hf : (!(c! "$,\"{").elem c) = true := by
      refine elem_false ?_
      simp only [List.mem_cons, List.not_mem_nil, or_false] at hc ⊢
      grind
    obtain ⟨a, ha⟩ := selectorPiece_char hc1 (s ++ r)
    have h1 : rest0 selectorPiece (c :: (s ++ r)) = r :=
      (rest0_step suff_selectorPiece prog_selectorPiece ha).trans ih3
    refine ⟨h1, ?_, ?_, fun _ => ⟨_, ha⟩⟩
    · by_cases hw : c ∈ (c! " \t\r\n")
      · rw [List.cons_append, spRest_ws (by simpa using hw)]; exact ih2
      · rw [List.cons_append, spRest_nonblank hw (by rintro rfl; simp at hc)]; exact h1
    · rw [List.cons_append, List.dropWhile_cons, if_pos hf]; exact ih3
  | str body s hb _ ih =>
    obtain ⟨ih1, ih2, ih3, -⟩ := ih
    obtain ⟨t, ht⟩ := string_read hb (s ++ r)
    have e : '"' :: body ++ '"' :: s ++ r = '"' :: body ++ '"' :: (s ++ r) := by simp
    have hsp : spRest ('"' :: body ++ '"' :: (s ++ r)) = '"' :: body ++ '"' :: (s ++ r) := by
      rw [List.cons_append]
      exact spRest_nonblank (by simp) (by simp) _
    have hp : selectorPiece ('"' :: body ++ '"' :: (s ++ r)) = some (spRest (s ++ r), t) := by
      refine alt_some.2 (Or.inr ⟨recognize_none.2 ?_, alt_some.2 (Or.inl ht)⟩)
      cases hx : preceded _ _ ('"' :: body ++ '"' :: (s ++ r)) with
      | none => rfl
      | some x =>
        obtain ⟨_, _, h1, -⟩ := preceded_some.1 (show _ = some (x.1, x.2) from hx)
        obtain ⟨h2, h3⟩ := noneOf_some.1 h1
        simp only [List.cons_append, List.cons.injEq] at h2
        rw [← h2.1] at h3
        simp at h3
    rw [e, hsp]
    have h1 := (rest0_step suff_selectorPiece prog_selectorPiece hp).trans ih2
    exact ⟨h1, h1, by simpa using h1, fun _ => ⟨_, hp⟩⟩

theorem selI_lead {s : Str} (hs : SelI s) (hn : NonBlank s) (r : Str) :
    ∃ w s', s = w ++ s' ∧ (∀ c ∈ w, c ∈ (c! " \t\r\n")) ∧ s' ≠ [] ∧ SelI s' ∧
      spRest (s ++ r) = s' ++ r := by
  induction hs with
  | nil => obtain ⟨c, hc, -⟩ := hn; simp at hc
  | char c s hq hc hs ih =>
    by_cases hw : c ∈ (c! " \t\r\n")
    · have : NonBlank s := by
        obtain ⟨d, hd, hd2⟩ := hn
        rcases List.mem_cons.1 hd with rfl | hd
        · exact absurd hw hd2
        · exact ⟨d, hd, hd2⟩
      obtain ⟨w, s', e, h1, h2, h3, h4⟩ := ih this
      refine ⟨c :: w, s', by rw [e]; rfl, ?_, h2, h3, ?_⟩
      · intro d hd
        rcases List.mem_cons.1 hd with rfl | hd
        · exact hw
        · exact h1 d hd
      · rw [List.cons_append, spRest_ws (by simpa using hw), h4]
    · exact ⟨[], c :: s, rfl, by simp, by simp, .char c s hq hc hs,
        spRest_nonblank hw (by rintro rfl; simp at hc) _⟩
  | str body s hb hs _ =>
    exact ⟨[], _, rfl, by simp, by simp, .str body s hb hs, spRest_nonblank (by simp) (by simp) _⟩

theorem selector_read {s r : Str} (hs : SelI s) (hn : NonBlank s) (hr : StopsSel r) :
    selector (s ++ r) = some (r, [Str.trim s]) := by
  obtain ⟨w, s', e, h1, h2, h3, h4⟩ := selI_lead hs hn r
  obtain ⟨h5, -, -, h6⟩ := sel_start h3 r hr
  obtain ⟨x, hx⟩ := h6 h2
  refine trimmed_some.2 ⟨r, ?_, (stopsSel_sp hr).symm⟩
  rw [h4]
  obtain ⟨as, has⟩ := many1_rest0 suff_selectorPiece prog_selectorPiece hx
  rw [h5] at has
  refine nonEmpty_some.2 ⟨by simp [h2], map_some.2 ⟨s', recognize_append has, ?_⟩⟩
  rw [e, Text.trim_ws_append _ (fun c hc => ascii_ws (h1 c hc))]

theorem selector_fail {c : Char} (h : c ∈ (c! "$,}@{")) (h' : c ≠ '$') (i : Str) :
    selector (c :: i) = none := by
  have hsp : spRest (c :: i) = c :: i := by
    refine spRest_nonblank ?_ ?_ i
    · intro h2
      simp only [List.mem_cons, List.not_mem_nil, or_false] at h h2
      rcases h with rfl | rfl | rfl | rfl | rfl <;> revert h2 <;> decide
    · rintro rfl; revert h; decide
  refine trimmed_none.2 ?_
  rw [hsp, nonEmpty_cons _ (by simp), map_none, recognize_none]
  exact (many1_none suff_selectorPiece prog_selectorPiece).2 (selectorPiece_fail h h' i)

/-! ## Lists of selectors -/

/-- The parser of a selector and the comma after it. -/
abbrev condPiece : Parser Selector := terminated selector (opt (tag (c! ",")))

theorem condPiece_fail {c : Char} (h : c ∈ (c! "$,}@{")) (h' : c ≠ '$') (i : Str) :
    condPiece (c :: i) = none := by
  cases hx : condPiece (c :: i) with
  | none => rfl
  | some x =>
    obtain ⟨_, _, h1, -⟩ := terminated_some.1 (show _ = some (x.1, x.2) from hx)
    rw [selector_fail h h'] at h1
    cases h1

theorem condPiece_comma {s r : Str} (hs : SelI s) (hn : NonBlank s) :
    condPiece (s ++ ',' :: r) = some (r, [Str.trim s]) := by
  refine terminated_some.2 ⟨',' :: r, some (c! ","), selector_read hs hn ⟨r, Or.inl rfl⟩,
    opt_some.2 (Or.inr ⟨_, tag_append (c! ",") r, rfl⟩)⟩

theorem condPiece_brace {s r : Str} (hs : SelI s) (hn : NonBlank s) :
    condPiece (s ++ '{' :: r) = some ('{' :: r, [Str.trim s]) := by
  refine terminated_some.2 ⟨'{' :: r, none, selector_read hs hn ⟨r, Or.inr rfl⟩,
    opt_some.2 (Or.inl ⟨tag_fail (by decide) r, rfl, rfl⟩)⟩

theorem many0_condPiece {ps : List Str} (hne : ps ≠ []) (h : ∀ p ∈ ps, SelI p ∧ NonBlank p) (r : Str) :
    many0 condPiece (Str.join (c! ",") ps ++ '{' :: r) =
      some ('{' :: r, ps.map (fun p => [Str.trim p])) := by
  induction ps with
  | nil => exact absurd rfl hne
  | cons p ps ih =>
    have hp := h p (by simp)
    cases ps with
    | nil =>
      show many0 condPiece (p ++ '{' :: r) = _
      rw [many0_step suff_conditionPiece prog_conditionPiece (condPiece_brace hp.1 hp.2),
        many0_stop suff_conditionPiece (condPiece_fail (by simp) (by simp) r)]
      rfl
    | cons q ps =>
      have e : Str.join (c! ",") (p :: q :: ps) ++ '{' :: r =
          p ++ ',' :: (Str.join (c! ",") (q :: ps) ++ '{' :: r) := by simp [Str.join]
      rw [e, many0_step suff_conditionPiece prog_conditionPiece (condPiece_comma hp.1 hp.2)]
      have := ih (by simp) (fun x hx => h x (by simp [hx]))
      unfold condPiece at this
      rw [this]
      rfl

theorem condition_read {ps : List Str} (hne : ps ≠ []) (h : ∀ p ∈ ps, SelI p ∧ NonBlank p) (r : Str) :
    condition (Str.join (c! ",") ps ++ '{' :: r) =
      some ('{' :: r, ps.map (fun p => [Str.trim p])) := by
  -- drop the leading blanks of the first piece
  cases ps with
  | nil => exact absurd rfl hne
  | cons p ps =>
    have hp := h p (by simp)
    have tail : ∃ u, Str.join (c! ",") (p :: ps) ++ '{' :: r = p ++ u ∧
        ∀ p', Str.join (c! ",") (p' :: ps) ++ '{' :: r = p' ++ u := by
      cases ps with
      | nil => exact ⟨'{' :: r, rfl, fun _ => rfl⟩
      | cons q ps => exact ⟨',' :: (Str.join (c! ",") (q :: ps) ++ '{' :: r), by simp [Str.join],
          fun p' => by simp [Str.join]⟩
    obtain ⟨u, hu, hu'⟩ := tail
    obtain ⟨w, s', e, h1, h2, h3, h4⟩ := selI_lead hp.1 hp.2 u
    have hn' : NonBlank s' := by
      obtain ⟨c, hc, hc2⟩ := hp.2
      rw [e] at hc
      rcases List.mem_append.1 hc with hc | hc
      · exact absurd (h1 c hc) hc2
      · exact ⟨c, hc, hc2⟩
    have hm := many0_condPiece (ps := s' :: ps) (by simp) (by
      intro x hx
      rcases List.mem_cons.1 hx with rfl | hx
      · exact ⟨h3, hn'⟩
      · exact h x (by simp [hx])) r
    refine trimmed_some.2 ⟨'{' :: r, ?_, (spRest_nonblank (by simp) (by simp) r).symm⟩
    rw [hu, h4]
    refine nonEmpty_some.2 ⟨by simp [h2], ?_⟩
    rw [hu'] at hm
    have htrim : Str.trim s' = Str.trim p := by
      rw [e, Text.trim_ws_append _ (fun c hc => ascii_ws (h1 c hc))]
    rw [List.map_cons, htrim] at hm
    cases hx : condPiece (s' ++ u) with
    | none => 
      rw [many0_stop suff_conditionPiece hx] at hm
      simp only [Option.some.injEq, Prod.mk.injEq, reduceCtorEq, and_false] at hm
    | some x =>
      have hx' : condPiece (s' ++ u) = some (x.1, x.2) := hx
      rw [many0_step suff_conditionPiece prog_conditionPiece hx'] at hm
      cases hy : many0 condPiece x.1 with
      | none => unfold condPiece at hy; rw [hy] at hm; cases hm
      | some y =>
        unfold condPiece at hy
        rw [hy] at hm
        simp only [Option.some.injEq, Prod.mk.injEq, List.cons.injEq] at hm
        exact many1_some.2 ⟨x.1, x.2, y.2, hx', by rw [hy]; rw [← hm.1], by rw [hm.2.1, hm.2.2]; rfl⟩

theorem condition_fail {c : Char} (h : c ∈ (c! "$,}@{")) (h' : c ≠ '$') (i : Str) :
    condition (c :: i) = none := by
  have hsp : spRest (c :: i) = c :: i := by
    refine spRest_nonblank ?_ ?_ i
    · intro h2
      simp only [List.mem_cons, List.not_mem_nil, or_false] at h h2
      rcases h with rfl | rfl | rfl | rfl | rfl <;> revert h2 <;> decide
    · rintro rfl; revert h; decide
  refine trimmed_none.2 ?_
  rw [hsp, nonEmpty_cons _ (by simp)]
  exact (many1_none suff_conditionPiece prog_conditionPiece).2 (condPiece_fail h h' i)

/-! ## At-rule conditions -/

theorem atRuleCondition_read {t : Parser Str} {n x r : Str} (u : Str)
    (ht : t (n ++ ' ' :: (x ++ ' ' :: '{' :: r)) = some (' ' :: (x ++ ' ' :: '{' :: r), u))
    (hn : ∃ m, n = '@' :: m) (hx : Str.trim x = x) (h1 : '$' ∉ x) (h2 : '{' ∉ x) :
    atRuleCondition t (n ++ ' ' :: (x ++ ' ' :: '{' :: r)) = some ('{' :: r, [n ++ c! " ", x]) := by
  obtain ⟨m, rfl⟩ := hn
  refine trimmed_some.2 ⟨'{' :: r, ?_, (spRest_nonblank (by simp) (by simp) r).symm⟩
  rw [List.cons_append, spRest_nonblank (by simp) (by simp)]
  refine nonEmpty_some.2 ⟨by simp, map_some.2 ⟨('@' :: m ++ c! " ", x), ?_, rfl⟩⟩
  refine pair_some.2 ⟨x ++ ' ' :: '{' :: r, ?_, ?_⟩
  · have e : '@' :: (m ++ ' ' :: (x ++ ' ' :: '{' :: r)) =
        ('@' :: m ++ c! " ") ++ (x ++ ' ' :: '{' :: r) := by simp
    have := terminated_some.2 ⟨_, _, ht, tag_append (c! " ") (x ++ ' ' :: '{' :: r)⟩
    rw [List.cons_append, e] at this
    rw [e]
    exact recognize_append this
  · have key : ∀ y : Str, '$' ∉ y → '{' ∉ y → rest0 atRulePiece (y ++ '{' :: r) = '{' :: r := by
      intro y
      induction y with
      | nil =>
        intro _ _
        refine rest0_stop suff_atRulePiece (alt_none.2 ⟨isNot_fail (by simp) _,
          recognize_none.2 (interpolation_fail ?_)⟩)
        rw [List.nil_append, spRest_nonblank (by simp) (by simp)]
        simp
      | cons c y ih =>
        intro h1 h2
        simp only [List.mem_cons, not_or] at h1 h2
        refine Eq.trans (rest0_run suff_atRulePiece prog_atRulePiece (f := fun c => !(c! "${").elem c) ?_ ?_ _)
          (ih h1.2 h2.2)
        · intro d j hd
          obtain ⟨a, ha⟩ := takeWhile1_run (f := fun c => !(c! "${").elem c) hd j
          exact ⟨a, alt_some.2 (Or.inl ha)⟩
        · have := h1.1; have := h2.1
          refine elem_false ?_
          simp only [List.mem_cons, List.not_mem_nil, or_false]
          grind
    have hrest := key (x ++ c! " ") (by simp [h1]) (by simp [h2])
    have hfirst : ∃ z, atRulePiece (x ++ c! " " ++ '{' :: r) = some z := by
      cases x with
      | nil =>
        obtain ⟨a, ha⟩ := isNot_run (set := c! "${") (c := ' ') (by simp) ('{' :: r)
        exact ⟨_, alt_some.2 (Or.inl ha)⟩
      | cons c y =>
        simp only [List.mem_cons, not_or] at h1 h2
        obtain ⟨a, ha⟩ := isNot_run (set := c! "${") (c := c) (by
          have := h1.1; have := h2.1
          simp only [List.mem_cons, List.not_mem_nil, or_false]; grind) (y ++ c! " " ++ '{' :: r)
        exact ⟨_, alt_some.2 (Or.inl ha)⟩
    obtain ⟨z, hz⟩ := hfirst
    obtain ⟨as, has⟩ := many1_rest0 suff_atRulePiece prog_atRulePiece hz
    rw [hrest] at has
    refine map_some.2 ⟨x ++ c! " ", ?_, ?_⟩
    · have := recognize_append has
      simpa using this
    · rw [Text.trim_append_ws _ (by intro c hc; simp at hc; subst hc; decide)]
      exact hx

theorem atRuleCondition_fail {t : Parser Str} {c : Char} {i : Str} (hsp : spRest (c :: i) = c :: i)
    (h : t (c :: i) = none) : atRuleCondition t (c :: i) = none := by
  refine trimmed_none.2 ?_
  rw [hsp, nonEmpty_cons _ (by simp), map_none]
  cases hx : pair _ _ (c :: i) with
  | none => rfl
  | some x =>
    obtain ⟨r, h1, -⟩ := pair_some.1 (show _ = some (x.1, x.2) from hx)
    obtain ⟨a, h2, -⟩ := recognize_some.1 h1
    obtain ⟨r2, b, h3, -⟩ := terminated_some.1 h2
    rw [h] at h3
    cases h3

end HeadersP
