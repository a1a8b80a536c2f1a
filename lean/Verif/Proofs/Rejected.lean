import Verif.Spec.Rejected
import Verif.Proofs.Layout

/-!
# Lemmas for C80
-/

namespace RejectedP

open Spec Css Nom NomP ParserP LexP DeclsP HeadersP ReparseP LayoutP

/-- The parser `t` of names reads one of `names`. -/
def Names (t : Parser Str) (names : List Str) : Prop := ∀ i r a, t i = some (r, a) → ∃ n ∈ names, i = n ++ r

theorem names_tag {n : Str} {names : List Str} (h : n ∈ names) : Names (tag n) names := by
  intro i r a hi
  exact ⟨n, h, (tag_some.1 hi).1⟩

theorem names_alt {t t' : Parser Str} {names : List Str} (h : Names t names) (h' : Names t' names) : Names (alt t t') names := by
  intro i r a hi
  rcases alt_some.1 hi with hi | ⟨-, hi⟩
  · exact h _ _ _ hi
  · exact h' _ _ _ hi

theorem names_fail (names : List Str) : Names fail names := by
  intro i r a hi
  cases hi

/-- At an at-rule with another name there is no condition. -/
theorem at_none {t : Parser Str} {names names' : List Str} (ht : Names t names) (hsub : ∀ n ∈ names, n ∈ names') {e : Str}
    (he : Unsupported names' e) : atRuleCondition t e = none := by
  obtain ⟨⟨r, rfl⟩, hn⟩ := he
  cases hx : atRuleCondition t ('@' :: r) with
  | none => rfl
  | some x =>
    obtain ⟨r1, h1, -⟩ := trimmed_some.1 (show _ = some (x.1, x.2) from hx)
    obtain ⟨-, h2⟩ := nonEmpty_some.1 h1
    obtain ⟨⟨p, q⟩, h3, -⟩ := map_some.1 h2
    obtain ⟨r2, h4, -⟩ := pair_some.1 h3
    obtain ⟨a, h6, -⟩ := recognize_some.1 h4
    obtain ⟨r3, b, h8, h9⟩ := terminated_some.1 h6
    obtain ⟨n, hmem, e1⟩ := ht _ _ _ h8
    obtain ⟨e2, -⟩ := tag_some.1 h9
    refine absurd ?_ (hn n (hsub n hmem))
    rw [spRest_at] at e1
    rw [e1, e2]
    exact ⟨r2, by simp⟩

theorem atRuleWith_none {sc : Parser (List ScopeContent)} {e : Str} {names : List Str}
    (hsub : ∀ n ∈ conditionalNames, n ∈ names) (he : Unsupported names e) : atRuleWith sc e = none := by
  have h := at_none (t := alt (tag (c! "@container")) (alt (tag (c! "@supports")) (tag (c! "@media")))) (names := conditionalNames)
    (names_alt (names_tag (by decide)) (names_alt (names_tag (by decide)) (names_tag (by decide)))) hsub he
  obtain ⟨⟨r, rfl⟩, -⟩ := he
  refine trimmed_none.2 ?_
  rw [spRest_at, nonEmpty_cons _ (by simp), map_none]
  cases hx : separatedPair _ _ _ ('@' :: r) with
  | none => rfl
  | some y =>
    obtain ⟨_, _, _, h1, -⟩ := separatedPair_some.1 (show _ = some (y.1, y.2) from hx)
    rw [h] at h1
    cases h1

theorem keyframes_none {n : Nat} {e : Str} {names : List Str} (hsub : c! "@keyframes" ∈ names) (he : Unsupported names e) :
    keyframes n e = none := by
  have h := at_none (t := alt (tag (c! "@keyframes")) fail) (names := [c! "@keyframes"])
    (names_alt (names_tag (by simp)) (names_fail _)) (by simpa using hsub) he
  obtain ⟨⟨r, rfl⟩, -⟩ := he
  refine map_none.2 (trimmed_none.2 ?_)
  rw [spRest_at]
  cases hx : separatedPair _ _ _ ('@' :: r) with
  | none => rfl
  | some y =>
    obtain ⟨_, _, _, h1, -⟩ := separatedPair_some.1 (show _ = some (y.1, y.2) from hx)
    rw [h] at h1
    cases h1

theorem ruleBlock_none {n : Nat} {e : Str} (he : Unsupported conditionalNames e) : ruleBlock n e = none := by
  have h : otherCondition e = none := at_none (names := conditionalNames)
    (names_alt (names_tag (by decide)) (names_alt (names_tag (by decide)) (names_tag (by decide)))) (fun _ h => h) he
  obtain ⟨⟨r, rfl⟩, -⟩ := he
  cases n with
  | zero => rfl
  | succ n => exact ruleBlockWith_fail (spRest_at r) h

theorem ruleBlock_sp {n : Nat} {i j : Str} (h : spRest i = spRest j) : ruleBlock n i = ruleBlock n j := by
  cases n with
  | zero => rfl
  | succ n => exact trimmed_eq_of_spRest h

theorem piece_sp {n : Nat} {i j : Str} (h : spRest i = spRest j) : piece n i = piece n j := by
  unfold piece alt map
  rw [show attributes false i = attributes false j from trimmed_eq_of_spRest h, ruleBlock_sp h]

theorem attributes_none {d : Bool} {i : Str} (h : styleAttribute i = none) : attributes d i = none := by
  refine trimmed_none.2 ?_
  cases hx : nonEmpty _ (spRest i) with
  | none => rfl
  | some x =>
    obtain ⟨-, h1⟩ := nonEmpty_some.1 (show _ = some (x.1, x.2) from hx)
    obtain ⟨r, b, h2, -⟩ := terminated_some.1 h1
    simp only [separatedList1] at h2
    rw [show styleAttribute (spRest i) = styleAttribute i from trimmed_eq_of_spRest (spRest_idem i), h] at h2
    cases h2

/-- Where a text begins with another character than `@` there is no at-rule. -/
theorem at_char {t : Parser Str} {names : List Str} (ht : Names t names) (hn : ∀ n ∈ names, ∃ m, n = '@' :: m) {i : Str}
    {c : Char} {x : Str} (hi : spRest i = c :: x) (hc : c ≠ '@') : atRuleCondition t i = none := by
  have hsp : spRest (c :: x) = c :: x := by rw [← hi, spRest_idem]
  rw [show atRuleCondition t i = atRuleCondition t (c :: x) from trimmed_eq_of_spRest (by rw [hi, hsp])]
  refine atRuleCondition_fail hsp ?_
  cases hx : t (c :: x) with
  | none => rfl
  | some y =>
    obtain ⟨k, hk, ek⟩ := ht _ _ _ (show _ = some (y.1, y.2) from hx)
    obtain ⟨m, rfl⟩ := hn k hk
    exact absurd (List.cons.inj ek).1 hc

theorem names_other : Names (alt (tag (c! "@container")) (alt (tag (c! "@media")) (tag (c! "@supports")))) conditionalNames :=
  names_alt (names_tag (by decide)) (names_alt (names_tag (by decide)) (names_tag (by decide)))

theorem names_rule : Names (alt (tag (c! "@container")) (alt (tag (c! "@supports")) (tag (c! "@media")))) conditionalNames :=
  names_alt (names_tag (by decide)) (names_alt (names_tag (by decide)) (names_tag (by decide)))

theorem opens_head {l : List SelSrc} {r : Str} (hok : ∀ s ∈ l, s.Ok) :
    ∃ c t, spRest (selsText l ++ '{' :: r) = c :: t ∧ c ≠ '@' ∧ c ≠ '}' := by
  have hH : H r (spRest (selsText l ++ '{' :: r)) := H.sp ⟨_, selsText_hi l (fun x hx => srcI_of_ok (hok x hx)), rfl⟩
  obtain ⟨c, t, ec, hc, -⟩ := hH.head
  refine ⟨c, t, ec, ?_, ?_⟩
  · rintro rfl; exact hc (by decide)
  · rintro rfl; exact hc (by decide)

theorem opens_decl {l : List SelSrc} {r : Str} (hok : ∀ s ∈ l, s.Ok) (hlike : ¬ StartsLikeDecl (selsText l ++ '{' :: r)) :
    styleAttribute (selsText l ++ '{' :: r) = none := by
  have := header_decl (selsText_hi l (fun x hx => srcI_of_ok (hok x hx))) r [] hlike
  simpa using this

/-- No declaration and no piece of a body begins, and no brace is closed. -/
def Stuck (n : Nat) (e : Str) : Prop := styleAttribute e = none ∧ piece n e = none ∧ (spRest e).head? ≠ some '}'

theorem Stuck.mk' {n : Nat} {e : Str} (h1 : styleAttribute e = none) (h2 : ruleBlock n e = none) (h3 : (spRest e).head? ≠ some '}') : Stuck n e :=
  ⟨h1, alt_none.2 ⟨map_none.2 (attributes_none h1), map_none.2 h2⟩, h3⟩

theorem Stuck.sp {n : Nat} {i j : Str} (h : Stuck n i) (e : spRest j = spRest i) : Stuck n j :=
  ⟨(trimmed_eq_of_spRest e).trans h.1, (piece_sp e).trans h.2.1, by rw [e]; exact h.2.2⟩

theorem stuck_here (n : Nat) {w e : Str} (hw : Blank w) (he : e = [] ∨ Unsupported conditionalNames e ∨ OpensBlock e) : Stuck n (w ++ e) := by
  refine Stuck.sp ?_ (spRest_blank hw e)
  rcases he with rfl | he | ⟨l, r, -, hok, rfl, hlike⟩
  · exact .mk' rfl (prog_nil (prog_ruleBlock n)) (by rw [spRest_nil]; simp)
  · have hr := ruleBlock_none (n := n) he
    obtain ⟨⟨r, rfl⟩, -⟩ := he
    exact .mk' (styleAttribute_fail (by rw [spRest_at]; exact noIdent_at r)) hr (by rw [spRest_at]; simp)
  · obtain ⟨c, t, ec, h1, h2⟩ := opens_head (r := r) hok
    refine .mk' (opens_decl hok hlike) ?_ (by rw [ec]; simpa using h2)
    cases n with
    | zero => rfl
    | succ n =>
      have hsp : spRest (c :: t) = c :: t := by rw [← ec, spRest_idem]
      rw [ruleBlock_sp (j := c :: t) (by rw [ec, hsp])]
      exact ruleBlockWith_fail hsp (at_char names_other conditional_at hsp h1)

/-- The pieces of a body are not read up to a brace. -/
def NoBrace (n : Nat) (t : Str) : Prop :=
  ∀ i r ps, spRest i = spRest t → many0 (piece n) i = some (r, ps) → (spRest r).head? ≠ some '}'

theorem Stuck.noBrace {n : Nat} {e : Str} (h : Stuck n e) : NoBrace n e := by
  intro i r ps hi hr
  rw [many0_stop (suff_piece n) (h.sp hi).2.1] at hr
  simp only [Option.some.injEq, Prod.mk.injEq] at hr
  rw [← hr.1]
  exact (h.sp hi).2.2

theorem noBrace_decls {n : Nat} {ds : List DeclSrc} (hds : ∀ d ∈ ds, d.Ok) {t : Str} (ht : styleAttribute t = none)
    (h : NoBrace n t) : NoBrace n ((ds.map DeclSrc.text).flatten ++ t) := by
  intro i r ps hi hr
  cases ds with
  | nil => exact h i r ps hi hr
  | cons d ds =>
    have h1 := many0_step (suff_piece n) (prog_piece n) (alt_some.2 (Or.inl (map_some.2
      ⟨_, attributes_before false (by simp) hds ht i hi, rfl⟩)))
    rw [hr] at h1
    cases h2 : many0 (piece n) (spRest t) with
    | none => rw [h2] at h1; cases h1
    | some x =>
      rw [h2] at h1
      simp only [Option.some.injEq, Prod.mk.injEq] at h1
      rw [h1.1]
      exact h _ x.1 x.2 (spRest_idem t) h2

/-- At the head of an at-rule no declaration begins. -/
theorem decl_at {names : List Str} (hnames : ∀ n ∈ names, ∃ m, n = '@' :: m) {a : AtSrc} (ha : a.Ok names) (x : Str) :
    styleAttribute (a.text ++ x) = none := by
  obtain ⟨hsp, m, hm⟩ := at_sp hnames ha x
  refine styleAttribute_fail ?_
  rw [hsp, hm]
  exact noIdent_at _

/-- So there are no contents in braces. -/
theorem no_contents {n : Nat} {u r : Str} {c : List RBC} (h : NoBrace n u)
    (hr : terminated (ruleBlockContentsWith (ruleBlock n)) (tag (c! "}")) u = some (r, c)) : False := by
  obtain ⟨r1, b, h1, h2⟩ := terminated_some.1 hr
  obtain ⟨-, h3⟩ := nonEmpty_some.1 h1
  obtain ⟨ps, h4, -⟩ := map_some.1 h3
  refine h u r1 ps rfl h4 ?_
  rw [(tag_some.1 h2).1, List.cons_append, spRest_brace]
  rfl

/-- Blanks do not begin with a brace. -/
theorem blank_head {w : Str} (hw : Blank w) (hne : w ≠ []) (u : Str) : (w ++ u).head? ≠ some '}' := by
  cases hw with
  | nil => exact absurd rfl hne
  | ws c v hc => intro h; simp only [List.cons_append, List.head?_cons, Option.some.injEq] at h; subst h; revert hc; decide
  | comment body v hc => intro h; simp at h

/-- Nothing is read of blanks in front of a brace, not even the blanks. -/
theorem blank_contents {n : Nat} {w : Str} (hw : Blank w) (hne : w ≠ []) {u r : Str} {c : List RBC}
    (hr : terminated (ruleBlockContentsWith (ruleBlock n)) (tag (c! "}")) (w ++ '}' :: u) = some (r, c)) : False := by
  obtain ⟨r1, b, h1, h2⟩ := terminated_some.1 hr
  obtain ⟨-, h3⟩ := nonEmpty_some.1 h1
  obtain ⟨ps, h4, -⟩ := map_some.1 h3
  have hp : piece n (w ++ '}' :: u) = none := by rw [piece_sp (spRest_blank hw _), piece_brace]
  rw [many0_stop (suff_piece n) hp] at h4
  simp only [Option.some.injEq, Prod.mk.injEq] at h4
  refine blank_head hw hne ('}' :: u) ?_
  rw [h4.1, (tag_some.1 h2).1]
  rfl

theorem ruleBlock_shut {a : AtSrc} (ha : a.Ok conditionalNames) {u : Str} {n : Nat}
    (h : ∀ r c, terminated (ruleBlockContentsWith (ruleBlock n)) (tag (c! "}")) u = some (r, c) → False) :
    Stuck (n + 1) (a.text ++ '{' :: u) := by
  obtain ⟨hsp, m, hm⟩ := at_sp conditional_at ha ('{' :: u)
  refine .mk' (decl_at conditional_at ha _) ?_ (by rw [hsp, hm]; simp)
  refine trimmed_none.2 ?_
  rw [hsp, nonEmpty_cons _ (by rw [hm]; simp)]
  cases hx : separatedPair _ _ _ _ with
  | none => rfl
  | some y =>
    exfalso
    obtain ⟨r1, r2, b, h1, h2, h3⟩ := separatedPair_some.1 (show _ = some (y.1, y.2) from hx)
    rw [show otherCondition (a.name ++ ' ' :: (a.cond ++ '{' :: u)) = _ from
      atCondition_read a.name (conditional_media ha.2.1 _) ⟨m, hm⟩ ha.2.2.1 ha.2.2.2.1 ha.2.2.2.2] at h1
    simp only [Option.some.injEq, Prod.mk.injEq] at h1
    rw [← h1.1, show '{' :: u = c! "{" ++ u from rfl, tag_append] at h2
    simp only [Option.some.injEq, Prod.mk.injEq] at h2
    rw [← h2.1] at h3
    exact h _ _ h3

theorem ruleBlock_open {a : AtSrc} (ha : a.Ok conditionalNames) {u : Str} {n : Nat} (h : NoBrace n u) :
    Stuck (n + 1) (a.text ++ '{' :: u) := ruleBlock_shut ha fun _ _ => no_contents h

theorem body_stop {u : Str} (h : BrokenBody u) : ∀ n, u.length ≤ n → NoBrace n u := by
  induction h with
  | here ds w e hds hw he => exact fun n _ => noBrace_decls hds (stuck_here n hw he).1 (stuck_here n hw he).noBrace
  | after ds a body u content hds ha hbody hc hu ih =>
    intro n hn
    have hlen : body.length + u.length + 2 ≤ n := by
      simp only [List.length_append, List.length_cons] at hn; omega
    refine noBrace_decls hds (decl_at conditional_at ha _) ?_
    intro i r ps hi hr
    let B := body ++ '}' :: u
    obtain ⟨hsp, m, hm⟩ := at_sp conditional_at ha ('{' :: B)
    have ej : spRest i = a.name ++ ' ' :: (a.cond ++ '{' :: B) := hi.trans hsp
    have hattr : attributes false i = none :=
      attributes_none ((trimmed_eq_of_spRest hi).trans (decl_at conditional_at ha _))
    obtain ⟨k, rfl⟩ : ∃ k, n = k + 1 := ⟨n - 1, by omega⟩
    obtain ⟨ps1, e1, e2⟩ := body_read body.length body content (Nat.le_refl _) hbody k u B (by omega) rfl (by
        intro hc0
        rcases hc with h | h
        · simp [B, h]
        · exact absurd hc0 h)
    have hrb : ruleBlock (k + 1) i = some (spRest u, (a.value, content)) := by
      refine trimmed_some.2 ⟨u, nonEmpty_some.2 ⟨by rw [ej, hm]; simp, separatedPair_some.2
        ⟨'{' :: B, B, c! "{", ?_, tag_append (c! "{") _, terminated_some.2
          ⟨'}' :: u, c! "}", ?_, tag_append (c! "}") _⟩⟩⟩, rfl⟩
      · rw [ej]
        exact atCondition_read a.name (conditional_media ha.2.1 _) ⟨m, hm⟩ ha.2.2.1 ha.2.2.2.1 ha.2.2.2.2
      · exact nonEmpty_some.2 ⟨by simp [B], map_some.2 ⟨ps1, e1, e2⟩⟩
    have h1 := many0_step (suff_piece _) (prog_piece _) (alt_some.2 (Or.inr
      ⟨map_none.2 hattr, map_some.2 ⟨_, hrb, rfl⟩⟩))
    rw [hr] at h1
    cases h2 : many0 (piece (k + 1)) (spRest u) with
    | none => rw [h2] at h1; cases h1
    | some x =>
      rw [h2] at h1
      simp only [Option.some.injEq, Prod.mk.injEq] at h1
      rw [h1.1]
      exact ih (k + 1) (by omega) _ x.1 x.2 (spRest_idem u) h2
  | inside ds a u hds ha hu ih =>
    intro n hn
    simp only [List.length_append, List.length_cons] at hn
    obtain ⟨k, rfl⟩ : ∃ k, n = k + 1 := ⟨n - 1, by omega⟩
    exact noBrace_decls hds (decl_at conditional_at ha _) (ruleBlock_open ha (ih k (by omega))).noBrace
  | blank ds a w u hds ha hw hne =>
    intro n hn
    simp only [List.length_append, List.length_cons] at hn
    obtain ⟨k, rfl⟩ : ∃ k, n = k + 1 := ⟨n - 1, by omega⟩
    exact noBrace_decls hds (decl_at conditional_at ha _) (ruleBlock_shut ha fun _ _ => blank_contents hw hne).noBrace

/-- A frame that is not read. -/
theorem frame_shut {b s : Str} {l : List SelSrc} (hb : Blank b) (hs : SelText s) (hnb : NonBlank s) (hl : ∀ x ∈ l, x.Ok) {n : Nat} {u : Str}
    (hu : ∀ r c, terminated (ruleBlockContentsWith (ruleBlock n)) (tag (c! "}")) u = some (r, c) → False) (i r : Str)
    (ps : List (List Str × List RBC)) (hi : spRest i = spRest (b ++ selsText (⟨[], s⟩ :: l) ++ '{' :: u))
    (hr : many0 (ruleBlockKeyframes n) i = some (r, ps)) : (spRest r).head? ≠ some '}' := by
  have hhead := frame_head hb hs hnb hl u i hi
  have hnone : ruleBlockKeyframes n i = none := by
    refine trimmed_none.2 ?_
    cases hx : nonEmpty _ (spRest i) with
    | none => rfl
    | some y =>
      exfalso
      obtain ⟨-, hx⟩ := nonEmpty_some.1 (show _ = some (y.1, y.2) from hx)
      obtain ⟨r1, r2, b, h1, h2, h3⟩ := separatedPair_some.1 hx
      rw [hhead] at h1
      simp only [Option.some.injEq, Prod.mk.injEq] at h1
      rw [← h1.1, show '{' :: u = c! "{" ++ u from rfl, tag_append] at h2
      simp only [Option.some.injEq, Prod.mk.injEq] at h2
      rw [← h2.1] at h3
      exact hu _ _ h3
  rw [many0_stop (suff_ruleBlockKeyframes n) hnone] at hr
  simp only [Option.some.injEq, Prod.mk.injEq] at hr
  rw [← hr.1]
  intro h0
  cases hs : spRest i with
  | nil => rw [hs] at h0; cases h0
  | cons c t =>
    rw [hs] at h0 hhead
    simp only [List.head?_cons, Option.some.injEq] at h0
    subst h0
    obtain ⟨_, h1, -⟩ := map_some.1 hhead
    obtain ⟨_, h2, -⟩ := recognize_some.1 h1
    exact absurd h2 (by rw [condition_fail (by simp) (by simp) t]; simp)

/-- The frames of an animation are not read up to a brace. -/
theorem frames_stop {u : Str} (h : BrokenFrames u) : ∀ n, u.length ≤ n → ∀ i r ps, spRest i = spRest u →
    many0 (ruleBlockKeyframes n) i = some (r, ps) → (spRest r).head? ≠ some '}' := by
  induction h with
  | here w e hw he =>
    intro n _ i r ps hi hr
    have hsp : spRest i = spRest e := hi.trans (spRest_blank hw e)
    have hnone : ruleBlockKeyframes n i = none := by
      rw [show ruleBlockKeyframes n i = ruleBlockKeyframes n e from trimmed_eq_of_spRest hsp]
      rcases he with rfl | ⟨r, rfl⟩
      · exact prog_nil (prog_ruleBlockKeyframes n)
      · refine ruleBlockWith_fail (spRest_at r) (map_none.2 ?_)
        rw [recognize_none]
        exact condition_fail (by simp) (by simp) r
    rw [many0_stop (suff_ruleBlockKeyframes n) hnone] at hr
    simp only [Option.some.injEq, Prod.mk.injEq] at hr
    rw [← hr.1, hsp]
    rcases he with rfl | ⟨r, rfl⟩
    · rw [spRest_nil]; simp
    · rw [spRest_at]; simp
  | after b s l body u content hb hs hnb hl hbody hc hu ih =>
    intro n hn i r ps hi hr
    have hlen : body.length + u.length + 2 ≤ n := by
      simp only [List.length_append, List.length_cons] at hn; omega
    have h1 := many0_step (suff_ruleBlockKeyframes n) (prog_ruleBlockKeyframes n)
      (frame_read hb hs hnb hl hbody hc (n := n) (by omega) u i hi)
    rw [hr] at h1
    cases h2 : many0 (ruleBlockKeyframes n) (spRest u) with
    | none => rw [h2] at h1; cases h1
    | some x =>
      rw [h2] at h1
      simp only [Option.some.injEq, Prod.mk.injEq] at h1
      rw [h1.1]
      exact ih n (by omega) _ x.1 x.2 (spRest_idem u) h2
  | inside b s l u hb hs hnb hl hu =>
    intro n hn i r ps hi hr
    have hlen : u.length ≤ n := by
      simp only [List.length_append, List.length_cons] at hn; omega
    exact frame_shut hb hs hnb hl (fun _ _ => no_contents (body_stop hu n hlen)) i r ps hi hr
  | blank b s l w u hb hs hnb hl hw hne =>
    intro n hn i r ps hi hr
    exact frame_shut hb hs hnb hl (fun _ _ => blank_contents hw hne) i r ps hi hr

/-- The head of an at-rule is not one of `@keyframes`. -/
theorem not_keyframes (n : Nat) {m : Str} (hm : m ∈ conditionalNames) (x : Str) : keyframes n (m ++ ' ' :: x) = none := by
  refine keyframes_none (names := [c! "@keyframes"]) (by simp) ⟨?_, ?_⟩
  · obtain ⟨k, rfl⟩ := conditional_at m hm
    exact ⟨_, rfl⟩
  · intro k hk
    simp only [List.mem_singleton] at hk
    subst hk
    simp only [conditionalNames, List.mem_cons, List.not_mem_nil, or_false] at hm
    rcases hm with rfl | rfl | rfl <;> simp

/-- Where a text is broken, neither an item nor a declaration begins, and no brace is closed. -/
def Stop (n : Nat) (e : Str) : Prop := Ends n e ∧ (spRest e).head? ≠ some '}'

theorem stop_nil (n : Nat) : Stop n [] := ⟨ends_nil n, by rw [spRest_nil]; simp⟩

theorem stop_at (n : Nat) {e : Str} (he : Unsupported (conditionalNames ++ [c! "@keyframes"]) e) : Stop n e := by
  have h1 : atRuleWith (scopeContents n) e = none := atRuleWith_none (by simp +contextual) he
  have h2 : keyframes n e = none := keyframes_none (by simp) he
  obtain ⟨⟨r, rfl⟩, -⟩ := he
  refine ⟨⟨alt_none.2 ⟨dangling_at r, alt_none.2 ⟨block_at n r, alt_none.2 ⟨h1, h2⟩⟩⟩, styleAttribute_fail ?_⟩, ?_⟩
  · rw [spRest_at]; exact noIdent_at r
  · rw [spRest_at]; simp

/-- The same behind the contents `s`; declarations are ruled out only behind declarations. -/
def Halt (n : Nat) (s : Sheet) (e : Str) : Prop :=
  item n e = none ∧ (EndsIn s → styleAttribute e = none) ∧ (spRest e).head? ≠ some '}'

theorem Stop.halt {n : Nat} {e : Str} (h : Stop n e) (s : Sheet) : Halt n s e := ⟨h.1.1, fun _ => h.1.2, h.2⟩

theorem halt_read {u : Str} {s : Sheet} (hu : Layout u s) {e : Str} {n : Nat} (hn : u.length ≤ n) (h1 : item n e = none)
    (h2 : EndsIn s → styleAttribute e = none) : many0 (item n) (spRest (u ++ e)) = some (spRest e, s) := by
  have := layout_reads u.length u s (Nat.le_refl _) hu n e (spRest (u ++ e)) (spRest e) [] hn h2
    (many0_stop (suff_item n) (by rw [show item n (spRest e) = item n e from item_sp (spRest_idem e)]; exact h1))
    (spRest_idem _) (by
      intro h0
      subst h0
      exact spRest_blank (layout_nil hu) e)
  rwa [List.append_nil] at this

/-- Contents that stop, and no brace after them. -/
theorem contents_stop {u : Str} {s : Sheet} (hu : Layout u s) {e : Str} {n : Nat} (hn : u.length ≤ n) (he : Halt n s e) :
    terminated (scopeContents (n + 1)) (tag (c! "}")) (u ++ e) = none := by
  cases hx : terminated (scopeContents (n + 1)) (tag (c! "}")) (u ++ e) with
  | none => rfl
  | some x =>
    exfalso
    obtain ⟨r1, b, h1, h2⟩ := terminated_some.1 (show _ = some (x.1, x.2) from hx)
    obtain ⟨r2, h3, h4⟩ := trimmed_some.1 h1
    obtain ⟨-, h5⟩ := nonEmpty_some.1 h3
    rw [halt_read hu hn he.1 he.2.1] at h5
    simp only [Option.some.injEq, Prod.mk.injEq] at h5
    obtain ⟨h7, -⟩ := tag_some.1 h2
    refine he.2.2 ?_
    rw [← spRest_idem, h5.1, ← h4, h7]
    rfl

theorem stop_rule {a : AtSrc} (ha : a.Ok conditionalNames) {u : Str} {s : Sheet} (hu : Layout u s) {e : Str} {n : Nat}
    (hn : u.length ≤ n) (he : Halt n s e) : Stop (n + 1) (a.text ++ '{' :: (u ++ e)) := by
  obtain ⟨hsp, m, hm⟩ := at_sp conditional_at ha ('{' :: (u ++ e))
  have hsp2 : spRest (a.name ++ ' ' :: (a.cond ++ '{' :: (u ++ e))) = a.name ++ ' ' :: (a.cond ++ '{' :: (u ++ e)) := by
    rw [hm, List.cons_append, spRest_at]
  refine ⟨⟨?_, styleAttribute_fail ?_⟩, ?_⟩
  · rw [show scopeItemWith (n + 1) (scopeContents (n + 1)) (a.text ++ '{' :: (u ++ e)) =
        scopeItemWith (n + 1) (scopeContents (n + 1)) (a.name ++ ' ' :: (a.cond ++ '{' :: (u ++ e))) from
        item_sp (by rw [hsp, hsp2])]
    refine alt_none.2 ⟨by rw [hm]; exact dangling_at _, alt_none.2 ⟨by rw [hm]; exact block_at _ _, alt_none.2 ⟨?_, not_keyframes _ ha.2.1 _⟩⟩⟩
    refine trimmed_none.2 ?_
    rw [hsp2, nonEmpty_cons _ (by rw [hm]; simp), map_none]
    cases hx : separatedPair _ _ _ _ with
    | none => rfl
    | some y =>
      exfalso
      obtain ⟨r1, r2, b, h1, h2, h3⟩ := separatedPair_some.1 (show _ = some (y.1, y.2) from hx)
      rw [atCondition_read a.name (conditional_supports ha.2.1 _) ⟨m, hm⟩ ha.2.2.1 ha.2.2.2.1 ha.2.2.2.2] at h1
      simp only [Option.some.injEq, Prod.mk.injEq] at h1
      rw [← h1.1, show '{' :: (u ++ e) = c! "{" ++ (u ++ e) from rfl, tag_append] at h2
      simp only [Option.some.injEq, Prod.mk.injEq] at h2
      rw [← h2.1, contents_stop hu hn he] at h3
      cases h3
  · rw [hsp, hm]; exact noIdent_at _
  · rw [hsp, hm]; simp

theorem item_block {l : List SelSrc} {u : Str} (hne : l ≠ []) (hok : ∀ s ∈ l, s.Ok) {n : Nat} (hu : NoBrace n u) :
    item n (selsText l ++ '{' :: u) = none := by
  have hsrc : ∀ x ∈ l, SrcI x := fun x hx => srcI_of_ok (hok x hx)
  have hH : H u (spRest (selsText l ++ '{' :: u)) := H.sp ⟨_, selsText_hi l hsrc, rfl⟩
  obtain ⟨c, t, ec, hat, hbr⟩ := opens_head (r := u) hok
  have hsp : spRest (c :: t) = c :: t := by rw [← ec, spRest_idem]
  rw [show item n (selsText l ++ '{' :: u) = item n (c :: t) from item_sp (by rw [hsp, ec])]
  refine alt_none.2 ⟨?_, alt_none.2 ⟨?_, alt_none.2 ⟨?_, ?_⟩⟩⟩
  · refine trimmed_none.2 ?_
    rw [hsp, nonEmpty_cons _ (by simp), map_none, ← ec]
    exact attributes_header hH
  · refine trimmed_none.2 ?_
    rw [hsp, nonEmpty_cons _ (by simp), map_none]
    cases hx : pair _ _ (c :: t) with
    | none => rfl
    | some y =>
      exfalso
      obtain ⟨r1, h1, h2⟩ := pair_some.1 (show _ = some (y.1, y.2) from hx)
      rw [condition_srcs hne hsrc u (c :: t) (by rw [hsp, ec])] at h1
      simp only [Option.some.injEq, Prod.mk.injEq] at h1
      rw [← h1.1] at h2
      obtain ⟨r2, b1, r3, b2, h3, h4, h5⟩ := delimited_some.1 h2
      rw [show '{' :: u = c! "{" ++ u from rfl, tag_append] at h3
      simp only [Option.some.injEq, Prod.mk.injEq] at h3
      rw [← h3.1] at h4
      obtain ⟨r4, h6, h7⟩ := trimmed_some.1 h4
      obtain ⟨r5, h8, h9⟩ := trimmed_some.1 h6
      obtain ⟨-, h8⟩ := nonEmpty_some.1 h8
      obtain ⟨ps, h10, -⟩ := map_some.1 h8
      refine hu _ r5 ps (by rw [spRest_idem, spRest_idem]) h10 ?_
      rw [← spRest_idem r5, ← h9, ← h7, (tag_some.1 h5).1]
      rfl
  · refine trimmed_none.2 ?_
    rw [hsp, nonEmpty_cons _ (by simp), map_none]
    cases hx : separatedPair _ _ _ (c :: t) with
    | none => rfl
    | some y =>
      obtain ⟨_, _, _, h1, -⟩ := separatedPair_some.1 (show _ = some (y.1, y.2) from hx)
      rw [at_char names_rule conditional_at hsp hat] at h1
      cases h1
  · refine map_none.2 (trimmed_none.2 ?_)
    rw [hsp]
    cases hx : separatedPair _ _ _ (c :: t) with
    | none => rfl
    | some y =>
      obtain ⟨_, _, _, h1, -⟩ := separatedPair_some.1 (show _ = some (y.1, y.2) from hx)
      rw [at_char (names := [c! "@keyframes"]) (names_alt (names_tag (by simp)) (names_fail _)) keyframes_at hsp hat] at h1
      cases h1

theorem block_head {l : List SelSrc} {u : Str} (hok : ∀ s ∈ l, s.Ok) : (spRest (selsText l ++ '{' :: u)).head? ≠ some '}' := by
  obtain ⟨c, t, ec, -, hbr⟩ := opens_head (r := u) hok
  rw [ec]; simpa using hbr

theorem stop_block {l : List SelSrc} {u : Str} (hne : l ≠ []) (hok : ∀ s ∈ l, s.Ok) {n : Nat} (hu : NoBrace n u)
    (hlike : ¬ StartsLikeDecl (selsText l ++ '{' :: u)) : Stop n (selsText l ++ '{' :: u) :=
  ⟨⟨item_block hne hok hu, opens_decl hok hlike⟩, block_head hok⟩

theorem stop_keyframes {a : AtSrc} (ha : a.Ok [c! "@keyframes"]) {u : Str} {n : Nat}
    (hu : ∀ r ps, many0 (ruleBlockKeyframes n) u = some (r, ps) → r.head? ≠ some '}') :
    Stop n (a.text ++ '{' :: u) := by
  obtain ⟨hsp, m, hm⟩ := at_sp keyframes_at ha ('{' :: u)
  have hname : a.name = c! "@keyframes" := by simpa using ha.2.1
  have hsp2 : spRest (a.name ++ ' ' :: (a.cond ++ '{' :: u)) = a.name ++ ' ' :: (a.cond ++ '{' :: u) := by
    rw [hm, List.cons_append, spRest_at]
  refine ⟨⟨?_, decl_at keyframes_at ha _⟩, by rw [hsp, hm]; simp⟩
  rw [show scopeItemWith n (scopeContents n) (a.text ++ '{' :: u) =
        scopeItemWith n (scopeContents n) (a.name ++ ' ' :: (a.cond ++ '{' :: u)) from item_sp (by rw [hsp, hsp2])]
  refine alt_none.2 ⟨by rw [hm]; exact dangling_at _, alt_none.2 ⟨by rw [hm]; exact block_at _ _, alt_none.2
    ⟨by rw [hname]; exact not_conditional _ _, map_none.2 (trimmed_none.2 ?_)⟩⟩⟩
  rw [hsp2]
  cases hx : separatedPair _ _ _ _ with
  | none => rfl
  | some y =>
    exfalso
    obtain ⟨r1, r2, b, h1, h2, h3⟩ := separatedPair_some.1 (show _ = some (y.1, y.2) from hx)
    rw [atCondition_read a.name (by rw [hname]; exact alt_some.2 (Or.inl (tag_append (c! "@keyframes") _))) ⟨m, hm⟩ ha.2.2.1
      ha.2.2.2.1 ha.2.2.2.2] at h1
    simp only [Option.some.injEq, Prod.mk.injEq] at h1
    rw [← h1.1, show '{' :: u = c! "{" ++ u from rfl, tag_append] at h2
    simp only [Option.some.injEq, Prod.mk.injEq] at h2
    rw [← h2.1] at h3
    obtain ⟨r3, b, h4, h5⟩ := terminated_some.1 h3
    refine hu _ _ h4 ?_
    rw [(tag_some.1 h5).1]
    rfl

/-- The frames of an animation with blanks between its braces. -/
theorem frames_blank {w : Str} (hw : Blank w) (hne : w ≠ []) (u : Str) (n : Nat) (r : Str) (ps : List (List Str × List RBC))
    (hr : many0 (ruleBlockKeyframes n) (w ++ '}' :: u) = some (r, ps)) : r.head? ≠ some '}' := by
  have hnone : ruleBlockKeyframes n (w ++ '}' :: u) = none := by
    rw [show ruleBlockKeyframes n (w ++ '}' :: u) = ruleBlockKeyframes n ('}' :: u) from trimmed_eq_of_spRest (spRest_blank hw _)]
    refine ruleBlockWith_fail (spRest_brace u) (map_none.2 ?_)
    rw [recognize_none]
    exact condition_fail (by simp) (by simp) u
  rw [many0_stop (suff_ruleBlockKeyframes n) hnone] at hr
  simp only [Option.some.injEq, Prod.mk.injEq] at hr
  rw [← hr.1]
  exact blank_head hw hne _

theorem head_sp {r : Str} (h : (spRest r).head? ≠ some '}') : r.head? ≠ some '}' := by
  intro h0
  cases r with
  | nil => cases h0
  | cons c t =>
    simp only [List.head?_cons, Option.some.injEq] at h0
    subst h0
    exact h (by rw [spRest_brace]; rfl)

theorem broken_stop {e : Str} (h : Broken e) : ∀ n, e.length ≤ n → Stop n e := by
  induction h with
  | atRule e he => exact fun n _ => stop_at n he
  | rule a u s ha hu =>
    intro n hn
    simp only [List.length_append, List.length_cons] at hn
    obtain ⟨k, rfl⟩ : ∃ k, n = k + 1 := ⟨n - 1, by omega⟩
    have := stop_rule ha hu (n := k) (by omega) ((stop_nil k).halt s)
    rwa [List.append_nil] at this
  | inRule a u s e ha hu he ih =>
    intro n hn
    simp only [List.length_append, List.length_cons] at hn
    obtain ⟨k, rfl⟩ : ∃ k, n = k + 1 := ⟨n - 1, by omega⟩
    exact stop_rule ha hu (by omega) ((ih k (by omega)).halt s)
  | inBlock l u h1 h2 h3 h4 =>
    intro n hn
    simp only [List.length_append, List.length_cons] at hn
    exact stop_block h1 h2 (body_stop h3 n (by omega)) h4
  | inKeyframes a u ha hu =>
    intro n hn
    simp only [List.length_append, List.length_cons] at hn
    exact stop_keyframes ha fun r ps h => head_sp (frames_stop hu n (by omega) u r ps rfl h)
  | blank a w u ha hw hne => exact fun n _ => stop_keyframes ha (frames_blank hw hne u n)

theorem broken_sp {e : Str} (h : Broken e) : spRest e ≠ [] := by
  cases h with
  | atRule _ he => obtain ⟨⟨r, rfl⟩, -⟩ := he; rw [spRest_at]; simp
  | rule a u s ha hu =>
    obtain ⟨hsp, m, hm⟩ := at_sp conditional_at ha ('{' :: u)
    rw [hsp, hm]; simp
  | inRule a u s e ha hu he =>
    obtain ⟨hsp, m, hm⟩ := at_sp conditional_at ha ('{' :: (u ++ e))
    rw [hsp, hm]; simp
  | inBlock l u h1 h2 h3 h4 =>
    obtain ⟨c, t, ec, -⟩ := opens_head (r := u) h2
    rw [ec]; simp
  | inKeyframes a u ha hu =>
    obtain ⟨hsp, m, hm⟩ := at_sp keyframes_at ha ('{' :: u)
    rw [hsp, hm]; simp
  | blank a w u ha hw hne =>
    obtain ⟨hsp, m, hm⟩ := at_sp keyframes_at ha ('{' :: (w ++ '}' :: u))
    rw [hsp, hm]; simp

/-- A text that is not read to its end is not accepted. -/
theorem parse_stuck {css e : Str} {s : Sheet} (hne : e ≠ []) (he : spRest e = e)
    (hi : item css.length e = none)
    (h : many0 (item css.length) (spRest css) = some (e, s)) : parse css = none := by
  have stuck : scope (css.length + 1) e = some (e, []) := by
    refine trimmed_some.2 ⟨e, ?_, he.symm⟩
    rw [he]
    refine nonEmpty_some.2 ⟨hne, trimmed_some.2 ⟨e, ?_, he.symm⟩⟩
    rw [he]
    exact nonEmpty_some.2 ⟨hne, many0_stop (suff_item _) hi⟩
  have hcss : spRest css ≠ [] := by
    intro h0
    rw [h0, many0_stop (suff_item _) (prog_nil (prog_item _))] at h
    simp only [Option.some.injEq, Prod.mk.injEq] at h
    exact hne h.1.symm
  have first : scope (css.length + 1) (spRest css) = some (e, s) := by
    refine trimmed_some.2 ⟨e, ?_, he.symm⟩
    rw [spRest_idem]
    refine nonEmpty_some.2 ⟨hcss, trimmed_some.2 ⟨e, ?_, he.symm⟩⟩
    rw [spRest_idem]
    exact nonEmpty_some.2 ⟨hcss, h⟩
  have second : many0 (scope (css.length + 1)) e = none := by
    rw [many0_unfold (suff_scope _), stuck]
    simp
  have all : many0 (scope (css.length + 1)) (spRest css) = none := by
    rw [many0_unfold (suff_scope _), first]
    simp only
    split
    · rfl
    · rw [second]
  unfold parse parseWith
  rw [Option.map_eq_none_iff]
  exact trimmed_none.2 (map_none.2 all)

theorem halted {u : Str} {s : Sheet} (hu : Layout u s) {e : Str} (h1 : item (u ++ e).length e = none)
    (h2 : EndsIn s → styleAttribute e = none) (h3 : spRest e ≠ []) : parse (u ++ e) = none := by
  refine parse_stuck h3 (spRest_idem e) ?_ (halt_read hu (by simp) h1 h2)
  rw [show item (u ++ e).length (spRest e) = item (u ++ e).length e from item_sp (spRest_idem e)]
  exact h1

theorem rejected {u : Str} {s : Sheet} (hu : Layout u s) {e : Str} (h : Broken e ∨ ∃ r, e = '}' :: r) : parse (u ++ e) = none := by
  have key : Ends (u ++ e).length e ∧ spRest e ≠ [] := by
    rcases h with h | ⟨r, rfl⟩
    · exact ⟨(broken_stop h (u ++ e).length (by simp)).1, broken_sp h⟩
    · exact ⟨ends_brace _ r, by rw [spRest_brace]; simp⟩
  exact halted hu key.1.1 (fun _ => key.1.2) key.2

end RejectedP
