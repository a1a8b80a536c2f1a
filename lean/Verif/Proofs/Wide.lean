import Verif.Spec.Wide
import Verif.Proofs.Rejected

/-!
# Lemmas for the border of C59
-/

namespace WideP

open Spec Css Nom NomP ParserP LexP DeclsP HeadersP ReparseP LayoutP RejectedP

theorem onlyBlanks_false {body : Str} {content : List RBC} (h : onlyBlanks body content = false) : body = [] ∨ content ≠ [] := by
  cases body <;> cases content <;> simp [onlyBlanks] at h ⊢

theorem onlyBlanks_true {body : Str} {content : List RBC} (h : onlyBlanks body content = true) : body ≠ [] ∧ content = [] := by
  cases body <;> cases content <;> simp [onlyBlanks] at h ⊢

theorem body_blank {f : Bool} {t : Str} (h : WideBody f t []) : Blank t := by
  cases h with
  | nil _ hw => exact hw

theorem frames_blank' {f : Bool} {t : Str} (h : WideFrames f t []) : Blank t := by
  cases h with
  | nil _ hw => exact hw

theorem broken_cons {d : DeclSrc} (hd : d.Ok) {t : Str} (h : BrokenBody t) : BrokenBody (d.text ++ t) := by
  have more : ∀ ds : List DeclSrc, (∀ x ∈ ds, x.Ok) → ∀ x ∈ d :: ds, x.Ok := by
    intro ds h x hx
    rcases List.mem_cons.1 hx with rfl | hx
    · exact hd
    · exact h x hx
  cases h with
  | here ds w e h1 h2 h3 => simpa using BrokenBody.here (d :: ds) w e (more ds h1) h2 h3
  | after ds a body u content h1 h2 h3 h4 h5 => simpa using BrokenBody.after (d :: ds) a body u content (more ds h1) h2 h3 h4 h5
  | inside ds a u h1 h2 h3 => simpa using BrokenBody.inside (d :: ds) a u (more ds h1) h2 h3
  | blank ds a w u h1 h2 h3 h4 => simpa using BrokenBody.blank (d :: ds) a w u (more ds h1) h2 h3 h4

theorem wide_body {f : Bool} {t : Str} {content : List RBC} (h : WideBody f t content) :
    (f = false → BodyLayout t content) ∧ (f = true → ∀ z, BrokenBody (t ++ '}' :: z)) := by
  induction h with
  | nil w hw => exact ⟨fun _ => .nil w hw, by simp⟩
  | last d hd => exact ⟨fun _ => .last d hd, by simp⟩
  | decl f d u rest hd hu ih =>
    exact ⟨fun hf => .decl d u rest hd (ih.1 hf), fun hf z => by rw [List.append_assoc]; exact broken_cons hd (ih.2 hf z)⟩
  | rule f g a body u content rest ha hbody hu ih1 ih2 =>
    constructor
    · intro h
      simp only [Bool.or_eq_false_iff] at h
      exact .rule a body u content rest ha (ih1.1 h.1.2) (onlyBlanks_false h.1.1) (ih2.1 h.2)
    · intro h z
      have e : a.text ++ c! "{" ++ body ++ c! "}" ++ u ++ '}' :: z = a.text ++ '{' :: (body ++ '}' :: (u ++ '}' :: z)) := by simp
      rw [e]
      cases hb : onlyBlanks body content with
      | true =>
        obtain ⟨h1, h2⟩ := onlyBlanks_true hb
        subst h2
        exact BrokenBody.blank [] a body _ (by simp) ha (body_blank hbody) h1
      | false =>
        cases f with
        | true => exact BrokenBody.inside [] a _ (by simp) ha (ih1.2 rfl _)
        | false =>
          simp only [hb, Bool.or_self, Bool.false_or] at h
          exact BrokenBody.after [] a body _ content (by simp) ha (ih1.1 rfl) (onlyBlanks_false hb) (ih2.2 h z)

theorem wide_frames {f : Bool} {t : Str} {frames : List RBC} (h : WideFrames f t frames) :
    (f = false → FramesLayout t frames) ∧ (f = true → ∀ z, BrokenFrames (t ++ '}' :: z)) := by
  induction h with
  | nil w hw => exact ⟨fun _ => .nil w hw, by simp⟩
  | frame f g b s l body u content rest hb hs hnb hl hbody hu ih =>
    have hw := wide_body hbody
    constructor
    · intro h
      simp only [Bool.or_eq_false_iff] at h
      exact .frame b s l body u content rest hb hs hnb hl (hw.1 h.1.2) (onlyBlanks_false h.1.1) (ih.1 h.2)
    · intro h z
      have e : b ++ selsText (⟨[], s⟩ :: l) ++ c! "{" ++ body ++ c! "}" ++ u ++ '}' :: z =
          b ++ selsText (⟨[], s⟩ :: l) ++ '{' :: (body ++ '}' :: (u ++ '}' :: z)) := by simp
      rw [e]
      cases ho : onlyBlanks body content with
      | true =>
        obtain ⟨h1, h2⟩ := onlyBlanks_true ho
        subst h2
        exact .blank b s l body _ hb hs hnb hl (body_blank hbody) h1
      | false =>
        cases f with
        | true => exact .inside b s l _ hb hs hnb hl (hw.2 rfl _)
        | false =>
          simp only [ho, Bool.or_self, Bool.false_or] at h
          exact .after b s l body _ content hb hs hnb hl (hw.1 rfl) (onlyBlanks_false ho) (ih.2 h z)

theorem like_append {u v : Str} (h : StartsLikeDecl u) : StartsLikeDecl (u ++ v) := by
  obtain ⟨b, k, b', t, h1, h2, h3, rfl⟩ := h
  exact ⟨b, k, b', t ++ v, h1, h2, h3, by simp⟩

theorem blank_append {w v : Str} (hw : Blank w) (hv : Blank v) : Blank (w ++ v) := by
  induction hw with
  | nil => exact hv
  | ws c w hc hw ih => exact .ws c _ hc ih
  | comment body w hb hw ih =>
    have := Blank.comment body _ hb ih
    simpa using this

theorem like_blank {w v : Str} (hw : Blank w) (h : StartsLikeDecl v) : StartsLikeDecl (w ++ v) := by
  obtain ⟨b, k, b', t, h1, h2, h3, rfl⟩ := h
  exact ⟨w ++ b, k, b', t, blank_append hw h1, h2, h3, by simp⟩

theorem endsIn_tail {x : ScopeContent} {s : Sheet} (hx : ∀ c, x ≠ .block [] c) (h : EndsIn (x :: s)) : EndsIn s := by
  obtain ⟨c, s', h⟩ := h
  cases s' with
  | nil => simp at h; exact absurd h.1 (hx c)
  | cons y s' =>
    simp only [List.cons_append, List.cons.injEq] at h
    exact ⟨c, s', h.2⟩

/-- What is left of a text that is not accepted. -/
structure Left (s : Sheet) (e : Str) : Prop where
  item : ∀ z n, (e ++ z).length ≤ n → item n (e ++ z) = none
  decl : ∀ z, ¬ StartsLikeDecl e → styleAttribute (e ++ z) = none
  head : ∀ z, (spRest (e ++ z)).head? ≠ some '}'
  some : ∀ z, spRest (e ++ z) ≠ []
  loose : EndsIn s → ¬ StartsLikeDecl e

theorem left_of_stop {e : Str} (h : ∀ z n, (e ++ z).length ≤ n → Stop n (e ++ z)) (h2 : ∀ z, spRest (e ++ z) ≠ []) : Left [] e where
  item z n hn := (h z n hn).1.1
  decl z _ := (h z _ (Nat.le_refl _)).1.2
  head z := (h z _ (Nat.le_refl _)).2
  some := h2
  loose h := by obtain ⟨c, s, h⟩ := h; simp at h

/-- The text splits into one that is well laid out and one that is not accepted. -/
def Splits (css : Str) : Prop := ∃ u e s, css = u ++ e ∧ Layout u s ∧ Left s e

theorem Splits.after {v u : Str} {x : ScopeContent} (hx : ∀ c, x ≠ .block [] c) (h : Splits u)
    (hl : ∀ u' s', Layout u' s' → Layout (v ++ u') (x :: s')) : Splits (v ++ u) := by
  obtain ⟨u', e, s, rfl, h1, h2⟩ := h
  exact ⟨v ++ u', e, x :: s, by simp, hl _ _ h1, { h2 with loose := fun h => h2.loose (endsIn_tail hx h) }⟩

theorem wide_layout {f : Bool} {css : Str} {s : Sheet} (h : WideLayout f css s) :
    (f = false → Layout css s) ∧ (f = true → Splits css) := by
  induction h with
  | nil w hw => exact ⟨fun _ => .nil w hw, by simp⟩
  | decls f ds u rest hne hok hlike hu ih =>
    refine ⟨fun h => .decls ds u rest hne hok hlike (ih.1 h), fun h => ?_⟩
    obtain ⟨u', e, s, rfl, h1, h2⟩ := ih.2 h
    refine ⟨(ds.map DeclSrc.text).flatten ++ u', e, _, by simp, .decls ds u' s hne hok (fun h => hlike (like_append h)) h1,
      { h2 with loose := fun h3 => ?_ }⟩
    cases s with
    | nil => exact fun h4 => hlike (like_blank (layout_nil h1) h4)
    | cons y s =>
      refine h2.loose ?_
      obtain ⟨c, s', h3⟩ := h3
      cases s' with
      | nil => simp at h3
      | cons z s' =>
        simp only [List.cons_append, List.cons.injEq] at h3
        exact ⟨c, s', h3.2⟩
  | block f g l body u content rest hne hok hbody hu ih =>
    have hw := wide_body hbody
    constructor
    · intro h
      simp only [Bool.or_eq_false_iff] at h
      exact .block l body u content rest hne hok (hw.1 h.1) (ih.1 h.2)
    · intro h
      cases f with
      | false =>
        simp only [Bool.false_or] at h
        refine (ih.2 h).after ?_ (fun u' s' h' => .block l body u' content s' hne hok (hw.1 rfl) h')
        intro c hc
        simp [hne] at hc
      | true =>
        have e : ∀ z, selsText l ++ c! "{" ++ body ++ c! "}" ++ u ++ z = selsText l ++ '{' :: (body ++ '}' :: (u ++ z)) := by simp
        refine ⟨[], _, [], (List.nil_append _).symm, .nil _ .nil, ?_, ?_, ?_, ?_, ?_⟩
        · intro z n hn
          rw [e] at hn ⊢
          simp only [List.length_append, List.length_cons] at hn
          exact item_block hne hok (body_stop (hw.2 rfl _) n (by simp only [List.length_append, List.length_cons]; omega))
        · intro z hl
          rw [e, show body ++ '}' :: (u ++ z) = (body ++ '}' :: u) ++ z by simp]
          refine header_decl (selsText_hi l (fun x hx => srcI_of_ok (hok x hx))) _ _ (fun h => hl ?_)
          simpa using h
        · intro z; rw [e]; exact block_head hok
        · intro z
          rw [e]
          obtain ⟨c, t, ec, -⟩ := opens_head (r := body ++ '}' :: (u ++ z)) hok
          rw [ec]; simp
        · intro h; obtain ⟨c, s, h⟩ := h; simp at h
  | rule f g a body u content rest ha hbody hu ih1 ih2 =>
    constructor
    · intro h
      simp only [Bool.or_eq_false_iff] at h
      exact .rule a body u content rest ha (ih1.1 h.1) (ih2.1 h.2)
    · intro h
      cases f with
      | false =>
        simp only [Bool.false_or] at h
        exact (ih2.2 h).after (by simp) (fun u' s' h' => .rule a body u' content s' ha (ih1.1 rfl) h')
      | true =>
        obtain ⟨u1, e1, s1, rfl, h1, h2⟩ := ih1.2 rfl
        have e : ∀ z, a.text ++ c! "{" ++ (u1 ++ e1) ++ c! "}" ++ u ++ z = a.text ++ '{' :: (u1 ++ (e1 ++ '}' :: (u ++ z))) := by simp
        refine ⟨[], _, [], (List.nil_append _).symm, .nil _ .nil, left_of_stop ?_ ?_⟩
        · intro z n hn
          rw [e] at hn ⊢
          simp only [List.length_append, List.length_cons] at hn
          obtain ⟨k, rfl⟩ : ∃ k, n = k + 1 := ⟨n - 1, by omega⟩
          exact stop_rule ha h1 (by omega) ⟨h2.item _ k (by simp only [List.length_append, List.length_cons]; omega),
            fun h => h2.decl _ (h2.loose h), h2.head _⟩
        · intro z
          rw [e]
          obtain ⟨hsp, m, hm⟩ := at_sp conditional_at ha ('{' :: (u1 ++ (e1 ++ '}' :: (u ++ z))))
          rw [hsp, hm]; simp
  | keyframes f g a body u frames rest ha hbody hu ih =>
    have hw := wide_frames hbody
    constructor
    · intro h
      simp only [Bool.or_eq_false_iff] at h
      exact .keyframes a body u frames rest ha (hw.1 h.1.2) (onlyBlanks_false h.1.1) (ih.1 h.2)
    · intro h
      have e : ∀ z, a.text ++ c! "{" ++ body ++ c! "}" ++ u ++ z = a.text ++ '{' :: (body ++ '}' :: (u ++ z)) := by simp
      have broken : (∀ z, Broken (a.text ++ '{' :: (body ++ '}' :: (u ++ z)))) →
          Splits (a.text ++ c! "{" ++ body ++ c! "}" ++ u) := fun hb =>
        ⟨[], _, [], (List.nil_append _).symm, .nil _ .nil, left_of_stop (fun z n hn => by rw [e] at hn ⊢; exact broken_stop (hb z) n hn)
          (fun z => by rw [e]; exact broken_sp (hb z))⟩
      cases ho : onlyBlanks body frames with
      | true =>
        obtain ⟨h1, h2⟩ := onlyBlanks_true ho
        subst h2
        exact broken fun z => .blank a body _ ha (frames_blank' hbody) h1
      | false =>
        cases f with
        | true => exact broken fun z => .inKeyframes a _ ha (hw.2 rfl _)
        | false =>
          simp only [ho, Bool.or_self, Bool.false_or] at h
          exact (ih.2 h).after (by simp) (fun u' s' h' => .keyframes a body u' frames s' ha (hw.1 rfl) (onlyBlanks_false ho) h')

theorem wide_parse {f : Bool} {css : Str} {s : Sheet} (h : WideLayout f css s) : parse css = if f then none else some s := by
  obtain ⟨h1, h2⟩ := wide_layout h
  cases f with
  | false => simpa using layout_parse (h1 rfl)
  | true =>
    obtain ⟨u, e, s', rfl, h3, h4⟩ := h2 rfl
    have hi := h4.item [] (u ++ e).length (by simp)
    have hd := h4.decl []
    have hs := h4.some []
    simp only [List.append_nil] at hi hd hs
    simpa using halted h3 hi (fun h => hd (h4.loose h)) hs

/-- Every layout is one of the wide ones. -/
theorem body_wide {t : Str} {content : List RBC} (h : BodyLayout t content) : WideBody false t content := by
  induction h with
  | nil w hw => exact .nil w hw
  | last d hd => exact .last d hd
  | decl d u rest hd hu ih => exact .decl _ d u rest hd ih
  | rule a body u content rest ha hbody hc hu ih1 ih2 =>
    have := WideBody.rule false false a body u content rest ha ih1 ih2
    rwa [show onlyBlanks body content = false by rcases hc with h | h <;> simp [onlyBlanks, h]] at this

theorem frames_wide {t : Str} {frames : List RBC} (h : FramesLayout t frames) : WideFrames false t frames := by
  induction h with
  | nil w hw => exact .nil w hw
  | frame b s l body u content rest hb hs hnb hl hbody hc hu ih =>
    have := WideFrames.frame false false b s l body u content rest hb hs hnb hl (body_wide hbody) ih
    rwa [show onlyBlanks body content = false by rcases hc with h | h <;> simp [onlyBlanks, h]] at this

theorem layout_wide {css : Str} {s : Sheet} (h : Layout css s) : WideLayout false css s := by
  induction h with
  | nil w hw => exact .nil w hw
  | decls ds u rest hne hok hlike hu ih => exact .decls _ ds u rest hne hok hlike ih
  | block l body u content rest hne hok hbody hu ih => exact .block false false l body u content rest hne hok (body_wide hbody) ih
  | rule a body u content rest ha hbody hu ih1 ih2 => exact .rule false false a body u content rest ha ih1 ih2
  | keyframes a body u frames rest ha hbody hc hu ih =>
    have := WideLayout.keyframes false false a body u frames rest ha (frames_wide hbody) ih
    rwa [show onlyBlanks body frames = false by rcases hc with h | h <;> simp [onlyBlanks, h]] at this

end WideP
