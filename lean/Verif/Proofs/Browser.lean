import Verif.Spec.Browser
import Verif.Proofs.Text
import Verif.Proofs.Printed

/-! # Reading generated text as a browser does -/

namespace BrowserP
open Spec GroupsP Text

/-! ## Going over texts -/

/-- The reader is not at a comment. -/
def Plain : At → Prop
  | .opening _ | .comment _ | .closing _ => False
  | _ => True

theorem plain_of_next {q q' : At} {c : Char} (h : q.next c = some q') : Plain q := by
  cases q <;> simp_all [At.next, Plain]

theorem readCss_cons {st : List Str} {acc : Str} {q : At} {c : Char} {s : Str} (hq : Plain q)
    (h1 : ¬ (q = .out 0 ∧ (c = '{' ∨ c = '}' ∨ c = ';'))) (h2 : ¬ (q.isOut = true ∧ c = '/' ∧ s.head? = some '*')) :
    readCss st acc q (c :: s) =
      match q.next c with
      | none => none
      | some q' => readCss st (acc ++ [c]) q' s := by
  have e1 : ¬ (q = .out 0 ∧ c = '{') := fun e => h1 ⟨e.1, Or.inl e.2⟩
  have e2 : ¬ (q = .out 0 ∧ c = '}') := fun e => h1 ⟨e.1, Or.inr (Or.inl e.2)⟩
  have e3 : ¬ (q = .out 0 ∧ c = ';') := fun e => h1 ⟨e.1, Or.inr (Or.inr e.2)⟩
  cases q <;> first | exact hq.elim | (rw [readCss, if_neg e1, if_neg e2, if_neg e3, if_neg h2] <;> first | rfl | (intros; contradiction))

theorem readCss_append (st : List Str) (t : Str) (ht : t.head? ≠ some '*') : ∀ (x acc : Str) (q q' : At),
    runText q x = some q' → readCss st acc q (x ++ t) = readCss st (acc ++ x) q' t
  | [], acc, q, q', h => by
    simp only [runText, Option.some.injEq] at h
    subst h; simp
  | c :: x, acc, q, q', h => by
    rw [runText] at h
    split at h
    · cases h
    rename_i h1
    split at h
    · cases h
    rename_i h2
    split at h
    · cases h
    rename_i q1 h3
    rw [List.cons_append, readCss_cons (plain_of_next h3) h1, h3]
    · dsimp only; rw [readCss_append st t ht x _ _ _ h]; simp
    · rintro ⟨a, b, e⟩
      cases x with
      | nil => exact ht e
      | cons d x => exact h2 ⟨a, b, e⟩

theorem ws_next {c : Char} (h : Str.isWhitespace c = true) (n : Nat) : At.next (.out n) c = some (.out n) := by
  simp only [At.next]
  repeat' split
  all_goals first | rfl | (exfalso; rename_i e; rcases e with rfl | rfl <;> (revert h; decide)) | (exfalso; rename_i e _; rcases e with rfl | rfl <;> (revert h; decide)) | (exfalso; rename_i e; subst e; revert h; decide)

theorem readCss_ws (st : List Str) (t : Str) : ∀ (x acc : Str), Ws x →
    readCss st acc (.out 0) (x ++ t) = readCss st (acc ++ x) (.out 0) t
  | [], acc, _ => by simp
  | c :: x, acc, h => by
    have hc : Str.isWhitespace c = true := h c (by simp)
    rw [List.cons_append, readCss_cons (q := .out 0) trivial, ws_next hc]
    · dsimp only; rw [readCss_ws st t x _ (fun d hd => h d (by simp [hd]))]; simp
    · rintro ⟨-, rfl | rfl | rfl⟩ <;> (revert hc; decide)
    · rintro ⟨-, rfl, -⟩; revert hc; decide

theorem ws_head {w t : Str} (h : Ws w) (hne : w ≠ []) : (w ++ t).head? ≠ some '*' := by
  cases w with
  | nil => exact absurd rfl hne
  | cons c w =>
    intro e
    simp only [List.cons_append, List.head?_cons, Option.some.injEq] at e
    subst e
    have := h '*' (by simp)
    revert this; decide

theorem readCss_layout : ∀ (evs : List Ev) (st st' : List Str) (obs : List Obs) (acc : Str),
    Ws acc → readEvents st evs = some (obs, st') →
    (∀ h, Ev.opn h ∈ evs → Whole h) →
    (∀ k v, Ev.decl k v ∈ evs → (Whole k ∧ ':' ∉ k) ∧ Whole v) →
    readCss st acc (.out 0) (layout st.length evs) = some (seenDecls obs, st')
  | [], st, st', obs, acc, hw, hr, _, _ => by
    simp only [readEvents, Option.some.injEq, Prod.mk.injEq] at hr
    obtain ⟨rfl, rfl⟩ := hr
    simp [layout, readCss, trim_ws hw, seenDecls]
  | .opn x :: evs, st, st', obs, acc, hw, hr, h1, h2 => by
    simp only [readEvents] at hr
    cases hr' : readEvents (st ++ [x]) evs with
    | none => simp [hr'] at hr
    | some p =>
      simp only [hr', Option.some.injEq, Prod.mk.injEq] at hr
      obtain ⟨rfl, rfl⟩ := hr
      have hx := h1 x (by simp)
      have ih := readCss_layout evs _ _ _ (c! "\n") (by decide) hr' (fun h hh => h1 h (by simp [hh]))
        (fun k v hh => h2 k v (by simp [hh]))
      simp only [layout, List.append_assoc]
      rw [readCss_ws _ _ _ _ (ws_indent _), readCss_append _ _ (by simp) _ _ _ _ hx.1]
      rw [show c! " {\n" ++ layout (st.length + 1) evs =
        c! " " ++ ('{' :: (c! "\n" ++ layout (st.length + 1) evs)) from rfl]
      rw [readCss_ws _ _ (c! " ") _ (by decide), readCss, if_pos ⟨rfl, rfl⟩]
      rotate_left
      · intros; contradiction
      · intros; contradiction
      · intros; contradiction
      rw [trim_append_ws _ (by decide), trim_ws_append _ (hw.append (ws_indent _)), hx.2]
      rw [readCss_ws _ _ (c! "\n") _ (by decide)]
      rw [List.length_append] at ih
      have : seenDecls (.enter (st ++ [x]) :: p.1) = seenDecls p.1 := rfl
      rw [this]
      exact ih
  | .cls :: evs, st, st', obs, acc, hw, hr, h1, h2 => by
    simp only [readEvents] at hr
    split at hr
    · simp at hr
    · rename_i hne
      have ih := readCss_layout evs _ _ _ (c! "\n") (by decide) hr (fun h hh => h1 h (by simp [hh]))
        (fun k v hh => h2 k v (by simp [hh]))
      simp only [layout, List.append_assoc]
      rw [readCss_ws _ _ _ _ (ws_indent _)]
      rw [show c! "}\n" ++ layout (st.length - 1) evs =
        '}' :: (c! "\n" ++ layout (st.length - 1) evs) from rfl]
      rw [readCss, if_neg (by decide), if_pos ⟨rfl, rfl⟩,
        if_pos ⟨trim_ws (hw.append (ws_indent _)), hne⟩]
      rotate_left
      · intros; contradiction
      · intros; contradiction
      · intros; contradiction
      rw [readCss_ws _ _ (c! "\n") _ (by decide)]
      rw [List.length_dropLast] at ih
      exact ih
  | .decl k v :: evs, st, st', obs, acc, hw, hr, h1, h2 => by
    simp only [readEvents] at hr
    cases hr' : readEvents st evs with
    | none => simp [hr'] at hr
    | some p =>
      simp only [hr', Option.some.injEq, Prod.mk.injEq] at hr
      obtain ⟨rfl, rfl⟩ := hr
      obtain ⟨⟨hk, hkc⟩, hv⟩ := h2 k v (by simp)
      have ih := readCss_layout evs _ _ _ (c! "\n") (by decide) hr' (fun h hh => h1 h (by simp [hh]))
        (fun k v hh => h2 k v (by simp [hh]))
      simp only [layout, List.append_assoc]
      rw [readCss_ws _ _ _ _ (ws_indent _), readCss_append _ _ (by simp) _ _ _ _ hk.1]
      rw [show ∀ t : Str, c! ": " ++ t = ':' :: (c! " " ++ t) from fun _ => rfl]
      rw [readCss_cons (q := .out 0) trivial (by decide) (by rintro ⟨-, e, -⟩; revert e; decide), show At.next (.out 0) ':' = some (.out 0) from by decide]
      dsimp only
      rw [readCss_ws _ _ (c! " ") _ (by decide), readCss_append _ _ (by simp) _ _ _ _ hv.1]
      rw [show ∀ t : Str, c! ";\n" ++ t = ';' :: (c! "\n" ++ t) from fun _ => rfl]
      rw [readCss, if_neg (by decide), if_neg (by decide), if_pos ⟨rfl, rfl⟩]
      rotate_left
      · intros; contradiction
      · intros; contradiction
      · intros; contradiction
      have hsplit : splitColon (acc ++ indent st.length ++ k ++ [':'] ++ c! " " ++ v) =
          some (acc ++ indent st.length ++ k, c! " " ++ v) := by
        have := splitColon_append (c! " " ++ v) (acc ++ indent st.length ++ k) (by
          simp only [List.mem_append, not_or]
          exact ⟨⟨colon_ws hw, colon_ws (ws_indent _)⟩, hkc⟩)
        rw [← this]; congr 1; simp
      rw [hsplit]
      dsimp only
      rw [readCss_ws _ _ (c! "\n") _ (by decide)]
      rw [show ([] : Str) ++ c! "\n" = c! "\n" from rfl, ih]
      have e1 : Str.trim (acc ++ indent st.length ++ k) = k := by
        rw [trim_ws_append _ (hw.append (ws_indent _)), hk.2]
      have e2 : Str.trim (c! " " ++ v) = v := by rw [trim_ws_append _ (by decide), hv.2]
      rw [e1, e2]; rfl

/-! ## Printed selectors are whole -/

/-- Characters without a meaning for the reader. -/
def Dull (c : Char) : Prop :=
  c ≠ '"' ∧ c ≠ '\'' ∧ c ≠ '\\' ∧ c ≠ '(' ∧ c ≠ '[' ∧ c ≠ ')' ∧ c ≠ ']' ∧ c ≠ '\n' ∧ c ≠ '{' ∧ c ≠ '}' ∧ c ≠ ';' ∧
    c ≠ '/' ∧ c ≠ '*'

instance (c : Char) : Decidable (Dull c) := by unfold Dull; infer_instance

/-- A quote that the reader is in. -/
def QuoteOk : At → Prop
  | .str q _ | .strEsc q _ => q = '"' ∨ q = '\''
  | _ => True

theorem quoteOk_next {q q' : At} {c : Char} (hq : QuoteOk q) (h : q.next c = some q') : QuoteOk q' := by
  cases q <;> simp only [At.next] at h <;> repeat' split at h
  all_goals first | (cases h; done) | (cases h; simp_all [QuoteOk])

theorem dull_next {q : At} (hq : QuoteOk q) {c d : Char} (hc : Dull c) (hd : Dull d) : q.next c = q.next d := by
  obtain ⟨a1, a2, a3, a4, a5, a6, a7, a8, -⟩ := hc
  obtain ⟨b1, b2, b3, b4, b5, b6, b7, b8, -⟩ := hd
  cases q <;> simp only [At.next]
  · simp [a1, a2, a3, a4, a5, a6, a7, b1, b2, b3, b4, b5, b6, b7]
  · simp [a8, b8]
  · rcases hq with rfl | rfl <;> simp [a1, a2, a3, a8, b1, b2, b3, b8]

theorem dull_stays {q q' : At} (hq : QuoteOk q) {c d : Char} (hc : Dull c) (hd : Dull d) (h : q.next c = some q') :
    q'.next d = some q' := by
  obtain ⟨a1, a2, a3, a4, a5, a6, a7, a8, -⟩ := hc
  obtain ⟨b1, b2, b3, b4, b5, b6, b7, b8, -⟩ := hd
  cases q <;> simp only [At.next] at h
  · simp only [a1, a2, a3, a4, a5, a6, a7, or_self, if_false, Option.some.injEq] at h
    subst h; simp [At.next, b1, b2, b3, b4, b5, b6, b7]
  · simp only [a8, if_false, Option.some.injEq] at h
    subst h; simp [At.next, b1, b2, b3, b4, b5, b6, b7]
  · rcases hq with rfl | rfl <;>
    · simp only [a1, a2, a3, a8, if_false, Option.some.injEq] at h
      subst h; simp [At.next, b1, b2, b3, b8]
  · rcases hq with rfl | rfl <;>
    · simp only [Option.some.injEq] at h
      subst h; simp [At.next, b1, b2, b3, b8]
  all_goals cases h

theorem runText_dull {q : At} {c : Char} {s : Str} (hc : Dull c) :
    runText q (c :: s) = (q.next c).bind (fun q' => runText q' s) := by
  obtain ⟨-, -, -, -, -, -, -, -, b1, b2, b3, b4, -⟩ := hc
  rw [runText, if_neg (by simp [b1, b2, b3]), if_neg (by simp [b4])]
  cases q.next c <;> rfl

theorem runText_stays {q q' : At} (hq : QuoteOk q) {c : Char} (hc : Dull c) (h : q.next c = some q') :
    ∀ (r s : Str), (∀ d ∈ r, Dull d) → runText q' (r ++ s) = runText q' s
  | [], _, _ => rfl
  | d :: r, s, hr => by
    have hd := hr d (by simp)
    rw [List.cons_append, runText_dull hd, dull_stays hq hc hd h, Option.bind_some]
    exact runText_stays hq hc h r s (fun e he => hr e (by simp [he]))

/-- Dull text counts as one dull character. -/
theorem runText_for {q : At} (hq : QuoteOk q) {r : Str} (hr : ∀ d ∈ r, Dull d) (hne : r ≠ []) (s : Str) :
    runText q (r ++ s) = (q.next '&').bind (fun q' => runText q' s) := by
  cases r with
  | nil => exact absurd rfl hne
  | cons d r =>
    have hd := hr d (by simp)
    rw [List.cons_append, runText_dull hd, dull_next hq hd (show Dull '&' by decide)]
    cases h : q.next '&' with
    | none => rfl
    | some q' =>
      simp only [Option.bind_some]
      exact runText_stays hq (show Dull '&' by decide) h r s (fun e he => hr e (by simp [he]))

theorem dull_root : ∀ d ∈ c! ":root", Dull d := by decide

theorem dull_head {r t : Str} (hr : ∀ d ∈ r, Dull d) (hne : r ≠ []) : (r ++ t).head? ≠ some '*' := by
  cases r with
  | nil => exact absurd rfl hne
  | cons d r =>
    intro e
    simp only [List.cons_append, List.head?_cons, Option.some.injEq] at e
    have := hr d (by simp)
    exact this.2.2.2.2.2.2.2.2.2.2.2.2 e

theorem runText_cons {q : At} (c : Char) {s t : Str} (hh : t.head? = some '*' ↔ s.head? = some '*')
    (h : ∀ q', q.next c = some q' → runText q' t = runText q' s) : runText q (c :: t) = runText q (c :: s) := by
  rw [runText, runText]
  split
  · rfl
  · simp only [hh]
    split
    · rfl
    · split
      · rfl
      · rename_i q' hq'
        exact h q' hq'

theorem expandAmp_star {r : Str} (hr : ∀ d ∈ r, Dull d) (hne : r ≠ []) (s : Str) :
    (expandAmp r s).head? = some '*' ↔ s.head? = some '*' := by
  cases s using expandAmp.induct with
  | case1 => rfl
  | case2 s => rw [expandAmp]; exact ⟨fun e => absurd e (dull_head hr hne), fun e => by simp at e⟩
  | case3 c s hc => rw [expandAmp]; rfl; exact hc

theorem expand_star {r : Str} (hr : ∀ d ∈ r, Dull d) (hne : r ≠ []) (s : Str) :
    (expand r s).head? = some '*' ↔ s.head? = some '*' := by
  cases s using expand.induct with
  | case1 => rfl
  | case2 s => rw [expand]; exact ⟨fun e => absurd e (dull_head hr hne), fun e => by simp at e⟩
  | case3 s => rw [expand]; exact ⟨fun e => absurd e (dull_head hr hne), fun e => by simp at e⟩
  | case4 c s hc h2 => rw [expand]; rfl; exact hc; exact h2

theorem runText_expandAmp {r : Str} (hr : ∀ d ∈ r, Dull d) (hne : r ≠ []) (s : Str) :
    ∀ q, QuoteOk q → runText q (expandAmp r s) = runText q s := by
  induction s using expandAmp.induct with
  | case1 => intro q _; rfl
  | case2 s ih =>
    intro q hq
    rw [expandAmp, runText_for hq hr hne, runText_dull (by decide)]
    cases h : q.next '&' with
    | none => rfl
    | some q' => simp only [Option.bind_some]; exact ih q' (quoteOk_next hq h)
  | case3 c s hc ih =>
    intro q hq
    rw [expandAmp]
    · exact runText_cons c (expandAmp_star hr hne s) (fun q' h => ih q' (quoteOk_next hq h))
    · exact hc

theorem runText_expand {r : Str} (hr : ∀ d ∈ r, Dull d) (hne : r ≠ []) (s : Str) :
    ∀ q, QuoteOk q → runText q (expand r s) = runText q s := by
  induction s using expand.induct with
  | case1 => intro q _; rfl
  | case2 s ih =>
    intro q hq
    rw [expand, runText_for hq hr hne, runText_dull (by decide)]
    cases h : q.next '&' with
    | none => rfl
    | some q' => simp only [Option.bind_some]; exact ih q' (quoteOk_next hq h)
  | case3 s ih =>
    intro q hq
    rw [expand, runText_for hq hr hne]
    have := runText_for hq dull_root (by decide) s
    simp only [List.cons_append, List.nil_append] at this
    rw [this]
    cases h : q.next '&' with
    | none => rfl
    | some q' => simp only [Option.bind_some]; exact ih q' (quoteOk_next hq h)
  | case4 c s hc h2 ih =>
    intro q hq
    rw [expand]
    · exact runText_cons c (expand_star hr hne s) (fun q' h => ih q' (quoteOk_next hq h))
    · exact hc
    · exact h2

theorem runText_append {t : Str} (ht : t.head? ≠ some '*') : ∀ (x : Str) {q q' : At},
    runText q x = some q' → runText q (x ++ t) = runText q' t
  | [], q, q', h => by
    simp only [runText, Option.some.injEq] at h
    subst h; rfl
  | c :: x, q, q', h => by
    rw [runText] at h
    split at h
    · cases h
    rename_i h1
    split at h
    · cases h
    rename_i h2
    split at h
    · cases h
    rename_i q1 h3
    rw [List.cons_append, runText, if_neg h1, if_neg, h3]
    · exact runText_append ht x h
    · rintro ⟨a, b, e⟩
      cases x with
      | nil => exact ht e
      | cons d x => exact h2 ⟨a, b, e⟩

theorem dull_ident {d : Char} (h : isIdentChar d = true) : Dull d := by
  unfold Dull
  refine ⟨?_, ?_, ?_, ?_, ?_, ?_, ?_, ?_, ?_, ?_, ?_, ?_, ?_⟩ <;> (rintro rfl; revert h; decide)

theorem dull_class {c : Str} (h : CleanClass c) : ∀ d ∈ '.' :: c, Dull d := by
  intro d hd
  rcases List.mem_cons.1 hd with rfl | hd
  · decide
  · exact dull_ident (h.2 d hd).1

theorem dull_current {cls : Option Str} (h : ∀ c ∈ cls, CleanClass c) : ∀ d ∈ current cls, Dull d := by
  cases cls with
  | none => exact dull_root
  | some c => exact dull_class (h c rfl)

theorem whole_current {cls : Option Str} (h : ∀ c ∈ cls, CleanClass c) : Whole (current cls) := by
  have hn := neutral_current h
  refine ⟨?_, (trim_iff _).2 ⟨hn.head, hn.last⟩⟩
  have := runText_for (q := .out 0) trivial (dull_current h) hn.ne []
  simpa [At.next, runText] using this

theorem whole_sel {cls : Option Str} (h : ∀ c ∈ cls, CleanClass c) {s : Str} (hs : Whole s) (hne : s ≠ []) :
    Whole (scopeSelector cls s) ∧ scopeSelector cls s ≠ [] := by
  obtain ⟨hh, hl⟩ := (trim_iff s).1 hs.2
  cases cls with
  | none =>
    refine ⟨⟨?_, (trim_iff _).2 ⟨expandAmp_head neutral_root s hh, expandAmp_last neutral_root s hl⟩⟩,
      fun he => hne (expandAmp_nil (by decide) he)⟩
    rw [scopeSelector, runText_expandAmp dull_root (by decide) s (.out 0) trivial]
    exact hs.1
  | some c =>
    have hn := neutral_class (h c rfl)
    have hd := dull_class (h c rfl)
    simp only [scopeSelector]
    split
    · refine ⟨⟨?_, (trim_iff _).2 ⟨expand_head hn s hh, expand_last hn s hl⟩⟩, fun he => hne (expand_nil hn.ne he)⟩
      rw [runText_expand hd hn.ne s (.out 0) trivial]
      exact hs.1
    · split
      · refine ⟨⟨?_, (trim_iff _).2 ⟨hn.head.append hn.ne _, hn.last.append hl⟩⟩, by simp⟩
        have := runText_for (q := .out 0) trivial hd hn.ne s
        rw [this]; simpa [At.next] using hs.1
      · refine ⟨⟨?_, (trim_iff _).2 ⟨hn.head.append hn.ne _, hn.last.append ?_⟩⟩, by simp⟩
        · have := runText_for (q := .out 0) trivial hd hn.ne (' ' :: s)
          rw [this]
          have := runText_dull (q := .out 0) (c := ' ') (s := s) (by decide)
          simpa [At.next, this] using hs.1
        · intro d hd
          cases s with
          | nil => exact absurd rfl hne
          | cons e t => exact hl d (by simpa [List.getLast?_cons_cons] using hd)

theorem whole_join : ∀ (l : List Str), (∀ s ∈ l, Whole s ∧ s ≠ []) → l ≠ [] →
    Whole (Str.join (c! ", ") l) ∧ Str.join (c! ", ") l ≠ []
  | [], _, h => absurd rfl h
  | [s], h, _ => h s (by simp)
  | s :: t :: l, h, _ => by
    obtain ⟨⟨h1, h2⟩, h3⟩ := h s (by simp)
    obtain ⟨⟨i1, i2⟩, i3⟩ := whole_join (t :: l) (fun x hx => h x (by simp [hx])) (by simp)
    obtain ⟨a1, a2⟩ := (trim_iff _).1 h2
    obtain ⟨b1, b2⟩ := (trim_iff _).1 i2
    rw [Str.join]
    · generalize Str.join (c! ", ") (t :: l) = u at *
      refine ⟨⟨?_, (trim_iff _).2 ⟨?_, ?_⟩⟩, by simp⟩
      · rw [List.append_assoc, runText_append (by simp) s h1]
        simp only [List.cons_append, List.nil_append]
        rw [runText_dull (by decide)]
        simp only [At.next]
        simp only [show (',' = '"' ∨ ',' = '\'') ↔ False by decide, show (',' = '\\') ↔ False by decide,
          show (',' = '(' ∨ ',' = '[') ↔ False by decide, show (',' = ')' ∨ ',' = ']') ↔ False by decide, if_false,
          Option.bind_some]
        rw [runText_dull (by decide)]
        simpa [At.next] using i1
      · rw [List.append_assoc]; exact a1.append h3 _
      · intro d hd
        rw [Option.mem_def, List.getLast?_append] at hd
        cases hl : u.getLast? with
        | none => exact absurd (List.getLast?_eq_none_iff.1 hl) i3
        | some e => rw [hl] at hd; exact b2 d (by rw [hl]; exact hd)
    · simp

theorem whole_block {cls : Option Str} (h : ∀ c ∈ cls, CleanClass c) {outer : Option Str} (ho : ∀ o ∈ outer, Whole o)
    {sels : List Selector} (hs : ∀ s ∈ sels, Whole s.flatten ∧ s.flatten ≠ []) :
    Whole (blockSelector (scopeSelector cls) (current cls) outer sels) := by
  cases sels with
  | nil =>
    cases outer with
    | none => exact whole_current h
    | some o => exact ho o rfl
  | cons s l =>
    refine (whole_join _ ?_ (by simp)).1
    intro x hx
    obtain ⟨y, hy, rfl⟩ := List.mem_map.1 hx
    exact whole_sel h (hs y hy).1 (hs y hy).2

/-! ## Sheets -/

theorem whole_append {rules : List Str} (hr : ∀ r ∈ rules, Whole r) {outer : Option Str} (ho : ∀ o ∈ outer, Whole o) :
    ∀ x ∈ rules ++ outer.toList, Whole x := by
  intro x hx
  rcases List.mem_append.1 hx with hx | hx
  · exact hr x hx
  · exact ho x (by simpa using hx)

mutual
theorem decls_whole {cls : Option Str} (h : ∀ c ∈ cls, CleanClass c) : ∀ (x : RBC) (rules : List Str)
    (outer : Option Str), WholeIn x → (∀ r ∈ rules, Whole r) → (∀ o ∈ outer, Whole o) →
    (∀ d ∈ declsIn (scopeSelector cls) (current cls) rules outer x,
      (∀ h ∈ d.path, Whole h) ∧ (Whole d.key ∧ ':' ∉ d.key) ∧ Whole d.value) ∧
    (∀ k ∈ keyframesIn (scopeSelector cls) (current cls) rules outer x, ∀ h ∈ k, Whole h)
  | .attr k v, rules, outer, hx, hr, ho => by
    rw [WholeIn] at hx
    refine ⟨?_, by simp [keyframesIn]⟩
    intro d hd
    simp only [declsIn, List.mem_singleton] at hd
    subst hd
    exact ⟨whole_append hr ho, hx.1, hx.2⟩
  | .rule c b, rules, outer, hx, hr, ho => by
    rw [WholeIn] at hx
    have hr' : ∀ r ∈ rules ++ [c.flatten], Whole r := by
      intro r hm
      rcases List.mem_append.1 hm with hm | hm
      · exact hr r hm
      · simp at hm; subst hm; exact hx.1
    obtain ⟨i1, i2⟩ := declsAll_whole h b (rules ++ [c.flatten]) outer hx.2 hr' ho
    refine ⟨by rw [declsIn]; exact i1, ?_⟩
    intro k hk
    rw [keyframesIn, List.mem_append] at hk
    rcases hk with hk | hk
    · split at hk
      · simp only [List.mem_singleton] at hk
        subst hk
        exact whole_append hr' ho
      · cases hk
    · exact i2 k hk
  | .block c b, rules, outer, hx, hr, ho => by
    rw [WholeIn] at hx
    have ho' : ∀ o ∈ some (blockSelector (scopeSelector cls) (current cls) outer c), Whole o := by
      intro o hm
      cases hm
      exact whole_block h ho hx.1
    obtain ⟨i1, i2⟩ := declsAll_whole h b rules _ hx.2 hr ho'
    exact ⟨by rw [declsIn]; exact i1, by rw [keyframesIn]; exact i2⟩
theorem declsAll_whole {cls : Option Str} (h : ∀ c ∈ cls, CleanClass c) : ∀ (xs : List RBC) (rules : List Str)
    (outer : Option Str), WholeAll xs → (∀ r ∈ rules, Whole r) → (∀ o ∈ outer, Whole o) →
    (∀ d ∈ declsInAll (scopeSelector cls) (current cls) rules outer xs,
      (∀ h ∈ d.path, Whole h) ∧ (Whole d.key ∧ ':' ∉ d.key) ∧ Whole d.value) ∧
    (∀ k ∈ keyframesInAll (scopeSelector cls) (current cls) rules outer xs, ∀ h ∈ k, Whole h)
  | [], rules, outer, _, _, _ => by simp [declsInAll, keyframesInAll]
  | x :: xs, rules, outer, hx, hr, ho => by
    rw [WholeAll] at hx
    obtain ⟨i1, i2⟩ := decls_whole h x rules outer hx.1 hr ho
    obtain ⟨j1, j2⟩ := declsAll_whole h xs rules outer hx.2 hr ho
    refine ⟨?_, ?_⟩
    · intro d hd
      rw [declsInAll, List.mem_append] at hd
      exact hd.elim (i1 d) (j1 d)
    · intro d hd
      rw [keyframesInAll, List.mem_append] at hd
      exact hd.elim (i2 d) (j2 d)
end

theorem browser_reads (s : Sheet) (cls : Option Str) (hcls : ∀ c ∈ cls, CleanClass c) (hs : WholeSheet s) :
    browserReads (s.toStyleStr cls) = some (decls cls s) := by
  have hc : ∀ c ∈ cls, ':' ∉ c := fun c hm => class_colon (hcls c hm)
  obtain ⟨evs, obs, h1, h2, h3⟩ := Text.sheet_spec s cls hc
  obtain ⟨hd, hk⟩ := declsAll_whole hcls (s.map ScopeContent.toRBC) [] none hs (by simp) (by simp)
  obtain ⟨h4, h5⟩ := Text.strings_of_seen (P := Whole) (Q := fun k => Whole k ∧ ':' ∉ k) (R := Whole) h2 h3 hd hk
  have := readCss_layout evs [] [] obs [] (by decide) h2 h4 h5
  rw [List.length_nil, ← h1] at this
  rw [browserReads, this, h3.decls]

end BrowserP
