import Verif.Spec.Readable
import Verif.Proofs.Grammar
import Verif.Proofs.Layout
import Verif.Proofs.Filled

/-! # Values, selectors and conditions that are read as they are written -/

namespace ReadableP
open Nom NomP Css ParserP LexP ShapeP GrammarP DeclsP HeadersP ReparseP LayoutP Spec

variable {α β : Type}

/-! ## Blanks -/

theorem spRest_of_noBlanks {i : Str} (h : NoBlanks i) : spRest i = i := by
  obtain ⟨b, hb, e⟩ := spRest_text i
  have := h b _ hb e
  subst this
  exact e.symm

theorem spRest_le (i : Str) : (spRest i).length ≤ i.length := by
  obtain ⟨b, -, e⟩ := spRest_text i
  have := congrArg List.length e
  rw [List.length_append] at this
  omega

theorem noBlanks_of_spRest {i : Str} (h : spRest i = i) : NoBlanks i := by
  intro b t hb e
  have h1 : spRest i = spRest t := by rw [e, spRest_blank hb]
  have h2 := spRest_le t
  rw [← h1, h, e, List.length_append] at h2
  exact List.length_eq_zero_iff.1 (by omega)

theorem noBlanks_sp (i : Str) : NoBlanks (spRest i) := noBlanks_of_spRest (spRest_idem i)

theorem NoBlanks.prefix {s r : Str} (h : NoBlanks (s ++ r)) : NoBlanks s := by
  intro b t hb e
  exact h b (t ++ r) hb (by rw [e, List.append_assoc])

/-- A blank that goes over a brace is a comment, and is closed after it. -/
theorem blank_over {b : Str} (hb : Blank b) : ∀ {s y : Str}, b = s ++ '{' :: y → '/' ∈ y := by
  induction hb with
  | nil => intro s y e; simp at e
  | ws c w hc _ ih =>
    intro s y e
    cases s with
    | nil => simp only [List.nil_append, List.cons.injEq] at e; rw [e.1] at hc; exact absurd hc (by decide)
    | cons d s => simp only [List.cons_append, List.cons.injEq] at e; exact ih e.2
  | comment body w hn _ ih =>
    intro s y e
    have e' : (c! "/*" ++ body ++ c! "*/") ++ w = s ++ '{' :: y := by rw [← e]
    rcases List.append_eq_append_iff.1 e' with ⟨a, h1, h2⟩ | ⟨a, h1, h2⟩
    · exact ih h2
    · cases a with
      | nil => exact ih (s := []) h2.symm
      | cons d a =>
        simp only [List.cons_append, List.cons.injEq] at h2
        rw [h2.2]
        have h3 : c! "/*" ++ body ++ ['*'] ++ ['/'] = s ++ d :: a := by rw [← h1]; simp
        cases ha : a.reverse with
        | nil =>
          obtain rfl : a = [] := by simpa using ha
          have := (List.append_inj' h3 rfl).2
          simp only [List.cons.injEq, and_true] at this
          rw [← this] at h2
          exact absurd h2.1 (by decide)
        | cons x z =>
          have e2 : a = z.reverse ++ [x] := by
            have := congrArg List.reverse ha
            simpa using this
          rw [e2] at h3 ⊢
          have h4 : c! "/*" ++ body ++ ['*'] ++ ['/'] = (s ++ d :: z.reverse) ++ [x] := by rw [h3]; simp
          have := (List.append_inj' h4 rfl).2
          simp only [List.cons.injEq, and_true] at this
          rw [← this]
          simp

theorem noBlanks_append {s y : Str} (h : NoBlanks s) (hy : '/' ∉ y) : NoBlanks (s ++ '{' :: y) := by
  intro b t hb e
  rcases List.append_eq_append_iff.1 e with ⟨a, h1, h2⟩ | ⟨a, h1, h2⟩
  · cases a with
    | nil => exact h b [] hb (by simp [h1])
    | cons d a =>
      simp only [List.cons_append, List.cons.injEq] at h2
      rw [← h2.1] at h1
      have := blank_over hb h1
      exact absurd (by rw [h2.2]; simp [this]) hy
  · exact h b a hb h1

/-! ## Placeholders -/

/-- The characters of names after the first. -/
def namePiece : Parser Str := alt alphanumeric1 (tag (c! "_"))

theorem suff_namePiece : Suff namePiece := suff_alt (suff_takeWhile1 _) (suff_tag _)
theorem prog_namePiece : Prog namePiece := prog_alt (prog_takeWhile1 _) (prog_tag (by simp))

theorem rest0_name_cons {c : Char} (h : isAlnum c = true ∨ c = '_') (i : Str) :
    rest0 namePiece (c :: i) = rest0 namePiece i := by
  rcases h with h | rfl
  · refine rest0_run suff_namePiece prog_namePiece (f := isAlnum) ?_ h i
    intro d j hd
    obtain ⟨a, ha⟩ := takeWhile1_run hd j
    exact ⟨a, alt_some.2 (Or.inl ha)⟩
  · exact rest0_step suff_namePiece prog_namePiece
      (alt_some.2 (Or.inr ⟨takeWhile1_fail (by decide) _, tag_append (c! "_") i⟩))

theorem name_char {d : Char} (h : isLetter d = true ∨ ('0' ≤ d ∧ d ≤ '9') ∨ d = '_') :
    isAlnum d = true ∨ d = '_' := by
  rcases h with h | h | h
  · exact Or.inl (by simp [isAlnum, isLetter_eq, h])
  · exact Or.inl (by simp [isAlnum, h.1, h.2])
  · exact Or.inr h

theorem rest0_name {t r : Str} (ht : ∀ d ∈ t, isAlnum d = true ∨ d = '_')
    (hr : ∀ c ∈ r.head?, isAlnum c = false ∧ c ≠ '_') : rest0 namePiece (t ++ r) = r := by
  induction t with
  | nil =>
    refine rest0_stop suff_namePiece ?_
    cases r with
    | nil => rfl
    | cons c r =>
      have := hr c (by simp)
      exact alt_none.2 ⟨takeWhile1_fail this.1 _, tag_fail this.2 _⟩
  | cons c t ih =>
    rw [List.cons_append, rest0_name_cons (ht c (by simp)), ih (fun d hd => ht d (by simp [hd]))]

theorem interpolation_read {t : Str} (h : Placeholder t) (w : Str) :
    ∃ a, interpolation (t ++ w) = some (spRest w, a) := by
  obtain ⟨b1, c, name, b2, hb1, hb2, hc, hn, rfl⟩ := h
  have hletter : c ∉ (c! " \t\r\n") ∧ c ≠ '/' := by
    constructor
    · intro h
      simp only [List.mem_cons, List.not_mem_nil, or_false] at h
      rcases h with rfl | rfl | rfl | rfl <;> revert hc <;> decide
    · rintro rfl; revert hc; decide
  have hend : ∀ d ∈ (b2 ++ '}' :: w).head?, isAlnum d = false ∧ d ≠ '_' := by
    cases hb2 with
    | nil => intro d hd; simp at hd; subst hd; decide
    | ws x v hx _ =>
      intro d hd; simp at hd; subst hd
      simp only [List.mem_cons, List.not_mem_nil, or_false] at hx
      rcases hx with rfl | rfl | rfl | rfl <;> decide
    | comment body v _ _ => intro d hd; simp at hd; subst hd; decide
  have hrest := rest0_name (t := name) (fun d hd => name_char (hn d hd)) hend
  have hca : isAlnum c = true := by simp [isAlnum, isLetter_eq, hc]
  obtain ⟨a, hrun⟩ := takeWhile1_run (f := isAlpha) (c := c) hc (name ++ (b2 ++ '}' :: w))
  have hr2 : rest0 namePiece ((c :: (name ++ (b2 ++ '}' :: w))).dropWhile isAlpha) = b2 ++ '}' :: w := by
    rw [rest0_dropWhile (fun d i hd => rest0_name_cons (Or.inl (alpha_alnum hd)) i), rest0_name_cons (Or.inl hca)]
    exact hrest
  obtain ⟨as, h3⟩ := many0_rest0 suff_namePiece prog_namePiece ((c :: (name ++ (b2 ++ '}' :: w))).dropWhile isAlpha)
  rw [hr2] at h3
  have hname : recognize (preceded alpha1 (many0 (alt alphanumeric1 (tag (c! "_")))))
      ((c :: name) ++ (b2 ++ '}' :: w)) = some (b2 ++ '}' :: w, c :: name) :=
    recognize_append (preceded_some.2 ⟨_, a, hrun, h3⟩)
  have htr : trimmed (recognize (preceded alpha1 (many0 (alt alphanumeric1 (tag (c! "_"))))))
      (b1 ++ ((c :: name) ++ (b2 ++ '}' :: w))) = some ('}' :: w, c :: name) := by
    refine trimmed_some.2 ⟨b2 ++ '}' :: w, ?_, ?_⟩
    · rw [spRest_blank hb1, List.cons_append, spRest_nonblank hletter.1 hletter.2, ← List.cons_append]
      exact hname
    · rw [spRest_blank hb2, spRest_nonblank (by simp) (by simp)]
  refine ⟨c :: name, trimmed_some.2 ⟨w, ?_, rfl⟩⟩
  have e : c! "${" ++ b1 ++ c :: name ++ b2 ++ c! "}" ++ w =
      c! "${" ++ (b1 ++ ((c :: name) ++ (b2 ++ '}' :: w))) := by simp
  rw [e]
  have e2 : spRest (c! "${" ++ (b1 ++ ((c :: name) ++ (b2 ++ '}' :: w)))) =
      c! "${" ++ (b1 ++ ((c :: name) ++ (b2 ++ '}' :: w))) := spRest_nonblank (by simp) (by simp) _
  rw [e2]
  exact nonEmpty_some.2 ⟨by simp, delimited_some.2 ⟨_, _, _, _, tag_append _ _, htr, tag_append (c! "}") w⟩⟩

theorem placeholder_cons {t : Str} (h : Placeholder t) : ∃ u, t = '$' :: u := by
  obtain ⟨b1, c, name, b2, -, -, -, -, rfl⟩ := h
  exact ⟨_, rfl⟩

theorem interpolation_sp {i j : Str} (h : spRest i = spRest j) : interpolation i = interpolation j :=
  trimmed_eq_of_spRest h

theorem string_sp {i j : Str} (h : spRest i = spRest j) : Css.string i = Css.string j :=
  trimmed_eq_of_spRest h

/-! ## Values -/

/-- A string or a placeholder in a value, after blanks. -/
theorem value_after {Q r : Str} (hQ : spRest Q = Q)
    (h1 : ∀ i, spRest i = Q → (isNot (c! "${;}/\"") i = none → ∃ a, valuePiece i = some (r, a)))
    (h0 : isNot (c! "${;}/\"") Q = none) {b : Str} (hb : Blank b) :
    rest0 valuePiece (b ++ Q) = rest0 valuePiece r ∧ ∃ x, valuePiece (b ++ Q) = some x := by
  have hw : ∀ {c : Char}, c ∈ (c! " \t\r\n") → c ∉ (c! "${;}/\"") := by
    intro c h
    simp only [List.mem_cons, List.not_mem_nil, or_false] at h
    rcases h with rfl | rfl | rfl | rfl <;> decide
  induction hb with
  | nil =>
    obtain ⟨a, ha⟩ := h1 Q hQ h0
    exact ⟨rest0_step suff_valuePiece prog_valuePiece ha, _, ha⟩
  | ws c w hc _ ih =>
    refine ⟨(rest0_value_char (hw hc) _).trans ih.1, ?_⟩
    obtain ⟨a, ha⟩ := isNot_run (hw hc) (w ++ Q)
    exact ⟨_, alt_some.2 (Or.inl ha)⟩
  | comment body w hn hb _ =>
    have hs : spRest ((c! "/*" ++ body ++ c! "*/" ++ w) ++ Q) = Q := by
      rw [spRest_blank (.comment body w hn hb), hQ]
    obtain ⟨a, ha⟩ := h1 _ hs (isNot_fail (by simp) _)
    exact ⟨rest0_step suff_valuePiece prog_valuePiece ha, _, ha⟩

theorem value_string {body w : Str} (hb : StrBody body) :
    spRest ('"' :: (body ++ '"' :: w)) = '"' :: (body ++ '"' :: w) ∧
    ∀ i, spRest i = '"' :: (body ++ '"' :: w) → isNot (c! "${;}/\"") i = none → ∃ a, valuePiece i = some (spRest w, a) := by
  have hsp : spRest ('"' :: (body ++ '"' :: w)) = '"' :: (body ++ '"' :: w) := spRest_nonblank (by simp) (by simp) _
  refine ⟨hsp, fun i hi h0 => ?_⟩
  obtain ⟨t, ht⟩ := string_read hb w
  have h2 : Css.string i = some (spRest w, t) := by
    rw [string_sp (j := '"' :: (body ++ '"' :: w)) (by rw [hsp, hi])]
    exact ht
  exact ⟨t, alt_some.2 (Or.inr ⟨h0, alt_some.2 (Or.inr ⟨recognize_none.2 (interpolation_fail (by rw [hi]; simp)),
    alt_some.2 (Or.inl h2)⟩)⟩)⟩

theorem value_placeholder {t w : Str} (ht : Placeholder t) :
    spRest (t ++ w) = t ++ w ∧
    ∀ i, spRest i = t ++ w → isNot (c! "${;}/\"") i = none → ∃ a, valuePiece i = some (spRest w, a) := by
  obtain ⟨u, hu⟩ := placeholder_cons ht
  have hsp : spRest (t ++ w) = t ++ w := by rw [hu]; exact spRest_nonblank (by simp) (by simp) _
  refine ⟨hsp, fun i hi h0 => ?_⟩
  obtain ⟨a, ha⟩ := interpolation_read ht w
  have h2 : interpolation i = some (spRest w, a) := by
    rw [interpolation_sp (j := t ++ w) (by rw [hsp, hi])]
    exact ha
  exact ⟨_, alt_some.2 (Or.inr ⟨h0, alt_some.2 (Or.inl (recognize_some.2 ⟨a, h2, rfl⟩))⟩)⟩

theorem readable_start {v : Str} (hv : ReadableValue v) (r : Str) (hr : EndsValue r) :
    (rest0 valuePiece (v ++ r) = r ∧ rest0 valuePiece (spRest (v ++ r)) = r) ∧
    (v ≠ [] → ∃ x, valuePiece (v ++ r) = some x) := by
  induction hv with
  | nil =>
    refine ⟨?_, fun h => absurd rfl h⟩
    rw [List.nil_append, spRest_endsValue hr]
    exact ⟨rest0_stop suff_valuePiece (valuePiece_end hr), rest0_stop suff_valuePiece (valuePiece_end hr)⟩
  | char c s hc _ ih =>
    rw [List.cons_append]
    refine ⟨?_, fun _ => ?_⟩
    · have h1 : rest0 valuePiece (c :: (s ++ r)) = r := (rest0_value_char hc _).trans ih.1.1
      refine ⟨h1, ?_⟩
      by_cases hw : c ∈ (c! " \t\r\n")
      · rw [spRest_ws (by simpa using hw)]
        exact ih.1.2
      · rw [spRest_nonblank hw (by rintro rfl; simp at hc)]
        exact h1
    · obtain ⟨a, ha⟩ := isNot_run hc (s ++ r)
      exact ⟨_, alt_some.2 (Or.inl ha)⟩
  | slash c s hc _ ih =>
    rw [List.cons_append, List.cons_append]
    have hne : c ≠ '*' := by rintro rfl; simp at hc
    have hsp := spRest_slash hne (s ++ r)
    have hp : valuePiece ('/' :: c :: (s ++ r)) = some (s ++ r, ['/', c]) := by
      refine alt_some.2 (Or.inr ⟨isNot_fail (by simp) _, alt_some.2 (Or.inr
        ⟨recognize_none.2 (interpolation_fail ?_), alt_some.2 (Or.inr ⟨string_fail ?_, ?_⟩)⟩)⟩)
      · rw [hsp]; simp
      · rw [hsp]; simp
      · exact recognize_append (t := ['/', c]) (a := c) (preceded_some.2
          ⟨c :: (s ++ r), c! "/", tag_append (c! "/") _, noneOf_some.2 ⟨rfl, hc⟩⟩)
    rw [hsp]
    have h1 := (rest0_step suff_valuePiece prog_valuePiece hp).trans ih.1.1
    exact ⟨⟨h1, h1⟩, fun _ => ⟨_, hp⟩⟩
  | str b body b' s hb hbody hb' _ ih =>
    have e : b ++ '"' :: (body ++ '"' :: (b' ++ s)) ++ r = b ++ ('"' :: (body ++ '"' :: (b' ++ (s ++ r)))) := by simp
    rw [e]
    obtain ⟨h1, h2⟩ := value_string (w := b' ++ (s ++ r)) hbody
    obtain ⟨h3, h4⟩ := value_after h1 h2 (isNot_fail (by simp) _) hb
    obtain ⟨h5, -⟩ := value_after h1 h2 (isNot_fail (by simp) _) .nil
    have h6 : rest0 valuePiece (spRest (b' ++ (s ++ r))) = r := by rw [spRest_blank hb']; exact ih.1.2
    refine ⟨⟨h3.trans h6, ?_⟩, fun _ => h4⟩
    rw [spRest_blank hb, h1]
    exact h5.trans h6
  | placeholder b t b' s hb ht hb' _ ih =>
    have e : b ++ (t ++ (b' ++ s)) ++ r = b ++ (t ++ (b' ++ (s ++ r))) := by simp
    rw [e]
    obtain ⟨h1, h2⟩ := value_placeholder (w := b' ++ (s ++ r)) ht
    have h0 : isNot (c! "${;}/\"") (t ++ (b' ++ (s ++ r))) = none := by
      obtain ⟨u, rfl⟩ := placeholder_cons ht
      exact isNot_fail (by simp) _
    obtain ⟨h3, h4⟩ := value_after h1 h2 h0 hb
    obtain ⟨h5, -⟩ := value_after h1 h2 h0 .nil
    have h6 : rest0 valuePiece (spRest (b' ++ (s ++ r))) = r := by rw [spRest_blank hb']; exact ih.1.2
    refine ⟨⟨h3.trans h6, ?_⟩, fun _ => h4⟩
    rw [spRest_blank hb, h1]
    exact h5.trans h6

/-- What is read as a value is readable. -/
theorem readable_follows : Follows (recognize (many1 valuePiece))
    (fun t a => a = t ∧ ReadableValue t ∧ t ≠ []) := by
  intro i r a h
  have hp := prog_recognize (prog_many1 suff_valuePiece prog_valuePiece) _ _ _ h
  obtain ⟨as, h1, rfl⟩ := recognize_some.1 h
  obtain ⟨t, e, ht⟩ := many1_follows suff_valuePiece (G := fun t _ => Extends ReadableValue t)
    (M := fun t _ => ReadableValue t) (by
      intro i r a h
      rcases alt_some.1 h with h | ⟨-, h⟩
      · obtain ⟨t, e, ht⟩ := takeWhile1_text h
        refine ⟨t, e, ?_⟩
        clear e h
        intro u hu
        induction t with
        | nil => exact hu
        | cons c t ih =>
          refine .char c _ ?_ (ih fun d hd => ht d (by simp [hd]))
          simpa using ht c (by simp)
      rcases alt_some.1 h with h | ⟨-, h⟩
      · obtain ⟨x, h2, -⟩ := recognize_some.1 h
        obtain ⟨t, e, b, b', u, hb, hb', hu, rfl⟩ := interpolation_follows _ _ _ h2
        refine ⟨_, e, fun w hw => ?_⟩
        have := ReadableValue.placeholder b u b' w hb hu hb' hw
        simpa [List.append_assoc] using this
      rcases alt_some.1 h with h | ⟨-, h⟩
      · obtain ⟨t, e, b, b', u, hb, hb', hu, rfl⟩ := string_follows _ _ _ h
        refine ⟨_, e, fun w hw => ?_⟩
        have := ReadableValue.str b u b' w hb hu hb' hw
        simpa [List.append_assoc] using this
      · obtain ⟨x, h2, -⟩ := recognize_some.1 h
        obtain ⟨r1, y, h3, h4⟩ := preceded_some.1 h2
        obtain ⟨rfl, -⟩ := tag_some.1 h3
        obtain ⟨rfl, h5⟩ := noneOf_some.1 h4
        exact ⟨['/', x], rfl, fun u hu => .slash x u (by simpa using h5) hu⟩)
    .nil (fun t u a as h1 h2 => h1 u h2) _ _ _ h1
  refine ⟨t, e, ?_, ht, ?_⟩
  · rw [e, take_text]
  · rintro rfl
    rw [e] at hp
    simp at hp

/-! ## Selectors -/

theorem selector_head {s : Str} (h : ReadableSelector s) : ∀ c ∈ s.head?, c ∉ (c! ",}@{") := by
  cases h with
  | nil => simp
  | run c s u hc _ _ _ =>
    intro d hd
    simp only [List.head?_cons, Option.mem_def, Option.some.injEq] at hd
    subst hd
    simp only [List.mem_cons, List.not_mem_nil, or_false] at hc ⊢
    grind
  | str body b s _ _ _ _ => intro d hd; simp at hd; subst hd; decide
  | placeholder t b s ht _ _ _ =>
    obtain ⟨u, rfl⟩ := placeholder_cons ht
    intro d hd; simp at hd; subst hd; decide

theorem selectorPiece_string {body w : Str} (hb : StrBody body) :
    ∃ a, selectorPiece ('"' :: (body ++ '"' :: w)) = some (spRest w, a) := by
  obtain ⟨t, ht⟩ := string_read hb w
  refine ⟨t, alt_some.2 (Or.inr ⟨recognize_none.2 ?_, alt_some.2 (Or.inl ht)⟩)⟩
  cases hx : preceded _ _ ('"' :: (body ++ '"' :: w)) with
  | none => rfl
  | some x =>
    obtain ⟨_, _, h1, -⟩ := preceded_some.1 (show _ = some (x.1, x.2) from hx)
    obtain ⟨h2, h3⟩ := noneOf_some.1 h1
    simp only [List.cons.injEq] at h2
    rw [← h2.1] at h3
    simp at h3

theorem selectorPiece_placeholder {t w : Str} (ht : Placeholder t) :
    ∃ a, selectorPiece (t ++ w) = some (spRest w, a) := by
  obtain ⟨a, ha⟩ := interpolation_read ht w
  obtain ⟨u, rfl⟩ := placeholder_cons ht
  have hsp : spRest ('$' :: u ++ w) = '$' :: u ++ w := spRest_nonblank (by simp) (by simp) _
  refine ⟨_, alt_some.2 (Or.inr ⟨recognize_none.2 ?_, alt_some.2 (Or.inr ⟨string_fail (by rw [hsp]; simp),
    recognize_some.2 ⟨a, ha, rfl⟩⟩)⟩)⟩
  cases hx : preceded _ _ ('$' :: u ++ w) with
  | none => rfl
  | some x =>
    obtain ⟨_, _, h1, -⟩ := preceded_some.1 (show _ = some (x.1, x.2) from hx)
    obtain ⟨h2, h3⟩ := noneOf_some.1 h1
    simp only [List.cons_append, List.cons.injEq] at h2
    rw [← h2.1] at h3
    simp at h3

theorem dropWhile_run {f : Char → Bool} {s r : Str} (hs : ∀ d ∈ s, f d = true) (hr : ∀ d ∈ r.head?, f d = false) :
    (s ++ r).dropWhile f = r := by
  induction s with
  | nil =>
    cases r with
    | nil => rfl
    | cons c r => rw [List.nil_append, List.dropWhile_cons, if_neg (by simp [hr c (by simp)])]
  | cons c s ih =>
    rw [List.cons_append, List.dropWhile_cons, if_pos (hs c (by simp)), ih (fun d hd => hs d (by simp [hd]))]

theorem readableSel_start {s : Str} (hs : ReadableSelector s) {y : Str} (hy : '/' ∉ y) :
    rest0 selectorPiece (s ++ '{' :: y) = '{' :: y ∧ (s ≠ [] → ∃ x, selectorPiece (s ++ '{' :: y) = some x) := by
  induction hs with
  | nil =>
    exact ⟨rest0_stop suff_selectorPiece (selectorPiece_fail (by simp) (by simp) y), fun h => absurd rfl h⟩
  | run c s u hc hs hu _ ih =>
    obtain ⟨a, ha⟩ := selectorPiece_char hc (s ++ (u ++ '{' :: y))
    rw [dropWhile_run (fun d hd => elem_false (hs d hd)) (by
      intro d hd
      have : d = '{' ∨ d = '$' ∨ d = '"' := by
        cases u with
        | nil => simp at hd; exact Or.inl hd.symm
        | cons x u => exact Or.inr (hu d (by simpa using hd))
      rcases this with rfl | rfl | rfl <;> decide)] at ha
    have e : c :: (s ++ u) ++ '{' :: y = c :: (s ++ (u ++ '{' :: y)) := by simp
    rw [e]
    exact ⟨(rest0_step suff_selectorPiece prog_selectorPiece ha).trans ih.1, fun _ => ⟨_, ha⟩⟩
  | str body b s hbody hb hn _ ih =>
    obtain ⟨a, ha⟩ := selectorPiece_string (w := b ++ (s ++ '{' :: y)) hbody
    rw [spRest_blank hb, spRest_of_noBlanks (noBlanks_append hn hy)] at ha
    have e : '"' :: (body ++ '"' :: (b ++ s)) ++ '{' :: y = '"' :: (body ++ '"' :: (b ++ (s ++ '{' :: y))) := by simp
    rw [e]
    exact ⟨(rest0_step suff_selectorPiece prog_selectorPiece ha).trans ih.1, fun _ => ⟨_, ha⟩⟩
  | placeholder t b s ht hb hn _ ih =>
    obtain ⟨a, ha⟩ := selectorPiece_placeholder (w := b ++ (s ++ '{' :: y)) ht
    rw [spRest_blank hb, spRest_of_noBlanks (noBlanks_append hn hy)] at ha
    have e : t ++ (b ++ s) ++ '{' :: y = t ++ (b ++ (s ++ '{' :: y)) := by simp
    rw [e]
    exact ⟨(rest0_step suff_selectorPiece prog_selectorPiece ha).trans ih.1, fun _ => ⟨_, ha⟩⟩

/-- Blanks begin with white space or with a slash. -/
theorem blank_head {b : Str} (hb : Blank b) : ∀ c ∈ b.head?, c ∈ (c! " \t\r\n/") := by
  cases hb with
  | nil => simp
  | ws c w hc _ => intro d hd; simp at hd; subst hd; simp at hc ⊢; grind
  | comment body w _ _ => intro d hd; simp at hd; subst hd; decide

theorem selectorRun_none {c : Char} {i : Str}
    (h : recognize (preceded (noneOf (c! "$,}@{\"")) (opt (isNot (c! "$,\"{")))) (c :: i) = none) :
    c ∈ (c! "$,}@{\"") := by
  by_cases hc : c ∈ (c! "$,}@{\"")
  · exact hc
  · exfalso
    rw [recognize_none] at h
    have h2 : noneOf (c! "$,}@{\"") (c :: i) = some (i, c) := noneOf_some.2 ⟨rfl, hc⟩
    cases ho : opt (isNot (c! "$,\"{")) i with
    | none => unfold opt at ho; split at ho <;> cases ho
    | some x =>
      have := preceded_some.2 ⟨i, c, h2, (show _ = some (x.1, x.2) from ho)⟩
      rw [h] at this; cases this

theorem no_blank_before {b w : Str} (hb : Blank b)
    (h : recognize (preceded (noneOf (c! "$,}@{\"")) (opt (isNot (c! "$,\"{")))) (b ++ w) = none) : b = [] := by
  cases hb' : b with
  | nil => rfl
  | cons c t =>
    exfalso
    have h1 := blank_head hb c (by rw [hb']; simp)
    rw [hb', List.cons_append] at h
    have h2 := selectorRun_none h
    simp only [List.mem_cons, List.not_mem_nil, or_false] at h1 h2
    grind

theorem selectorPiece_follows {i r : Str} {a : Str} (h : selectorPiece i = some (r, a)) :
    ∃ t, i = t ++ r ∧ ∀ u v, r = u ++ v → ReadableSelector u → ReadableSelector (t ++ u) := by
  rcases alt_some.1 h with h | ⟨hn, h⟩
  · obtain ⟨x, h2, -⟩ := recognize_some.1 h
    obtain ⟨r1, y, h3, h4⟩ := preceded_some.1 h2
    obtain ⟨rfl, h5⟩ := noneOf_some.1 h3
    have key : ∃ t, r1 = t ++ r ∧ (∀ d ∈ t, d ∉ (c! "$,\"{")) ∧ ∀ d ∈ r.head?, d ∈ (c! "$,\"{") := by
      rcases opt_some.1 h4 with ⟨h6, e6, -⟩ | ⟨z, h6, -⟩
      · subst e6
        refine ⟨[], rfl, by simp, ?_⟩
        have := takeWhile1_none.1 h6
        cases r with
        | nil => simp
        | cons c r =>
          intro d hd
          simp only [List.head?_cons, Option.mem_def, Option.some.injEq] at hd
          subst hd
          rw [List.takeWhile_cons] at this
          split at this
          · cases this
          · rename_i hc; simp at hc ⊢; grind
      · obtain ⟨t, e, ht⟩ := takeWhile1_text h6
        obtain ⟨-, hr, -⟩ := takeWhile1_some.1 h6
        refine ⟨t, e, fun d hd => by simpa using ht d hd, ?_⟩
        intro d hd
        rw [hr] at hd
        have := List.head?_dropWhile_not (fun c => !(c! "$,\"{").elem c) r1
        rw [Option.mem_def] at hd
        rw [hd] at this
        simp at this ⊢; grind
    obtain ⟨t, e, ht, hr⟩ := key
    refine ⟨y :: t, by rw [e]; rfl, fun u v e' hu => ?_⟩
    refine .run y t u (by simpa using h5) ht ?_ hu
    intro d hd
    have h6 := selector_head hu d hd
    have h7 := hr d (by
      rw [e']
      cases u with
      | nil => simp at hd
      | cons x u => simpa using hd)
    simp only [List.mem_cons, List.not_mem_nil, or_false] at h6 h7
    grind
  rcases alt_some.1 h with h | ⟨-, h⟩
  · obtain ⟨w, -, hr⟩ := trimmed_some.1 h
    obtain ⟨t, e, b, b', u, hb, hb', hu, rfl⟩ := string_follows _ _ _ h
    rw [e, List.append_assoc] at hn
    obtain rfl := no_blank_before hb hn
    refine ⟨_, e, fun w v e' hw => ?_⟩
    have hnb : NoBlanks w := NoBlanks.prefix (r := v) (by rw [← e', hr]; exact noBlanks_sp _)
    have := ReadableSelector.str u b' w hu hb' hnb hw
    simpa [List.append_assoc] using this
  · obtain ⟨x, h2, -⟩ := recognize_some.1 h
    obtain ⟨w, -, hr⟩ := trimmed_some.1 h2
    obtain ⟨t, e, b, b', u, hb, hb', hu, rfl⟩ := interpolation_follows _ _ _ h2
    rw [e, List.append_assoc] at hn
    obtain rfl := no_blank_before hb hn
    refine ⟨_, e, fun w v e' hw => ?_⟩
    have hnb : NoBlanks w := NoBlanks.prefix (r := v) (by rw [← e', hr]; exact noBlanks_sp _)
    have := ReadableSelector.placeholder u b' w hu hb' hnb hw
    simpa [List.append_assoc] using this

/-- A loop over pieces, each of which may look at what follows. -/
theorem many0_look {p : Parser α} (hp : Suff p) {R : Str → Prop} (h0 : R [])
    (h : ∀ i r a, p i = some (r, a) → ∃ t, i = t ++ r ∧ ∀ u v, r = u ++ v → R u → R (t ++ u)) {i r : Str} {as : List α}
    (hm : many0 p i = some (r, as)) : ∃ t, i = t ++ r ∧ R t := by
  generalize hl : i.length = n
  induction n using Nat.strongRecOn generalizing i r as with
  | ind n ih =>
    rw [many0_unfold hp] at hm
    split at hm
    · simp at hm
      exact ⟨[], by simp [hm.1], h0⟩
    · rename_i r1 a h1
      split at hm
      · simp at hm
      · split at hm
        · simp at hm
        · rename_i hne _ r2 as' h2
          simp at hm
          have := hp.le h1
          obtain ⟨t2, e2, c2⟩ := ih r1.length (by omega) h2 rfl
          obtain ⟨t1, e1, c1⟩ := h _ _ _ h1
          refine ⟨t1 ++ t2, by rw [e1, e2, hm.1]; simp, c1 t2 r2 e2 c2⟩

theorem many1_look {p : Parser α} (hp : Suff p) (hpp : Prog p) {R : Str → Prop} (h0 : R [])
    (h : ∀ i r a, p i = some (r, a) → ∃ t, i = t ++ r ∧ ∀ u v, r = u ++ v → R u → R (t ++ u)) {i r a : Str}
    (hm : recognize (many1 p) i = some (r, a)) : i = a ++ r ∧ R a ∧ a ≠ [] := by
  have hpr := prog_recognize (prog_many1 hp hpp) _ _ _ hm
  obtain ⟨as, h1, rfl⟩ := recognize_some.1 hm
  obtain ⟨r1, x, as', h2, h3, -⟩ := many1_some.1 h1
  obtain ⟨t1, e1, c1⟩ := h _ _ _ h2
  obtain ⟨t2, e2, c2⟩ := many0_look hp h0 h h3
  have e : i = (t1 ++ t2) ++ r := by rw [e1, e2]; simp
  have ea : i.take (i.length - r.length) = t1 ++ t2 := by rw [e, take_text]
  rw [ea]
  refine ⟨e, c1 t2 r e2 c2, ?_⟩
  intro hnil
  rw [hnil] at e
  rw [e] at hpr
  simp at hpr

theorem selector_exact {i r a : Str} (h : recognize (many1 selectorPiece) i = some (r, a)) :
    i = a ++ r ∧ ReadableSelector a ∧ a ≠ [] :=
  many1_look suff_selectorPiece prog_selectorPiece .nil (fun _ _ _ h => selectorPiece_follows h) h

/-! ## Conditions -/

theorem readableCond_start {s : Str} (hs : ReadableCondition s) {y : Str} (hy : '/' ∉ y) :
    rest0 atRulePiece (s ++ '{' :: y) = '{' :: y ∧ (s ≠ [] → ∃ x, atRulePiece (s ++ '{' :: y) = some x) := by
  induction hs with
  | nil =>
    refine ⟨rest0_stop suff_atRulePiece (alt_none.2 ⟨isNot_fail (by simp) _, recognize_none.2 (interpolation_fail ?_)⟩),
      fun h => absurd rfl h⟩
    rw [List.nil_append, spRest_nonblank (by simp) (by simp)]; simp
  | char c s hc _ ih =>
    refine ⟨?_, fun _ => ?_⟩
    · refine Eq.trans (rest0_run suff_atRulePiece prog_atRulePiece (f := fun c => !(c! "${").elem c) ?_ (elem_false hc) _) ih.1
      intro d j hd
      obtain ⟨a, ha⟩ := takeWhile1_run (f := fun c => !(c! "${").elem c) hd j
      exact ⟨a, alt_some.2 (Or.inl ha)⟩
    · obtain ⟨a, ha⟩ := isNot_run hc (s ++ '{' :: y)
      exact ⟨_, alt_some.2 (Or.inl ha)⟩
  | placeholder t b s ht hb hn _ ih =>
    obtain ⟨a, ha⟩ := interpolation_read ht (b ++ (s ++ '{' :: y))
    rw [spRest_blank hb, spRest_of_noBlanks (noBlanks_append hn hy)] at ha
    have e : t ++ (b ++ s) ++ '{' :: y = t ++ (b ++ (s ++ '{' :: y)) := by simp
    rw [e]
    have hp : ∃ x, atRulePiece (t ++ (b ++ (s ++ '{' :: y))) = some (s ++ '{' :: y, x) := by
      obtain ⟨u, rfl⟩ := placeholder_cons ht
      exact ⟨_, alt_some.2 (Or.inr ⟨isNot_fail (by simp) _, recognize_some.2 ⟨a, ha, rfl⟩⟩)⟩
    obtain ⟨x, hx⟩ := hp
    exact ⟨(rest0_step suff_atRulePiece prog_atRulePiece hx).trans ih.1, fun _ => ⟨_, hx⟩⟩

theorem condition_exact {i r a : Str} (h : recognize (many1 atRulePiece) i = some (r, a)) :
    i = a ++ r ∧ ReadableCondition a ∧ a ≠ [] := by
  refine many1_look suff_atRulePiece prog_atRulePiece .nil ?_ h
  intro i r a h
  rcases alt_some.1 h with h | ⟨hn, h⟩
  · obtain ⟨t, e, ht⟩ := takeWhile1_text h
    refine ⟨t, e, fun u v _ hu => ?_⟩
    clear e h
    induction t with
    | nil => exact hu
    | cons c t ih => exact .char c _ (by simpa using ht c (by simp)) (ih fun d hd => ht d (by simp [hd]))
  · obtain ⟨x, h2, -⟩ := recognize_some.1 h
    obtain ⟨w, -, hr⟩ := trimmed_some.1 h2
    obtain ⟨t, e, b, b', u, hb, hb', hu, rfl⟩ := interpolation_follows _ _ _ h2
    have hb0 : b = [] := by
      cases hb' : b with
      | nil => rfl
      | cons c t =>
        exfalso
        have h1 := blank_head hb c (by rw [hb']; simp)
        rw [e, hb'] at hn
        have : c ∉ (c! "${") := by
          simp only [List.mem_cons, List.not_mem_nil, or_false] at h1 ⊢
          grind
        obtain ⟨z, hz⟩ := isNot_run this (t ++ (u ++ b') ++ r)
        simp only [List.cons_append] at hn hz
        rw [hz] at hn
        cases hn
    subst hb0
    refine ⟨_, e, fun w v e' hw => ?_⟩
    have hnb : NoBlanks w := NoBlanks.prefix (r := v) (by rw [← e', hr]; exact noBlanks_sp _)
    have := ReadableCondition.placeholder u b' w hu hb' hnb hw
    simpa [List.append_assoc] using this

/-! ## Texts that are not trimmed -/

theorem trim_split {a s : Str} (h : Str.trim a = s) :
    ∃ p q, a = p ++ s ++ q ∧ (∀ c ∈ p, Str.isWhitespace c = true) ∧ ∀ c ∈ q, Str.isWhitespace c = true := by
  have h1 : a = a.takeWhile Str.isWhitespace ++ Str.trimStart a := by
    unfold Str.trimStart; rw [List.takeWhile_append_dropWhile]
  obtain ⟨q, e, hq⟩ := FilledP.trimEnd_split (Str.trimStart a)
  refine ⟨a.takeWhile Str.isWhitespace, q, ?_, ?_, hq⟩
  · rw [List.append_assoc, ← h]
    unfold Str.trim
    rw [← e]; exact h1
  · intro c hc
    exact List.all_eq_true.1 List.all_takeWhile c hc

/-- A text that is read up to a character, and trimmed, is the text up to the character. -/
theorem read_exact {a r s y : Str} {x : Char} (hs : s ≠ []) (ht : Str.trim s = s)
    (hx : Str.isWhitespace x = false) (e : s ++ x :: y = a ++ r) (h : Str.trim a = s) : a = s := by
  obtain ⟨p, q, ea, hp, hq⟩ := trim_split h
  have hp0 : p = [] := by
    cases p with
    | nil => rfl
    | cons c p =>
      exfalso
      cases s with
      | nil => exact hs rfl
      | cons d s =>
        rw [ea] at e
        simp only [List.cons_append, List.cons.injEq] at e
        have h1 := trim_head ht d (by simp)
        rw [e.1, hp c (by simp)] at h1
        cases h1
  subst hp0
  rw [ea, List.nil_append, List.append_assoc] at e
  have e' := List.append_cancel_left e
  cases q with
  | nil => simpa using ea
  | cons c q =>
    exfalso
    simp only [List.cons_append, List.cons.injEq] at e'
    have := hq c (by simp)
    rw [← e'.1, hx] at this
    cases this

/-- A trimmed text that does not begin with a comment has nothing in front that is skipped. -/
theorem trimmed_start {s : Str} {x : Char} (hne : s ≠ []) (ht : Str.trim s = s) (hc : ¬ (c! "/*") <+: s) (hx : x ≠ '*')
    (y : Str) : spRest (s ++ x :: y) = s ++ x :: y := by
  cases s with
  | nil => exact absurd rfl hne
  | cons c s =>
    have h1 := trim_head ht c (by simp)
    have h2 : c ∉ (c! " \t\r\n") := by
      intro h
      rw [ascii_ws h] at h1; cases h1
    by_cases h3 : c = '/'
    · subst h3
      cases s with
      | nil => exact spRest_slash hx y
      | cons d s =>
        refine spRest_slash ?_ (s ++ x :: y)
        rintro rfl
        exact hc ⟨s, rfl⟩
    · exact spRest_nonblank h2 h3 _

/-! ## Declarations -/

theorem value_read {v y : Str} (hne : v ≠ []) (ht : Str.trim v = v) (hc : ¬ (c! "/*") <+: v) (h : ReadableValue v) :
    styleAttrValue (' ' :: (v ++ ';' :: y)) = some (';' :: y, v) := by
  have hsp : spRest (' ' :: (v ++ ';' :: y)) = v ++ ';' :: y := by
    rw [spRest_ws (by simp), trimmed_start hne ht hc (by decide)]
  refine trimmed_some.2 ⟨';' :: y, ?_, (spRest_nonblank (by simp) (by simp) y).symm⟩
  rw [hsp]
  have hr : EndsValue (';' :: y) := Or.inr ⟨y, Or.inl rfl⟩
  obtain ⟨⟨h1, -⟩, h2⟩ := readable_start h (';' :: y) hr
  obtain ⟨x, hx⟩ := h2 hne
  obtain ⟨as, has⟩ := many1_rest0 suff_valuePiece prog_valuePiece hx
  rw [h1] at has
  exact map_some.2 ⟨v, recognize_append has, ht⟩

theorem value_exact {v y r : Str} (hne : v ≠ []) (ht : Str.trim v = v) (hc : ¬ (c! "/*") <+: v)
    (h : styleAttrValue (' ' :: (v ++ ';' :: y)) = some (r, v)) : ReadableValue v := by
  have hsp : spRest (' ' :: (v ++ ';' :: y)) = v ++ ';' :: y := by
    rw [spRest_ws (by simp), trimmed_start hne ht hc (by decide)]
  obtain ⟨r', h1, -⟩ := trimmed_some.1 h
  rw [hsp] at h1
  obtain ⟨a, h2, h3⟩ := map_some.1 h1
  obtain ⟨t, e, rfl, h4, -⟩ := readable_follows _ _ _ h2
  rw [read_exact hne ht (by decide) e h3] at h4
  exact h4

theorem key_read {k x : Str} (hk : Ident k) : styleAttrKey (k ++ ':' :: x) = some (':' :: x, k) := by
  have hcolon : spRest (':' :: x) = ':' :: x := spRest_nonblank (by simp) (by simp) _
  refine trimmed_some.2 ⟨':' :: x, ?_, hcolon.symm⟩
  rw [ident_nonblank hk]
  refine ident_read hk ?_
  intro d hd
  simp only [List.head?_cons, Option.mem_def, Option.some.injEq] at hd
  subst hd; decide

theorem decl_parse {key v : Str} (hk : Ident key) (hkt : Str.trim key = key) (hne : v ≠ []) (ht : Str.trim v = v)
    (hc : ¬ (c! "/*") <+: v) (h : ReadableValue v) :
    parse (key ++ c! ": " ++ v ++ c! ";") = some [.block [] [.attr key [v]]] := by
  have e : key ++ c! ": " ++ v ++ c! ";" = key ++ ':' :: ' ' :: (v ++ [';']) := by simp
  rw [e]
  have hkn : key ≠ [] := by rintro rfl; exact hk
  have hsp := ident_nonblank hk (r := ':' :: ' ' :: (v ++ [';']))
  have ha : styleAttribute (key ++ ':' :: ' ' :: (v ++ [';'])) = some ([';'], (key, [v])) := by
    refine trimmed_some.2 ⟨[';'], ?_, by decide⟩
    rw [hsp]
    refine nonEmpty_some.2 ⟨by simp [hkn], map_some.2 ⟨(key, v), separatedPair_some.2 ⟨_, _, c! ":",
      key_read hk, tag_append (c! ":") _, value_read hne ht hc h⟩, by rw [hkt]⟩⟩
  have hl : separatedList1 (tag (c! ";")) styleAttribute (spRest (key ++ ':' :: ' ' :: (v ++ [';']))) =
      some ([';'], [(key, [v])]) := by
    rw [hsp]
    simp only [separatedList1]
    rw [ha]
    rfl
  have hd := attributes_of_list (dangling := true) (r := []) (o := some (c! ";")) hl (by decide) rfl
  have hd' : danglingBlock (spRest (key ++ ':' :: ' ' :: (v ++ [';']))) = some ([], .block [] [.attr key [v]]) := by
    refine trimmed_some.2 ⟨[], ?_, by decide⟩
    rw [spRest_idem, hsp]
    exact nonEmpty_some.2 ⟨by simp [hkn], map_some.2 ⟨_, hd, rfl⟩⟩
  refine parse_intro ?_ ?_
  · rw [hsp]; simp [hkn]
  · refine Eq.trans (many0_step (suff_scopeItemWith _ (suff_scopeContents _))
      (prog_scopeItemWith _ (suff_scopeContents _)) (alt_some.2 (Or.inl hd'))) ?_
    rw [many0_stop (suff_scopeItemWith _ (suff_scopeContents _))
      (prog_nil (prog_scopeItemWith _ (suff_scopeContents _)))]

/-- Where a block without selectors comes from. -/
theorem dangling_of_item {n : Nat} {sc : Parser (List ScopeContent)} {i r : Str} {content : List RBC}
    (h : scopeItemWith n sc i = some (r, .block [] content)) : danglingBlock i = some (r, .block [] content) := by
  rcases alt_some.1 h with h | ⟨-, h⟩
  · exact h
  rcases alt_some.1 h with h | ⟨-, h⟩
  · exfalso
    obtain ⟨_, h1, -⟩ := trimmed_some.1 h
    obtain ⟨-, h2⟩ := nonEmpty_some.1 h1
    obtain ⟨x, h3, e⟩ := map_some.1 h2
    obtain ⟨r1, h4, -⟩ := pair_some.1 (show pair _ _ _ = some (_, (x.1, x.2)) from h3)
    obtain ⟨_, h5, -⟩ := trimmed_some.1 h4
    obtain ⟨-, h6⟩ := nonEmpty_some.1 h5
    obtain ⟨_, _, _, -, -, h7⟩ := many1_some.1 h6
    rw [ScopeContent.block.injEq] at e
    rw [h7] at e
    simp at e
  rcases alt_some.1 h with h | ⟨-, h⟩
  · exfalso
    obtain ⟨_, h1, -⟩ := trimmed_some.1 h
    obtain ⟨-, h2⟩ := nonEmpty_some.1 h1
    obtain ⟨x, h3, e⟩ := map_some.1 h2
    cases e
  · exfalso
    obtain ⟨x, h3, e⟩ := map_some.1 h
    cases e

theorem decl_exact {key v : Str} (hk : Ident key) (hne : v ≠ []) (ht : Str.trim v = v)
    (hc : ¬ (c! "/*") <+: v) {rest : List RBC} {items : Sheet}
    (h : parse (key ++ c! ": " ++ v ++ c! ";") = some (.block [] (.attr key [v] :: rest) :: items)) : ReadableValue v := by
  have e : key ++ c! ": " ++ v ++ c! ";" = key ++ ':' :: ' ' :: (v ++ [';']) := by simp
  rw [e] at h
  have hsp := ident_nonblank hk (r := ':' :: ' ' :: (v ++ [';']))
  obtain ⟨r, h1⟩ := parse_head h
  obtain ⟨_, h2, -⟩ := trimmed_some.1 (dangling_of_item h1)
  obtain ⟨-, h3⟩ := nonEmpty_some.1 h2
  obtain ⟨l, h4, e4⟩ := map_some.1 h3
  obtain ⟨_, h5, -⟩ := trimmed_some.1 h4
  obtain ⟨-, h6⟩ := nonEmpty_some.1 h5
  obtain ⟨r6, _, h7, -⟩ := terminated_some.1 h6
  simp only [hsp, separatedList1] at h7
  split at h7
  · cases h7
  · rename_i r8 x h8
    split at h7
    · cases h7
    · rename_i as _
      simp only [Option.some.injEq, Prod.mk.injEq] at h7
      obtain ⟨-, rfl⟩ := h7
      simp only [ScopeContent.block.injEq, true_and, attrsToRBC, List.map_cons, List.cons.injEq, RBC.attr.injEq] at e4
      obtain ⟨_, h9, -⟩ := trimmed_some.1 h8
      obtain ⟨-, h10⟩ := nonEmpty_some.1 h9
      obtain ⟨⟨k, u⟩, h11, e11⟩ := map_some.1 h10
      rw [hsp] at h11
      obtain ⟨r12, r13, _, h12, h13, h14⟩ := separatedPair_some.1 h11
      rw [key_read hk] at h12
      obtain ⟨rfl, rfl⟩ : ':' :: ' ' :: (v ++ [';']) = r12 ∧ key = k := by simpa using h12
      obtain ⟨h15, -⟩ := tag_some.1 h13
      have : r13 = ' ' :: (v ++ [';']) := by simpa using h15.symm
      subst this
      have hu : u = v := by
        have := e4.1.2
        rw [← e11] at this
        simpa using this
      subst hu
      exact value_exact hne ht hc h14

/-! ## Blocks -/

/-- A dangling block begins with a declaration and its semicolon. -/
theorem dangling_begins {i r : Str} {x : ScopeContent} (h : danglingBlock i = some (r, x)) : BeginsWithDecl i := by
  obtain ⟨b, b', i', r', hb, -, rfl, -, h1⟩ := trimmed_text h
  obtain ⟨-, h2⟩ := nonEmpty_some.1 h1
  obtain ⟨l, h3, -⟩ := map_some.1 h2
  obtain ⟨t, e, u, semi, b2, hu, -, rfl, hs⟩ := attributes_follows true _ _ _ h3
  have hsemi : semi = c! ";" := by
    rcases hs with h | h
    · exact h
    · cases h.1
  subst hsemi
  have hu' := decls_prefix hb hu
  have e' : b ++ i' = (b ++ u) ++ c! ";" ++ b2 ++ r' := by rw [e]; simp
  rw [e']
  clear e e' h h1 h2 h3
  generalize b ++ u = w at hu'
  cases hu' with
  | one _ d hd => exact ⟨_, d, b2 ++ r', hd, by simp⟩
  | cons t v d ds hd hv => exact ⟨t, d, v ++ c! ";" ++ b2 ++ r', hd, by simp⟩

/-- The declaration lies in front of the brace when there are no semicolons behind it. -/
theorem begins_front {s y : Str} (hy : ';' ∉ y) (h : BeginsWithDecl (s ++ '{' :: y)) : BeginsWithDecl s := by
  obtain ⟨t, d, u, hd, e⟩ := h
  rcases List.append_eq_append_iff.1 e with ⟨a, e1, e2⟩ | ⟨a, e1, e2⟩
  · exfalso
    have h1 : ';' ∈ '{' :: y := by rw [e2]; simp
    simp only [List.mem_cons] at h1
    rcases h1 with h1 | h1
    · exact absurd h1 (by decide)
    · exact hy h1
  · cases a with
    | nil => simp at e2
    | cons c a =>
      simp only [List.cons_append, List.cons.injEq] at e2
      exact ⟨t, d, a, hd, by rw [e1, e2.1]⟩

theorem selector_parse {s body : Str} {content : List RBC} (hne : s ≠ []) (ht : Str.trim s = s)
    (hc : ¬ (c! "/*") <+: s) (hd : ¬ BeginsWithDecl s) (hbody : BodyLayout body content)
    (hb1 : '/' ∉ body) (hb2 : ';' ∉ body) (h : ReadableSelector s) :
    parse (s ++ c! "{" ++ body ++ c! "}") = some [.block [[s]] content] := by
  have e : s ++ c! "{" ++ body ++ c! "}" = s ++ '{' :: (body ++ ['}']) := by simp
  rw [e]
  have hsp := trimmed_start (x := '{') hne ht hc (by decide) (body ++ ['}'])
  have hy1 : '/' ∉ body ++ ['}'] := by simp [hb1]
  have hy2 : ';' ∉ body ++ ['}'] := by simp [hb2]
  generalize hn : (s ++ '{' :: (body ++ ['}'])).length = n
  have hlen : body.length ≤ n := by rw [← hn]; simp; omega
  have hnil : s ++ '{' :: (body ++ ['}']) ≠ [] := by simp
  have hbrace : spRest ('{' :: (body ++ ['}'])) = '{' :: (body ++ ['}']) := spRest_nonblank (by simp) (by simp) _
  have hdang : danglingBlock (s ++ '{' :: (body ++ ['}'])) = none := by
    cases hx : danglingBlock (s ++ '{' :: (body ++ ['}'])) with
    | none => rfl
    | some x => exact absurd (begins_front hy2 (dangling_begins (show _ = some (x.1, x.2) from hx))) hd
  have hsel : selector (s ++ '{' :: (body ++ ['}'])) = some ('{' :: (body ++ ['}']), [s]) := by
    refine trimmed_some.2 ⟨_, ?_, hbrace.symm⟩
    rw [hsp]
    obtain ⟨h1, h2⟩ := readableSel_start h hy1
    obtain ⟨x, hx⟩ := h2 hne
    obtain ⟨as, has⟩ := many1_rest0 suff_selectorPiece prog_selectorPiece hx
    rw [h1] at has
    exact nonEmpty_some.2 ⟨hnil, map_some.2 ⟨s, recognize_append has, by rw [ht]⟩⟩
  have hstop : terminated selector (opt (tag (c! ","))) ('{' :: (body ++ ['}'])) = none :=
    conditionPiece_none (selector_fail (by simp) (by decide) _)
  have hterm : terminated selector (opt (tag (c! ","))) (s ++ '{' :: (body ++ ['}'])) =
      some ('{' :: (body ++ ['}']), [s]) :=
    terminated_some.2 ⟨_, none, hsel, opt_some.2 (Or.inl ⟨tag_fail (by decide) _, rfl, rfl⟩)⟩
  have hcond : Css.condition (s ++ '{' :: (body ++ ['}'])) = some ('{' :: (body ++ ['}']), [[s]]) := by
    refine trimmed_some.2 ⟨_, ?_, hbrace.symm⟩
    rw [hsp]
    refine nonEmpty_some.2 ⟨hnil, many1_some.2 ⟨_, _, [], hterm, ?_, rfl⟩⟩
    exact many0_stop (suff_terminated suff_selector (suff_opt (suff_tag _))) hstop
  have hblock : block n (s ++ '{' :: (body ++ ['}'])) = some ([], .block [[s]] content) := by
    refine trimmed_some.2 ⟨[], ?_, spRest_nil.symm⟩
    rw [hsp]
    refine nonEmpty_some.2 ⟨hnil, map_some.2 ⟨([[s]], content), pair_some.2 ⟨_, hcond, ?_⟩, rfl⟩⟩
    refine delimited_some.2 ⟨body ++ ['}'], c! "{", ['}'], c! "}", tag_append (c! "{") _, ?_, tag_append (c! "}") []⟩
    obtain ⟨ps, e1, e2⟩ := LayoutP.body_read body.length body content (Nat.le_refl _) hbody n []
      (spRest (spRest (body ++ ['}']))) hlen (by simp only [spRest_idem]) (by
        intro hc
        subst hc
        rw [spRest_idem, spRest_blank (LayoutP.body_nil hbody), spRest_brace])
    refine trimmed_some.2 ⟨['}'], trimmed_some.2 ⟨['}'], nonEmpty_some.2
      ⟨?_, map_some.2 ⟨ps, e1, e2⟩⟩, (spRest_brace _).symm⟩, (spRest_brace _).symm⟩
    intro h1
    rw [h1, many0_stop (LayoutP.suff_piece n) (prog_nil (LayoutP.prog_piece n))] at e1
    simp at e1
  refine parse_intro (by rw [hsp]; exact hnil) ?_
  rw [hsp, hn]
  refine Eq.trans (many0_step (suff_scopeItemWith _ (suff_scopeContents _))
    (prog_scopeItemWith _ (suff_scopeContents _)) (alt_some.2 (Or.inr ⟨hdang, alt_some.2 (Or.inl hblock)⟩))) ?_
  rw [many0_stop (suff_scopeItemWith _ (suff_scopeContents _))
    (prog_nil (prog_scopeItemWith _ (suff_scopeContents _)))]

/-- Where a block with selectors comes from. -/
theorem block_of_item {n : Nat} {sc : Parser (List ScopeContent)} {i r : Str} {s : Selector} {l : List Selector}
    {content : List RBC} (h : scopeItemWith n sc i = some (r, .block (s :: l) content)) :
    ∃ r', selector (spRest i) = some (r', s) := by
  rcases alt_some.1 h with h | ⟨-, h⟩
  · exfalso
    obtain ⟨_, h1, -⟩ := trimmed_some.1 h
    obtain ⟨-, h2⟩ := nonEmpty_some.1 h1
    obtain ⟨x, -, e⟩ := map_some.1 h2
    cases e
  rcases alt_some.1 h with h | ⟨-, h⟩
  · obtain ⟨_, h1, -⟩ := trimmed_some.1 h
    obtain ⟨-, h2⟩ := nonEmpty_some.1 h1
    obtain ⟨x, h3, e⟩ := map_some.1 h2
    obtain ⟨r1, h4, -⟩ := pair_some.1 (show pair _ _ _ = some (_, (x.1, x.2)) from h3)
    obtain ⟨_, h5, -⟩ := trimmed_some.1 h4
    obtain ⟨-, h6⟩ := nonEmpty_some.1 h5
    obtain ⟨_, _, _, h7, -, h8⟩ := many1_some.1 h6
    rw [ScopeContent.block.injEq, h8, List.cons.injEq] at e
    obtain ⟨r9, _, h9, -⟩ := terminated_some.1 h7
    rw [spRest_idem, e.1.1] at h9
    exact ⟨_, h9⟩
  rcases alt_some.1 h with h | ⟨-, h⟩
  · exfalso
    obtain ⟨_, h1, -⟩ := trimmed_some.1 h
    obtain ⟨-, h2⟩ := nonEmpty_some.1 h1
    obtain ⟨x, h3, e⟩ := map_some.1 h2
    cases e
  · exfalso
    obtain ⟨x, h3, e⟩ := map_some.1 h
    cases e

theorem selector_back {s y : Str} (hne : s ≠ []) (ht : Str.trim s = s) (hc : ¬ (c! "/*") <+: s)
    {l : List Selector} {content : List RBC} {items : Sheet}
    (h : parse (s ++ '{' :: y) = some (.block ([s] :: l) content :: items)) : ReadableSelector s := by
  have hsp := trimmed_start (x := '{') hne ht hc (by decide) y
  obtain ⟨r, h1⟩ := parse_head h
  rw [hsp] at h1
  obtain ⟨r', h2⟩ := block_of_item h1
  obtain ⟨_, h3, -⟩ := trimmed_some.1 h2
  obtain ⟨-, h4⟩ := nonEmpty_some.1 h3
  obtain ⟨a, h5, h6⟩ := map_some.1 h4
  rw [hsp, hsp] at h5
  obtain ⟨e, h7, -⟩ := selector_exact h5
  rw [read_exact hne ht (by decide) e (by simpa using h6)] at h7
  exact h7

/-! ## At-rules -/

theorem atCondition_reads {t : Parser Str} {n q y : Str} (u : Str)
    (ht : t (n ++ ' ' :: (q ++ '{' :: y)) = some (' ' :: (q ++ '{' :: y), u))
    (hn : ∃ m, n = '@' :: m) (hq : q ≠ []) (hqt : Str.trim q = q) (hy : '/' ∉ y) (h : ReadableCondition q) :
    atRuleCondition t (n ++ ' ' :: (q ++ '{' :: y)) = some ('{' :: y, [n ++ c! " ", q]) := by
  obtain ⟨m, rfl⟩ := hn
  refine trimmed_some.2 ⟨'{' :: y, ?_, (spRest_nonblank (by simp) (by simp) y).symm⟩
  rw [List.cons_append, spRest_nonblank (by simp) (by simp)]
  refine nonEmpty_some.2 ⟨by simp, map_some.2 ⟨('@' :: m ++ c! " ", q), ?_, rfl⟩⟩
  refine pair_some.2 ⟨q ++ '{' :: y, ?_, ?_⟩
  · have e : '@' :: (m ++ ' ' :: (q ++ '{' :: y)) =
        ('@' :: m ++ c! " ") ++ (q ++ '{' :: y) := by simp
    have := terminated_some.2 ⟨_, _, ht, tag_append (c! " ") (q ++ '{' :: y)⟩
    rw [List.cons_append, e] at this
    rw [e]
    exact recognize_append this
  · obtain ⟨h1, h2⟩ := readableCond_start h hy
    obtain ⟨z, hz⟩ := h2 hq
    obtain ⟨as, has⟩ := many1_rest0 suff_atRulePiece prog_atRulePiece hz
    rw [h1] at has
    exact map_some.2 ⟨q, recognize_append has, hqt⟩

theorem atCondition_back {t : Parser Str} {n q y r : Str} {u : Str}
    (ht : t (n ++ ' ' :: (q ++ '{' :: y)) = some (' ' :: (q ++ '{' :: y), u))
    (hn : ∃ m, n = '@' :: m) (hq : q ≠ []) (hqt : Str.trim q = q) {c : Str}
    (h : atRuleCondition t (n ++ ' ' :: (q ++ '{' :: y)) = some (r, [c, q])) : ReadableCondition q := by
  obtain ⟨m, rfl⟩ := hn
  obtain ⟨_, h1, -⟩ := trimmed_some.1 h
  rw [List.cons_append, spRest_nonblank (by simp) (by simp)] at h1
  obtain ⟨-, h2⟩ := nonEmpty_some.1 h1
  obtain ⟨⟨a, b⟩, h3, e3⟩ := map_some.1 h2
  obtain ⟨r1, h4, h5⟩ := pair_some.1 h3
  obtain ⟨_, h6, -⟩ := recognize_some.1 h4
  obtain ⟨r2, _, h7, h8⟩ := terminated_some.1 h6
  rw [List.cons_append] at ht
  rw [ht] at h7
  obtain ⟨rfl, -⟩ : ' ' :: (q ++ '{' :: y) = r2 ∧ _ := by simpa using h7
  obtain ⟨h9, -⟩ := tag_some.1 h8
  have : r1 = q ++ '{' :: y := by simpa using h9.symm
  subst this
  obtain ⟨w, h10, h11⟩ := map_some.1 h5
  obtain ⟨e, h12, -⟩ := condition_exact h10
  have hb : b = q := by simpa using (List.cons.inj (List.cons.inj e3).2).1
  rw [read_exact hq hqt (by decide) e (by rw [h11, hb])] at h12
  exact h12

/-- Where an at-rule comes from. -/
theorem rule_of_item {n : Nat} {sc : Parser (List ScopeContent)} {i r : Str} {c : List Str}
    {content : List RBC} (h : scopeItemWith n sc i = some (r, .rule c content)) :
    (∃ r', atRuleCondition (alt (tag (c! "@container")) (alt (tag (c! "@supports")) (tag (c! "@media")))) (spRest i) =
      some (r', c)) ∨ ∃ r', atRuleCondition (alt (tag (c! "@keyframes")) fail) (spRest i) = some (r', c) := by
  rcases alt_some.1 h with h | ⟨-, h⟩
  · exfalso
    obtain ⟨_, h1, -⟩ := trimmed_some.1 h
    obtain ⟨-, h2⟩ := nonEmpty_some.1 h1
    obtain ⟨x, -, e⟩ := map_some.1 h2
    cases e
  rcases alt_some.1 h with h | ⟨-, h⟩
  · exfalso
    obtain ⟨_, h1, -⟩ := trimmed_some.1 h
    obtain ⟨-, h2⟩ := nonEmpty_some.1 h1
    obtain ⟨x, h3, e⟩ := map_some.1 h2
    cases e
  rcases alt_some.1 h with h | ⟨-, h⟩
  · obtain ⟨_, h1, -⟩ := trimmed_some.1 h
    obtain ⟨-, h2⟩ := nonEmpty_some.1 h1
    obtain ⟨⟨c', x⟩, h3, e⟩ := map_some.1 h2
    obtain ⟨r4, _, _, h4, -⟩ := separatedPair_some.1 h3
    simp only [ScopeContent.rule.injEq] at e
    rw [← e.1]
    exact Or.inl ⟨_, h4⟩
  · obtain ⟨⟨c', x⟩, h3, e⟩ := map_some.1 h
    obtain ⟨_, h1, -⟩ := trimmed_some.1 h3
    obtain ⟨r4, _, _, h4, -⟩ := separatedPair_some.1 h1
    simp only [ScopeContent.rule.injEq] at e
    rw [← e.1]
    exact Or.inr ⟨_, h4⟩

theorem rule_back {name q y : Str} (hname : name ∈ conditionalNames ∨ name = c! "@keyframes") (hq : q ≠ [])
    (hqt : Str.trim q = q) {c : Str} {content : List RBC} {items : Sheet}
    (h : parse (name ++ ' ' :: (q ++ '{' :: y)) = some (.rule [c, q] content :: items)) : ReadableCondition q := by
  obtain ⟨r, h1⟩ := parse_head h
  have hat : ∃ m, name = '@' :: m := by
    rcases hname with hn | rfl
    · exact LayoutP.conditional_at _ hn
    · exact ⟨_, rfl⟩
  have hsp : spRest (name ++ ' ' :: (q ++ '{' :: y)) = name ++ ' ' :: (q ++ '{' :: y) := by
    obtain ⟨m, rfl⟩ := hat
    exact spRest_at _
  rw [hsp] at h1
  have h2 := rule_of_item h1
  rw [hsp] at h2
  rcases hname with hn | rfl
  · rcases h2 with ⟨r', h2⟩ | ⟨r', h2⟩
    · exact atCondition_back (LayoutP.conditional_supports hn _) hat hq hqt h2
    · exfalso
      simp only [conditionalNames, List.mem_cons, List.not_mem_nil, or_false] at hn
      have hf : atRuleCondition (alt (tag (c! "@keyframes")) fail) (name ++ ' ' :: (q ++ '{' :: y)) = none := by
        rcases hn with rfl | rfl | rfl <;> exact atRuleCondition_fail (spRest_at _) rfl
      rw [hf] at h2
      cases h2
  · rcases h2 with ⟨r', h2⟩ | ⟨r', h2⟩
    · exfalso
      have hf : atRuleCondition (alt (tag (c! "@container")) (alt (tag (c! "@supports")) (tag (c! "@media"))))
          (c! "@keyframes" ++ ' ' :: (q ++ '{' :: y)) = none := atRuleCondition_fail (spRest_at _) rfl
      rw [hf] at h2
      cases h2
    · exact atCondition_back (alt_some.2 (Or.inl (tag_append (c! "@keyframes") _))) hat hq hqt h2

theorem rule_parse {name q body : Str} (hname : name ∈ conditionalNames) (hq : q ≠ []) (hqt : Str.trim q = q)
    {content : Sheet} (hbody : Layout body content) (hb : '/' ∉ body) (h : ReadableCondition q) :
    parse (name ++ c! " " ++ q ++ c! "{" ++ body ++ c! "}") =
      some [.rule [name ++ c! " ", q] (content.map ScopeContent.toRBC)] := by
  have e : name ++ c! " " ++ q ++ c! "{" ++ body ++ c! "}" = name ++ ' ' :: (q ++ '{' :: (body ++ ['}'])) := by simp
  rw [e]
  obtain ⟨m, hm⟩ := LayoutP.conditional_at _ hname
  have hsp : spRest (name ++ ' ' :: (q ++ '{' :: (body ++ ['}']))) = name ++ ' ' :: (q ++ '{' :: (body ++ ['}'])) := by
    rw [hm]; exact spRest_at _
  generalize hn : (name ++ ' ' :: (q ++ '{' :: (body ++ ['}']))).length = n
  obtain ⟨k, rfl⟩ : ∃ k, n = k + 1 := ⟨n - 1, by rw [← hn, hm]; simp⟩
  have hlen : body.length ≤ k := by
    have := hn
    simp at this; omega
  have hm0 := LayoutP.layout_read body.length body content (Nat.le_refl _) hbody k ['}']
    (spRest (body ++ ['}'])) hlen (LayoutP.ends_brace k _) (by rw [spRest_idem]) (by
      intro h1
      subst h1
      rw [spRest_blank (LayoutP.layout_nil hbody)])
  rw [spRest_brace] at hm0
  have hrule : atRuleWith (scopeContents (k + 1)) (name ++ ' ' :: (q ++ '{' :: (body ++ ['}']))) =
      some ([], .rule [name ++ c! " ", q] (content.map ScopeContent.toRBC)) := by
    refine trimmed_some.2 ⟨[], ?_, spRest_nil.symm⟩
    rw [hsp]
    refine nonEmpty_some.2 ⟨by rw [hm]; simp, map_some.2 ⟨([name ++ c! " ", q], content), separatedPair_some.2
      ⟨'{' :: (body ++ ['}']), body ++ ['}'], c! "{", atCondition_reads name (LayoutP.conditional_supports hname _)
        ⟨m, hm⟩ hq hqt (by simp [hb]) h, tag_append (c! "{") _, terminated_some.2
          ⟨['}'], c! "}", ?_, tag_append (c! "}") _⟩⟩, rfl⟩⟩
    refine trimmed_some.2 ⟨['}'], nonEmpty_some.2 ⟨?_, hm0⟩, (spRest_brace _).symm⟩
    intro h1
    rw [h1, many0_stop (LayoutP.suff_item k) (prog_nil (LayoutP.prog_item k))] at hm0
    simp at hm0
  refine parse_intro (by rw [hsp, hm]; simp) ?_
  rw [hsp, hn]
  refine Eq.trans (many0_step (suff_scopeItemWith _ (suff_scopeContents _))
    (prog_scopeItemWith _ (suff_scopeContents _)) (alt_some.2 (Or.inr ⟨by rw [hm]; exact dangling_at _,
      alt_some.2 (Or.inr ⟨by rw [hm]; exact block_at _ _, alt_some.2 (Or.inl hrule)⟩)⟩))) ?_
  rw [many0_stop (suff_scopeItemWith _ (suff_scopeContents _))
    (prog_nil (prog_scopeItemWith _ (suff_scopeContents _)))]

theorem keyframes_parse {q body : Str} (hq : q ≠ []) (hqt : Str.trim q = q) {frames : List RBC}
    (hbody : FramesLayout body frames) (hf : body = [] ∨ frames ≠ []) (hb : '/' ∉ body) (h : ReadableCondition q) :
    parse (c! "@keyframes" ++ c! " " ++ q ++ c! "{" ++ body ++ c! "}") =
      some [.rule [c! "@keyframes" ++ c! " ", q] frames] := by
  have e : c! "@keyframes" ++ c! " " ++ q ++ c! "{" ++ body ++ c! "}" =
      c! "@keyframes" ++ ' ' :: (q ++ '{' :: (body ++ ['}'])) := by simp
  rw [e]
  have hsp : spRest (c! "@keyframes" ++ ' ' :: (q ++ '{' :: (body ++ ['}']))) =
      c! "@keyframes" ++ ' ' :: (q ++ '{' :: (body ++ ['}'])) := spRest_at _
  generalize hn : (c! "@keyframes" ++ ' ' :: (q ++ '{' :: (body ++ ['}']))).length = n
  have hlen : body.length ≤ n := by
    have := hn
    simp at this; omega
  obtain ⟨rs, e1, e2⟩ := LayoutP.frames_read hbody n [] (body ++ ['}']) hlen rfl (by
    intro h1
    rcases hf with h | h
    · simp [h]
    · exact absurd h1 h)
  have hrule : keyframes n (c! "@keyframes" ++ ' ' :: (q ++ '{' :: (body ++ ['}']))) =
      some ([], .rule [c! "@keyframes" ++ c! " ", q] frames) := by
    refine map_some.2 ⟨([c! "@keyframes" ++ c! " ", q], rs), trimmed_some.2 ⟨[], ?_, spRest_nil.symm⟩, by rw [← e2]⟩
    rw [hsp]
    exact separatedPair_some.2
      ⟨'{' :: (body ++ ['}']), body ++ ['}'], c! "{", atCondition_reads (c! "@keyframes")
        (alt_some.2 (Or.inl (tag_append (c! "@keyframes") _)))
        ⟨_, rfl⟩ hq hqt (by simp [hb]) h, tag_append (c! "{") _, terminated_some.2
          ⟨['}'], c! "}", e1, tag_append (c! "}") _⟩⟩
  refine parse_intro (by rw [hsp]; simp) ?_
  rw [hsp, hn]
  refine Eq.trans (many0_step (suff_scopeItemWith _ (suff_scopeContents _))
    (prog_scopeItemWith _ (suff_scopeContents _)) (alt_some.2 (Or.inr ⟨dangling_at _,
      alt_some.2 (Or.inr ⟨block_at _ _, alt_some.2 (Or.inr ⟨LayoutP.not_conditional _ _, hrule⟩)⟩)⟩))) ?_
  rw [many0_stop (suff_scopeItemWith _ (suff_scopeContents _))
    (prog_nil (prog_scopeItemWith _ (suff_scopeContents _)))]

/-! ## Enclosed texts -/

theorem trim_enclosed {o x : Char} (ho : Str.isWhitespace o = false) (hx : Str.isWhitespace x = false) (body : Str) :
    Str.trim ([o] ++ body ++ [x]) = [o] ++ body ++ [x] := by
  unfold Str.trim
  rw [trimStart_of_head (by intro c hc; simp at hc; subst hc; exact ho), trimEnd_snoc hx]

/-- Without dollars, slashes and quotes a value is readable when it has no braces and
semicolons. -/
theorem readable_plain {v : Str} (h : ∀ c ∈ v, c ∉ (c! "$/\"")) :
    ReadableValue v ↔ ∀ c ∈ v, c ∉ (c! "{;}") := by
  constructor
  · intro hv
    induction hv with
    | nil => simp
    | char c s hc _ ih =>
      intro d hd
      rcases List.mem_cons.1 hd with rfl | hd
      · simp only [List.mem_cons, List.not_mem_nil, or_false] at hc ⊢; grind
      · exact ih (fun e he => h e (by simp [he])) d hd
    | slash c s _ _ _ => exact absurd (h '/' (by simp)) (by decide)
    | str b body b' s _ _ _ _ _ => exact absurd (h '"' (by simp)) (by decide)
    | placeholder b t b' s _ ht _ _ _ =>
      obtain ⟨u, rfl⟩ := placeholder_cons ht
      exact absurd (h '$' (by simp)) (by decide)
  · intro hv
    induction v with
    | nil => exact .nil
    | cons c v ih =>
      refine .char c v ?_ (ih (fun e he => h e (by simp [he])) (fun e he => hv e (by simp [he])))
      have h1 := h c (by simp)
      have h2 := hv c (by simp)
      simp only [List.mem_cons, List.not_mem_nil, or_false] at h1 h2 ⊢
      grind

end ReadableP
