import Verif.Proofs.Parser
import Verif.Proofs.Text
import Verif.Spec.Lex

/-! # How the parser reads blanks, identifiers, strings and values -/

namespace LexP
open Nom NomP Css ParserP Spec

variable {α β γ : Type}

/-! ## Where a loop stops -/

/-- What `many0 p` leaves. -/
def rest0 (p : Parser α) (i : Str) : Str := ((many0 p i).map Prod.fst).getD i

theorem many0_rest0 {p : Parser α} (hp : Suff p) (hpp : Prog p) (i : Str) :
    ∃ as, many0 p i = some (rest0 p i, as) := by
  obtain ⟨r, as, h, -⟩ := many0_total hp hpp i
  exact ⟨as, by rw [rest0, h]; rfl⟩

theorem rest0_step {p : Parser α} (hp : Suff p) (hpp : Prog p) {i r : Str} {a : α}
    (h : p i = some (r, a)) : rest0 p i = rest0 p r := by
  obtain ⟨as, h1⟩ := many0_rest0 hp hpp r
  have : many0 p i = some (rest0 p r, a :: as) := by rw [many0_step hp hpp h, h1]
  rw [rest0, this]; rfl

theorem rest0_stop {p : Parser α} (hp : Suff p) {i : Str} (h : p i = none) : rest0 p i = i := by
  rw [rest0, many0_stop hp h]; rfl

/-- Characters that are read in runs can be read one by one. -/
theorem rest0_run {p : Parser α} (hp : Suff p) (hpp : Prog p) {f : Char → Bool}
    (hf : ∀ c i, f c = true → ∃ a, p (c :: i) = some ((c :: i).dropWhile f, a))
    {c : Char} (hc : f c = true) (i : Str) : rest0 p (c :: i) = rest0 p i := by
  have key : ∀ j : Str, rest0 p j = rest0 p (j.dropWhile f) := by
    intro j
    cases j with
    | nil => rfl
    | cons d t =>
      by_cases hd : f d = true
      · obtain ⟨a, ha⟩ := hf d t hd
        exact rest0_step hp hpp ha
      · rw [List.dropWhile_cons, if_neg hd]
  rw [key (c :: i), key i, List.dropWhile_cons, if_pos hc]

theorem rest0_dropWhile {p : Parser α} {f : Char → Bool}
    (hf : ∀ c i, f c = true → rest0 p (c :: i) = rest0 p i) (i : Str) :
    rest0 p (i.dropWhile f) = rest0 p i := by
  induction i with
  | nil => rfl
  | cons c i ih =>
    by_cases hc : f c = true
    · rw [List.dropWhile_cons, if_pos hc, ih, hf c i hc]
    · rw [List.dropWhile_cons, if_neg hc]

theorem recognize_append {p : Parser α} {t r : Str} {a : α} (h : p (t ++ r) = some (r, a)) :
    recognize p (t ++ r) = some (r, t) := by
  refine recognize_some.2 ⟨a, h, ?_⟩
  simp

theorem takeWhile1_run {f : Char → Bool} {c : Char} (hc : f c = true) (i : Str) :
    ∃ a, takeWhile1 f (c :: i) = some ((c :: i).dropWhile f, a) :=
  ⟨_, takeWhile1_some.2 ⟨rfl, rfl, by rw [List.takeWhile_cons, if_pos hc]; simp⟩⟩

theorem takeWhile1_fail {f : Char → Bool} {c : Char} (hc : f c = false) (i : Str) :
    takeWhile1 f (c :: i) = none :=
  takeWhile1_none.2 (by rw [List.takeWhile_cons]; simp [hc])

theorem isNot_run {set : Str} {c : Char} (hc : c ∉ set) (i : Str) :
    ∃ a, isNot set (c :: i) = some ((c :: i).dropWhile (fun c => !set.elem c), a) :=
  takeWhile1_run (by simpa using hc) i

theorem isNot_fail {set : Str} {c : Char} (hc : c ∈ set) (i : Str) : isNot set (c :: i) = none :=
  takeWhile1_fail (by simpa using hc) i

theorem isNot_nil {set : Str} : isNot set [] = none := rfl

theorem tag1_fail {c d : Char} (h : d ≠ c) (i : Str) : tag [c] (d :: i) = none := by
  rw [tag_none]
  rintro ⟨s, hs⟩
  simp at hs
  exact h hs.1.symm

theorem tag_fail {c d : Char} {t : Str} (h : d ≠ c) (i : Str) : tag (c :: t) (d :: i) = none := by
  rw [tag_none]
  rintro ⟨s, hs⟩
  simp at hs
  exact h hs.1.symm

/-! ## Blanks -/

theorem rest0_cmt (body w : Str) (h : ¬ (c! "*/") <:+: body) :
    rest0 cmtPiece (body ++ (c! "*/" ++ w)) = c! "*/" ++ w := by
  induction body with
  | nil =>
    refine rest0_stop suff_cmtPiece ?_
    rw [cmtPiece, alt_none]
    refine ⟨isNot_fail (by simp) _, ?_⟩
    cases hx : terminated (tag (c! "*")) (Nom.not (tag (c! "/"))) ([] ++ (c! "*/" ++ w)) with
    | none => rfl
    | some x =>
      obtain ⟨r', b, h1, h2⟩ := terminated_some.1 (show _ = some (x.1, x.2) from hx)
      obtain ⟨h3, -⟩ := tag_some.1 h1
      simp at h3
      rw [← h3] at h2
      simp [Nom.not, tag] at h2
  | cons c body ih =>
    have h' : ¬ (c! "*/") <:+: body := fun hx => h (hx.trans (List.suffix_cons _ _).isInfix)
    refine Eq.trans ?_ (ih h')
    by_cases hc : c = '*'
    · subst hc
      refine rest0_step suff_cmtPiece prog_cmtPiece (a := c! "*") (alt_some.2 (Or.inr
        ⟨isNot_fail (by simp) _, terminated_some.2 ⟨_, (), tag_append _ _, ?_⟩⟩))
      have : tag (c! "/") (body ++ (c! "*/" ++ w)) = none := by
        rw [tag_none]
        rintro ⟨s, hs⟩
        cases body with
        | nil => simp at hs
        | cons d body =>
          simp at hs
          apply h
          rw [← hs.1]
          exact ⟨[], body, by simp⟩
      show Nom.not (tag (c! "/")) (body ++ (c! "*/" ++ w)) = _
      simp only [Nom.not, this]
    · refine rest0_run suff_cmtPiece prog_cmtPiece (f := fun c => !(c! "*").elem c) ?_ (by simpa using hc) _
      intro d i hd
      obtain ⟨a, ha⟩ := takeWhile1_run (f := fun c => !(c! "*").elem c) hd i
      exact ⟨a, alt_some.2 (Or.inl ha)⟩

theorem cmt_read (body w : Str) (h : ¬ (c! "*/") <:+: body) :
    cmt (c! "/*" ++ body ++ c! "*/" ++ w) = some (w, body) := by
  refine delimited_some.2 ⟨body ++ (c! "*/" ++ w), c! "/*", c! "*/" ++ w, _, ?_, ?_, tag_append _ _⟩
  · simpa using tag_append (c! "/*") (body ++ (c! "*/" ++ w))
  · obtain ⟨as, has⟩ := many0_rest0 suff_cmtPiece prog_cmtPiece (body ++ (c! "*/" ++ w))
    rw [rest0_cmt body w h] at has
    exact recognize_append has

theorem spRest_blank {w : Str} (h : Blank w) (i : Str) : spRest (w ++ i) = spRest i := by
  induction h with
  | nil => rfl
  | ws c w hc _ ih =>
    rw [List.cons_append, spRest_ws (by simpa using hc), ih]
  | comment body w hb _ ih =>
    rw [← ih]
    refine spRest_step (a := body) (alt_some.2 (Or.inr ⟨?_, ?_⟩))
    · exact takeWhile1_fail (by decide) _
    · have := cmt_read body (w ++ i) hb
      simpa using this

theorem spRest_nonblank {c : Char} (h1 : c ∉ (c! " \t\r\n")) (h2 : c ≠ '/') (i : Str) :
    spRest (c :: i) = c :: i := by
  refine spRest_stop (alt_none.2 ⟨takeWhile1_fail (by simpa using h1) i, ?_⟩)
  cases hx : cmt (c :: i) with
  | none => rfl
  | some x =>
    obtain ⟨r1, a, r2, b, h3, -⟩ := delimited_some.1 (show _ = some (x.1, x.2) from hx)
    rw [tag_fail h2] at h3
    cases h3

theorem spRest_slash {c : Char} (h : c ≠ '*') (i : Str) : spRest ('/' :: c :: i) = '/' :: c :: i := by
  refine spRest_stop (alt_none.2 ⟨takeWhile1_fail (by decide) _, ?_⟩)
  cases hx : cmt ('/' :: c :: i) with
  | none => rfl
  | some x =>
    obtain ⟨r1, a, r2, b, h3, -⟩ := delimited_some.1 (show _ = some (x.1, x.2) from hx)
    obtain ⟨h4, -⟩ := tag_some.1 h3
    simp at h4
    exact absurd h4.1 h

theorem spRest_nil : spRest [] = [] := by
  have := spRest_suffix []
  simpa using this

/-! ## Identifiers -/

theorem isLetter_eq (c : Char) : isAlpha c = isLetter c := rfl

/-- The parser of the characters of an identifier after the first. -/
def identPiece : Parser Str :=
  alt (tag (c! "-")) (alt (tag (c! "_")) (alt alphanumeric1 (takeWhile1 nonAscii)))
/-- The parser of the start of an identifier. -/
def identFirst : Parser Str :=
  alt (tag (c! "-")) (alt (tag (c! "_")) (alt alpha1 (takeWhile1 nonAscii)))

theorem suff_identPiece : Suff identPiece :=
  suff_alt (suff_tag _) (suff_alt (suff_tag _) (suff_alt (suff_takeWhile1 _) (suff_takeWhile1 _)))
theorem prog_identPiece : Prog identPiece :=
  prog_alt (prog_tag (by simp)) (prog_alt (prog_tag (by simp))
    (prog_alt (prog_takeWhile1 _) (prog_takeWhile1 _)))

theorem alnum_ne {c : Char} (h : isAlnum c = true) : c ≠ '-' ∧ c ≠ '_' := by
  constructor <;> (rintro rfl; revert h; decide)

theorem nonAscii_ne {c : Char} (h : nonAscii c = true) : c ≠ '-' ∧ c ≠ '_' ∧ isAlnum c = false := by
  simp only [nonAscii, decide_eq_true_eq] at h
  refine ⟨by rintro rfl; revert h; decide, by rintro rfl; revert h; decide, ?_⟩
  simp only [isAlnum, isAlpha, Bool.or_eq_false_iff, Bool.and_eq_false_iff, decide_eq_false_iff_not,
    Char.le_def, UInt32.le_iff_toNat_le]
  have : c.val.toNat = c.val.toNat := rfl
  refine ⟨⟨Or.inr ?_, Or.inr ?_⟩, Or.inr ?_⟩ <;> (intro hx; have := Nat.le_trans h hx; revert this; decide)

theorem isIdentChar_cases {c : Char} (h : isIdentChar c = true) :
    isAlnum c = true ∨ c = '-' ∨ c = '_' ∨ nonAscii c = true := by
  simp only [isIdentChar, Bool.or_eq_true, beq_iff_eq] at h
  simp only [isAlnum, isLetter_eq, Bool.or_eq_true, nonAscii]
  grind

theorem rest0_ident_cons {c : Char} (h : isIdentChar c = true) (i : Str) :
    rest0 identPiece (c :: i) = rest0 identPiece i := by
  rcases isIdentChar_cases h with h | rfl | rfl | h
  · refine rest0_run suff_identPiece prog_identPiece (f := isAlnum) ?_ h i
    intro d j hd
    obtain ⟨a, ha⟩ := takeWhile1_run hd j
    exact ⟨a, alt_some.2 (Or.inr ⟨tag_fail (alnum_ne hd).1 _, alt_some.2 (Or.inr
      ⟨tag_fail (alnum_ne hd).2 _, alt_some.2 (Or.inl ha)⟩)⟩)⟩
  · exact rest0_step suff_identPiece prog_identPiece (alt_some.2 (Or.inl (tag_append (c! "-") i)))
  · exact rest0_step suff_identPiece prog_identPiece (alt_some.2 (Or.inr
      ⟨tag_fail (by decide) _, alt_some.2 (Or.inl (tag_append (c! "_") i))⟩))
  · refine rest0_run suff_identPiece prog_identPiece (f := nonAscii) ?_ h i
    intro d j hd
    obtain ⟨a, ha⟩ := takeWhile1_run hd j
    obtain ⟨h1, h2, h3⟩ := nonAscii_ne hd
    exact ⟨a, alt_some.2 (Or.inr ⟨tag_fail h1 _, alt_some.2 (Or.inr
      ⟨tag_fail h2 _, alt_some.2 (Or.inr ⟨takeWhile1_fail h3 _, ha⟩)⟩)⟩)⟩

theorem identPiece_none {c : Char} (h : isIdentChar c = false) (i : Str) :
    identPiece (c :: i) = none := by
  simp only [isIdentChar, Bool.or_eq_false_iff, beq_eq_false_iff_ne] at h
  obtain ⟨⟨⟨⟨h1, h2⟩, h3⟩, h4⟩, h5⟩ := h
  refine alt_none.2 ⟨tag_fail h3 _, alt_none.2 ⟨tag_fail h4 _, alt_none.2 ⟨takeWhile1_fail ?_ _,
    takeWhile1_fail h5 _⟩⟩⟩
  simp [isAlnum, isLetter_eq, h1, h2]

/-- The next character does not continue an identifier. -/
def NoIdent (r : Str) : Prop := ∀ c ∈ r.head?, isIdentChar c = false

theorem rest0_ident {t r : Str} (ht : ∀ d ∈ t, isIdentChar d = true) (hr : NoIdent r) :
    rest0 identPiece (t ++ r) = r := by
  induction t with
  | nil =>
    refine rest0_stop suff_identPiece ?_
    cases r with
    | nil => rfl
    | cons c r => exact identPiece_none (hr c (by simp)) r
  | cons c t ih =>
    rw [List.cons_append, rest0_ident_cons (ht c (by simp)), ih (fun d hd => ht d (by simp [hd]))]

theorem ident_read {k r : Str} (hk : Ident k) (hr : NoIdent r) : ident (k ++ r) = some (r, k) := by
  cases k with
  | nil => exact hk.elim
  | cons c t =>
    obtain ⟨hc, hd, ht⟩ := hk
    have first : ∃ r1 a, identFirst (c :: (t ++ r)) = some (r1, a) ∧ rest0 identPiece r1 = r := by
      have hrest := rest0_ident ht hr
      have run : ∀ f : Char → Bool, f c = true → (∀ d, f d = true → isIdentChar d = true) →
          rest0 identPiece ((c :: (t ++ r)).dropWhile f) = r := by
        intro f hf hfi
        rw [rest0_dropWhile (fun d i hd => rest0_ident_cons (hfi d hd) i), rest0_ident_cons hc]
        exact hrest
      rcases isIdentChar_cases hc with h | rfl | rfl | h
      · have ha : isAlpha c = true := by
          simp only [isAlnum, Bool.or_eq_true, Bool.and_eq_true, decide_eq_true_eq] at h
          rcases h with h | h
          · exact h
          · exact absurd h hd
        obtain ⟨a, hrun⟩ := takeWhile1_run ha (t ++ r)
        refine ⟨_, a, alt_some.2 (Or.inr ⟨tag_fail (alnum_ne h).1 _, alt_some.2 (Or.inr
          ⟨tag_fail (alnum_ne h).2 _, alt_some.2 (Or.inl hrun)⟩)⟩), run _ ha ?_⟩
        intro d hd
        simp only [isIdentChar, ← isLetter_eq, hd, Bool.true_or]
      · exact ⟨_, _, alt_some.2 (Or.inl (tag_append (c! "-") (t ++ r))), hrest⟩
      · exact ⟨_, _, alt_some.2 (Or.inr ⟨tag_fail (by decide) _,
          alt_some.2 (Or.inl (tag_append (c! "_") (t ++ r)))⟩), hrest⟩
      · obtain ⟨a, hrun⟩ := takeWhile1_run h (t ++ r)
        obtain ⟨h1, h2, h3⟩ := nonAscii_ne h
        have h4 : isAlpha c = false := by
          simp only [isAlnum, Bool.or_eq_false_iff] at h3
          exact h3.1
        refine ⟨_, a, alt_some.2 (Or.inr ⟨tag_fail h1 _, alt_some.2 (Or.inr
          ⟨tag_fail h2 _, alt_some.2 (Or.inr ⟨takeWhile1_fail h4 _, hrun⟩)⟩)⟩), run _ h ?_⟩
        intro d hd
        simp only [nonAscii] at hd
        simp only [isIdentChar, hd, Bool.or_true]
    obtain ⟨r1, a, h1, h2⟩ := first
    obtain ⟨as, h3⟩ := many0_rest0 suff_identPiece prog_identPiece r1
    rw [h2] at h3
    exact recognize_append (t := c :: t) (preceded_some.2 ⟨r1, a, h1, h3⟩)

/-! ## Strings -/

/-- The parser of the inside of a string. -/
def strPiece : Parser Str := alt (isNot (c! "\\\"")) (recognize (preceded (tag (c! "\\")) anychar))

theorem rest0_str {body : Str} (hb : StrBody body) (w : Str) :
    rest0 strPiece (body ++ '"' :: w) = '"' :: w := by
  induction hb with
  | nil =>
    refine rest0_stop suff_stringPiece (alt_none.2 ⟨isNot_fail (by simp) _, recognize_none.2 ?_⟩)
    cases hx : preceded (tag (c! "\\")) anychar ([] ++ '"' :: w) with
    | none => rfl
    | some x =>
      obtain ⟨r', a, h1, h2⟩ := preceded_some.1 (show _ = some (x.1, x.2) from hx)
      rw [List.nil_append, tag_fail (by decide)] at h1
      cases h1
  | char c s h1 h2 _ ih =>
    refine Eq.trans (rest0_run suff_stringPiece prog_stringPiece
      (f := fun c => !(c! "\\\"").elem c) ?_ ?_ _) ih
    · intro d j hd
      obtain ⟨a, ha⟩ := takeWhile1_run (f := fun c => !(c! "\\\"").elem c) hd j
      exact ⟨a, alt_some.2 (Or.inl ha)⟩
    · simp [h1, h2]
  | esc c s _ ih =>
    refine Eq.trans (rest0_step suff_stringPiece prog_stringPiece (a := ['\\', c])
      (r := s ++ '"' :: w) (alt_some.2 (Or.inr ⟨isNot_fail (by simp) _, ?_⟩))) ih
    refine recognize_append (t := ['\\', c]) (a := c) (preceded_some.2
      ⟨c :: (s ++ '"' :: w), c! "\\", ?_, rfl⟩)
    exact tag_append (c! "\\") _

theorem string_read {body : Str} (hb : StrBody body) (w : Str) :
    ∃ t, Css.string ('"' :: body ++ '"' :: w) = some (spRest w, t) := by
  refine ⟨'"' :: body ++ ['"'], trimmed_some.2 ⟨w, ?_, rfl⟩⟩
  rw [List.cons_append, spRest_nonblank (by simp) (by simp)]
  refine nonEmpty_some.2 ⟨by simp, ?_⟩
  have e : '"' :: (body ++ '"' :: w) = ('"' :: body ++ ['"']) ++ w := by simp
  rw [e]
  obtain ⟨as, h3⟩ := many0_rest0 suff_stringPiece prog_stringPiece (body ++ '"' :: w)
  have h4 := rest0_str hb w
  unfold strPiece at h4
  rw [h4] at h3
  refine recognize_append (a := as) (preceded_some.2 ⟨body ++ '"' :: w, c! "\"", ?_,
    terminated_some.2 ⟨'"' :: w, c! "\"", h3, tag_append (c! "\"") w⟩⟩)
  have := tag_append (c! "\"") (body ++ '"' :: w)
  simpa using this

/-! ## Values -/

theorem interpolation_fail {i : Str} (h : ∀ c ∈ (spRest i).head?, c ≠ '$') : interpolation i = none := by
  refine trimmed_none.2 ?_
  cases hs : spRest i with
  | nil => rfl
  | cons c t =>
    have hc : c ≠ '$' := h c (by rw [hs]; simp)
    cases hx : nonEmpty _ (c :: t) with
    | none => rfl
    | some x =>
      obtain ⟨-, h1⟩ := nonEmpty_some.1 (show _ = some (x.1, x.2) from hx)
      obtain ⟨_, _, _, _, h2, -⟩ := delimited_some.1 h1
      rw [tag_fail hc] at h2
      cases h2

theorem string_fail {i : Str} (h : ∀ c ∈ (spRest i).head?, c ≠ '"') : Css.string i = none := by
  refine trimmed_none.2 ?_
  cases hs : spRest i with
  | nil => rfl
  | cons c t =>
    have hc : c ≠ '"' := h c (by rw [hs]; simp)
    cases hx : nonEmpty _ (c :: t) with
    | none => rfl
    | some x =>
      obtain ⟨-, h1⟩ := nonEmpty_some.1 (show _ = some (x.1, x.2) from hx)
      obtain ⟨_, h2, -⟩ := recognize_some.1 h1
      obtain ⟨_, _, h3, -⟩ := preceded_some.1 h2
      rw [tag_fail hc] at h3
      cases h3

/-- A text that starts with `;`, `}` or `{` or is empty ends a value. -/
def EndsValue (r : Str) : Prop := r = [] ∨ ∃ t, r = ';' :: t ∨ r = '}' :: t ∨ r = '{' :: t

theorem spRest_endsValue {r : Str} (h : EndsValue r) : spRest r = r := by
  rcases h with rfl | ⟨t, rfl | rfl | rfl⟩
  · exact spRest_nil
  · exact spRest_nonblank (by simp) (by simp) t
  · exact spRest_nonblank (by simp) (by simp) t
  · exact spRest_nonblank (by simp) (by simp) t

theorem valuePiece_end {r : Str} (h : EndsValue r) : valuePiece r = none := by
  have hsp := spRest_endsValue h
  refine alt_none.2 ⟨?_, alt_none.2 ⟨recognize_none.2 (interpolation_fail ?_), alt_none.2 ⟨string_fail ?_,
    recognize_none.2 ?_⟩⟩⟩
  · rcases h with rfl | ⟨t, rfl | rfl | rfl⟩
    · rfl
    · exact isNot_fail (by simp) _
    · exact isNot_fail (by simp) _
    · exact isNot_fail (by simp) _
  · rw [hsp]; rcases h with rfl | ⟨t, rfl | rfl | rfl⟩ <;> simp
  · rw [hsp]; rcases h with rfl | ⟨t, rfl | rfl | rfl⟩ <;> simp
  · cases hx : preceded (tag (c! "/")) (noneOf (c! "${;}\"*")) r with
    | none => rfl
    | some x =>
      obtain ⟨_, _, h1, -⟩ := preceded_some.1 (show _ = some (x.1, x.2) from hx)
      rcases h with rfl | ⟨t, rfl | rfl | rfl⟩
      · simp [tag] at h1
      · rw [tag_fail (by decide)] at h1; cases h1
      · rw [tag_fail (by decide)] at h1; cases h1
      · rw [tag_fail (by decide)] at h1; cases h1

theorem rest0_value_char {c : Char} (h : c ∉ (c! "${;}/\"")) (i : Str) :
    rest0 valuePiece (c :: i) = rest0 valuePiece i := by
  refine rest0_run suff_valuePiece prog_valuePiece (f := fun c => !(c! "${;}/\"").elem c) ?_
    (by simpa using h) i
  intro d j hd
  obtain ⟨a, ha⟩ := takeWhile1_run (f := fun c => !(c! "${;}/\"").elem c) hd j
  exact ⟨a, alt_some.2 (Or.inl ha)⟩

theorem value_start {v : Str} (hv : ValueText v) (r : Str) (hr : EndsValue r) :
    (rest0 valuePiece (v ++ r) = r ∧ rest0 valuePiece (spRest (v ++ r)) = r) ∧
    (v ≠ [] → ∃ x, valuePiece (v ++ r) = some x) := by
  induction hv with
  | nil =>
    refine ⟨?_, fun h => absurd rfl h⟩
    rw [List.nil_append, spRest_endsValue hr]
    exact ⟨rest0_stop suff_valuePiece (valuePiece_end hr), rest0_stop suff_valuePiece (valuePiece_end hr)⟩
  | char c s hc _ ih =>
    rw [List.cons_append]
    refine ⟨?_, fun _ => ?_⟩
    · have h1 : rest0 valuePiece (c :: (s ++ r)) = r := (rest0_value_char hc _).trans ih.1.1
      refine ⟨h1, ?_⟩
      by_cases hw : c ∈ (c! " \t\r\n")
      · rw [spRest_ws (by simpa using hw)]
        exact ih.1.2
      · rw [spRest_nonblank hw (by rintro rfl; simp at hc)]
        exact h1
    · obtain ⟨a, ha⟩ := isNot_run hc (s ++ r)
      exact ⟨_, alt_some.2 (Or.inl ha)⟩
  | str body s hb _ ih =>
    obtain ⟨t, ht⟩ := string_read hb (s ++ r)
    have e : '"' :: body ++ '"' :: s ++ r = '"' :: body ++ '"' :: (s ++ r) := by simp
    have hsp : spRest ('"' :: body ++ '"' :: (s ++ r)) = '"' :: body ++ '"' :: (s ++ r) := by
      rw [List.cons_append]
      exact spRest_nonblank (by simp) (by simp) _
    have hp : valuePiece ('"' :: body ++ '"' :: (s ++ r)) = some (spRest (s ++ r), t) := by
      refine alt_some.2 (Or.inr ⟨isNot_fail (by simp) _, alt_some.2 (Or.inr
        ⟨recognize_none.2 (interpolation_fail ?_), alt_some.2 (Or.inl ht)⟩)⟩)
      rw [hsp]; simp
    rw [e, hsp]
    have h1 := (rest0_step suff_valuePiece prog_valuePiece hp).trans ih.1.2
    exact ⟨⟨h1, h1⟩, fun _ => ⟨_, hp⟩⟩
  | slash c s hc _ ih =>
    rw [List.cons_append, List.cons_append]
    have hne : c ≠ '*' := by rintro rfl; simp at hc
    have hsp := spRest_slash hne (s ++ r)
    have hp : valuePiece ('/' :: c :: (s ++ r)) = some (s ++ r, ['/', c]) := by
      refine alt_some.2 (Or.inr ⟨isNot_fail (by simp) _, alt_some.2 (Or.inr
        ⟨recognize_none.2 (interpolation_fail ?_), alt_some.2 (Or.inr ⟨string_fail ?_, ?_⟩)⟩)⟩)
      · rw [hsp]; simp
      · rw [hsp]; simp
      · exact recognize_append (t := ['/', c]) (a := c) (preceded_some.2
          ⟨c :: (s ++ r), c! "/", tag_append (c! "/") _, noneOf_some.2 ⟨rfl, hc⟩⟩)
    rw [hsp]
    have h1 := (rest0_step suff_valuePiece prog_valuePiece hp).trans ih.1.1
    exact ⟨⟨h1, h1⟩, fun _ => ⟨_, hp⟩⟩

theorem many1_rest0 {p : Parser α} (hp : Suff p) (hpp : Prog p) {i : Str} {x : Str × α}
    (h : p i = some x) : ∃ as, many1 p i = some (rest0 p i, as) := by
  obtain ⟨r, a⟩ := x
  obtain ⟨as, h1⟩ := many0_rest0 hp hpp r
  exact ⟨a :: as, many1_some.2 ⟨r, a, as, h, by rw [rest0_step hp hpp h]; exact h1, rfl⟩⟩

theorem rawValue_read {v r : Str} (hv : ValueText v) (hne : v ≠ []) (hr : EndsValue r) :
    map (recognize (many1 valuePiece)) Str.trim (v ++ r) = some (r, Str.trim v) := by
  obtain ⟨⟨h1, -⟩, h2⟩ := value_start hv r hr
  obtain ⟨x, hx⟩ := h2 hne
  obtain ⟨as, has⟩ := many1_rest0 suff_valuePiece prog_valuePiece hx
  rw [h1] at has
  exact map_some.2 ⟨v, recognize_append has, rfl⟩

/-- A value text that does not start with a blank. -/
def NoLead (v : Str) : Prop := ∀ c ∈ v.head?, c ∉ (c! " \t\r\n")

theorem spRest_value {v r : Str} (hv : ValueText v) (hne : v ≠ []) (hl : NoLead v) :
    spRest (v ++ r) = v ++ r := by
  cases hv with
  | nil => exact absurd rfl hne
  | char c s hc _ => exact spRest_nonblank (hl c (by simp)) (by rintro rfl; simp at hc) _
  | str body s _ _ => exact spRest_nonblank (by simp) (by simp) _
  | slash c s hc _ => exact spRest_slash (by rintro rfl; simp at hc) _

/-! ## Values with a comment after them -/

/-- The last character that is not white space is not a quote. -/
def EndsPlain (v : Str) : Prop :=
  ∃ a c w, v = a ++ c :: w ∧ c ∉ (c! " \t\r\n") ∧ c ≠ '"' ∧ ∀ d ∈ w, d ∈ (c! " \t\r\n")

theorem EndsPlain.cons {c : Char} {s : Str} (h : EndsPlain (c :: s)) :
    EndsPlain s ∨ (c ≠ '"' ∧ ∀ d ∈ s, d ∈ (c! " \t\r\n")) := by
  obtain ⟨a, x, w, e, h1, h2, h3⟩ := h
  cases a with
  | nil =>
    simp only [List.nil_append, List.cons.injEq] at e
    obtain ⟨rfl, rfl⟩ := e
    exact Or.inr ⟨h2, h3⟩
  | cons b a =>
    simp only [List.cons_append, List.cons.injEq] at e
    exact Or.inl ⟨a, x, w, e.2, h1, h2, h3⟩

theorem EndsPlain.quote {s t : Str} (h : EndsPlain (s ++ '"' :: t)) : EndsPlain t := by
  induction s with
  | nil =>
    rcases h.cons with h | h
    · exact h
    · exact absurd rfl h.1
  | cons c s ih =>
    rcases h.cons with h | h
    · exact ih h
    · exact absurd (h.2 '"' (by simp)) (by decide)

theorem EndsPlain.ws {c : Char} {s : Str} (h : EndsPlain (c :: s)) (hc : c ∈ (c! " \t\r\n")) :
    EndsPlain s := by
  obtain ⟨a, x, w, e, h1, h2, h3⟩ := h
  cases a with
  | nil =>
    simp only [List.nil_append, List.cons.injEq] at e
    rw [e.1] at hc
    exact absurd hc h1
  | cons b a =>
    simp only [List.cons_append, List.cons.injEq] at e
    exact ⟨a, x, w, e.2, h1, h2, h3⟩

/-- A comment, and later the end of the value. -/
def CommentEnds (r : Str) : Prop := (∃ t, r = '/' :: '*' :: t) ∧ EndsValue (spRest r)

theorem valuePiece_comment {r : Str} (h : CommentEnds r) : valuePiece r = none := by
  obtain ⟨⟨t, rfl⟩, h⟩ := h
  refine alt_none.2 ⟨isNot_fail (by simp) _, alt_none.2 ⟨recognize_none.2 (interpolation_fail ?_),
    alt_none.2 ⟨string_fail ?_, recognize_none.2 ?_⟩⟩⟩
  · rcases h with h | ⟨t, h | h | h⟩ <;> rw [h] <;> simp
  · rcases h with h | ⟨t, h | h | h⟩ <;> rw [h] <;> simp
  · cases hx : preceded (tag (c! "/")) (noneOf (c! "${;}\"*")) ('/' :: '*' :: t) with
    | none => rfl
    | some x =>
      obtain ⟨_, _, h1, h2⟩ := preceded_some.1 (show _ = some (x.1, x.2) from hx)
      obtain ⟨h3, -⟩ := tag_some.1 h1
      simp at h3
      rw [← h3] at h2
      simp [noneOf] at h2

theorem value_comment {v : Str} (hv : ValueText v) (r : Str) (hr : CommentEnds r) :
    ((EndsPlain v ∨ ∀ c ∈ v, c ∈ (c! " \t\r\n")) → rest0 valuePiece (v ++ r) = r) ∧
    (EndsPlain v → rest0 valuePiece (spRest (v ++ r)) = r) := by
  induction hv with
  | nil =>
    refine ⟨fun _ => rest0_stop suff_valuePiece (valuePiece_comment hr), ?_⟩
    rintro ⟨a, c, w, e, -⟩
    simp at e
  | char c s hc _ ih =>
    have h1 : (EndsPlain (c :: s) ∨ ∀ d ∈ c :: s, d ∈ (c! " \t\r\n")) →
        rest0 valuePiece (c :: (s ++ r)) = r := by
      intro h
      refine (rest0_value_char hc _).trans (ih.1 ?_)
      rcases h with h | h
      · rcases h.cons with h | h
        · exact Or.inl h
        · exact Or.inr h.2
      · exact Or.inr (fun d hd => h d (by simp [hd]))
    refine ⟨h1, fun h => ?_⟩
    rw [List.cons_append]
    by_cases hw : c ∈ (c! " \t\r\n")
    · rw [spRest_ws (by simpa using hw)]
      exact ih.2 (h.ws hw)
    · rw [spRest_nonblank hw (by rintro rfl; simp at hc)]
      exact h1 (Or.inl h)
  | str body s hb _ ih =>
    obtain ⟨t, ht⟩ := string_read hb (s ++ r)
    have e : '"' :: body ++ '"' :: s ++ r = '"' :: body ++ '"' :: (s ++ r) := by simp
    have hsp : spRest ('"' :: body ++ '"' :: (s ++ r)) = '"' :: body ++ '"' :: (s ++ r) := by
      rw [List.cons_append]
      exact spRest_nonblank (by simp) (by simp) _
    have hp : valuePiece ('"' :: body ++ '"' :: (s ++ r)) = some (spRest (s ++ r), t) := by
      refine alt_some.2 (Or.inr ⟨isNot_fail (by simp) _, alt_some.2 (Or.inr
        ⟨recognize_none.2 (interpolation_fail ?_), alt_some.2 (Or.inl ht)⟩)⟩)
      rw [hsp]; simp
    have h1 : EndsPlain ('"' :: body ++ '"' :: s) →
        rest0 valuePiece ('"' :: body ++ '"' :: (s ++ r)) = r := fun h =>
      (rest0_step suff_valuePiece prog_valuePiece hp).trans (ih.2 h.quote)
    rw [e, hsp]
    refine ⟨fun h => ?_, h1⟩
    rcases h with h | h
    · exact h1 h
    · exact absurd (h '"' (by simp)) (by decide)
  | slash c s hc _ ih =>
    rw [List.cons_append, List.cons_append]
    have hne : c ≠ '*' := by rintro rfl; simp at hc
    have hsp := spRest_slash hne (s ++ r)
    have hp : valuePiece ('/' :: c :: (s ++ r)) = some (s ++ r, ['/', c]) := by
      refine alt_some.2 (Or.inr ⟨isNot_fail (by simp) _, alt_some.2 (Or.inr
        ⟨recognize_none.2 (interpolation_fail ?_), alt_some.2 (Or.inr ⟨string_fail ?_, ?_⟩)⟩)⟩)
      · rw [hsp]; simp
      · rw [hsp]; simp
      · exact recognize_append (t := ['/', c]) (a := c) (preceded_some.2
          ⟨c :: (s ++ r), c! "/", tag_append (c! "/") _, noneOf_some.2 ⟨rfl, hc⟩⟩)
    rw [hsp]
    have h1 : EndsPlain ('/' :: c :: s) → rest0 valuePiece ('/' :: c :: (s ++ r)) = r := by
      intro h
      refine (rest0_step suff_valuePiece prog_valuePiece hp).trans (ih.1 ?_)
      rcases h.cons with h | h
      · rcases h.cons with h | h
        · exact Or.inl h
        · exact Or.inr h.2
      · exact Or.inr (fun d hd => h.2 d (by simp [hd]))
    refine ⟨fun h => ?_, h1⟩
    rcases h with h | h
    · exact h1 h
    · exact absurd (h '/' (by simp)) (by decide)

/-- Blanks are white space, and then nothing or a comment. -/
theorem blank_split {a : Str} (h : Blank a) : ∃ w b, a = w ++ b ∧ (∀ c ∈ w, c ∈ (c! " \t\r\n")) ∧
    Blank b ∧ (b = [] ∨ ∃ t, b = '/' :: '*' :: t) := by
  induction h with
  | nil => exact ⟨[], [], rfl, by simp, .nil, Or.inl rfl⟩
  | ws c w hc _ ih =>
    obtain ⟨w', b, e, h1, h2, h3⟩ := ih
    refine ⟨c :: w', b, by rw [e]; rfl, ?_, h2, h3⟩
    intro d hd
    rcases List.mem_cons.1 hd with rfl | hd
    · exact hc
    · exact h1 d hd
  | comment body w hb hw _ =>
    exact ⟨[], _, rfl, by simp, .comment body w hb hw, Or.inr ⟨body ++ c! "*/" ++ w, by simp⟩⟩

theorem blank_of_ws {w : Str} (h : ∀ c ∈ w, c ∈ (c! " \t\r\n")) : Blank w := by
  induction w with
  | nil => exact .nil
  | cons c w ih => exact .ws c w (h c (by simp)) (ih (fun d hd => h d (by simp [hd])))

theorem valueText_append {v w : Str} (hv : ValueText v) (hw : ∀ c ∈ w, c ∈ (c! " \t\r\n")) :
    ValueText (v ++ w) := by
  induction hv with
  | nil =>
    rw [List.nil_append]
    induction w with
    | nil => exact .nil
    | cons c w ih =>
      refine .char c w ?_ (ih (fun d hd => hw d (by simp [hd])))
      have := hw c (by simp)
      simp only [List.mem_cons, List.not_mem_nil, or_false] at this
      rcases this with rfl | rfl | rfl | rfl <;> decide
  | char c s hc _ ih => exact .char c _ hc ih
  | str body s hb _ ih => simpa using ValueText.str body _ hb ih
  | slash c s hc _ ih => exact .slash c _ hc ih

/-- A value with blanks around it. -/
theorem styleAttrValue_read {w v a r : Str} (hw : Blank w) (hv : ValueText v) (hne : v ≠ [])
    (hl : NoLead v) (ha : Blank a)
    (hq : EndsPlain v ∨ ∀ c ∈ a, c ∈ (c! " \t\r\n")) (hr : EndsValue r) :
    styleAttrValue (w ++ (v ++ (a ++ r))) = some (r, Str.trim v) := by
  have lead : ∀ (x : Str), NoLead (v ++ x) := by
    intro x
    cases v with
    | nil => exact absurd rfl hne
    | cons c t => simpa [NoLead] using hl
  obtain ⟨s, b, rfl, h1, h2, h3⟩ := blank_split ha
  have htrim : Str.trim (v ++ s) = Str.trim v := Text.trim_append_ws _ (by
    intro c hc
    have := h1 c hc
    simp only [List.mem_cons, List.not_mem_nil, or_false] at this
    rcases this with rfl | rfl | rfl | rfl <;> decide)
  have hvs := valueText_append hv h1
  have hne' : v ++ s ≠ [] := by simp [hne]
  have hsp := spRest_value (r := b ++ r) hvs hne' (lead s)
  rcases h3 with rfl | ⟨t, rfl⟩
  · refine trimmed_some.2 ⟨r, ?_, (spRest_endsValue hr).symm⟩
    rw [spRest_blank hw]
    have e : v ++ (s ++ [] ++ r) = (v ++ s) ++ r := by simp
    rw [e]
    rw [List.nil_append] at hsp
    rw [hsp, rawValue_read hvs hne' hr, htrim]
  · have hq' : EndsPlain (v ++ s) := by
      rcases hq with ⟨x, c, y, e, e1, e2, e3⟩ | hq
      · refine ⟨x, c, y ++ s, by rw [e]; simp, e1, e2, ?_⟩
        intro d hd
        rcases List.mem_append.1 hd with hd | hd
        · exact e3 d hd
        · exact h1 d hd
      · exact absurd (hq '/' (by simp)) (by decide)
    have hend : spRest ('/' :: '*' :: t ++ r) = r := by rw [spRest_blank h2, spRest_endsValue hr]
    have hce : CommentEnds ('/' :: '*' :: t ++ r) := ⟨⟨t ++ r, rfl⟩, by rw [hend]; exact hr⟩
    refine trimmed_some.2 ⟨'/' :: '*' :: t ++ r, ?_, hend.symm⟩
    rw [spRest_blank hw]
    have e : v ++ (s ++ ('/' :: '*' :: t) ++ r) = (v ++ s) ++ ('/' :: '*' :: t ++ r) := by simp
    rw [e, hsp]
    have hrest := (value_comment hvs _ hce).1 (Or.inl hq')
    obtain ⟨x, hx⟩ : ∃ x, valuePiece ((v ++ s) ++ ('/' :: '*' :: t ++ r)) = some x := by
      cases hx : valuePiece ((v ++ s) ++ ('/' :: '*' :: t ++ r)) with
      | some x => exact ⟨x, rfl⟩
      | none =>
        rw [rest0_stop suff_valuePiece hx] at hrest
        have := congrArg List.length hrest
        rw [List.length_append] at this
        exact absurd (List.length_eq_zero_iff.1 (by omega)) hne'
    obtain ⟨as, has⟩ := many1_rest0 suff_valuePiece prog_valuePiece hx
    rw [hrest] at has
    exact map_some.2 ⟨v ++ s, recognize_append has, htrim⟩

theorem ident_nonblank {k : Str} (hk : Ident k) (r : Str) : spRest (k ++ r) = k ++ r := by
  cases k with
  | nil => exact hk.elim
  | cons c t =>
    obtain ⟨hc, -, -⟩ := hk
    refine spRest_nonblank ?_ ?_ _
    · intro h
      simp only [List.mem_cons, List.not_mem_nil, or_false] at h
      rcases h with rfl | rfl | rfl | rfl <;> (revert hc; decide)
    · rintro rfl
      revert hc; decide

theorem blank_noIdent {w : Str} (hw : Blank w) {r : Str} (hr : NoIdent r) : NoIdent (w ++ r) := by
  cases hw with
  | nil => exact hr
  | ws c w h _ =>
    intro d hd
    simp only [List.cons_append, List.head?_cons, Option.mem_def, Option.some.injEq] at hd
    subst hd
    simp only [List.mem_cons, List.not_mem_nil, or_false] at h
    rcases h with rfl | rfl | rfl | rfl <;> decide
  | comment body w _ _ =>
    intro d hd
    simp only [List.cons_append, List.head?_cons, Option.mem_def, Option.some.injEq] at hd
    subst hd
    decide

/-- One declaration `w1 key w2 : w3 value a`, up to the `;`, `}` or end after it. -/
theorem styleAttribute_read {w1 k w2 w3 v a r : Str} (hw1 : Blank w1) (hk : Ident k) (hw2 : Blank w2)
    (hw3 : Blank w3) (hv : ValueText v) (hne : v ≠ []) (hl : NoLead v) (ha : Blank a)
    (hq : EndsPlain v ∨ ∀ c ∈ a, c ∈ (c! " \t\r\n")) (hr : EndsValue r) :
    styleAttribute (w1 ++ (k ++ (w2 ++ (':' :: (w3 ++ (v ++ (a ++ r))))))) =
      some (r, (Str.trim k, [Str.trim v])) := by
  refine trimmed_some.2 ⟨r, ?_, (spRest_endsValue hr).symm⟩
  have hkn : k ≠ [] := by rintro rfl; exact hk
  rw [spRest_blank hw1, ident_nonblank hk]
  refine nonEmpty_some.2 ⟨by simp [hkn], map_some.2 ⟨(k, Str.trim v), ?_, rfl⟩⟩
  have hcolon : spRest (':' :: (w3 ++ (v ++ (a ++ r)))) = ':' :: (w3 ++ (v ++ (a ++ r))) :=
    spRest_nonblank (by simp) (by simp) _
  refine separatedPair_some.2 ⟨':' :: (w3 ++ (v ++ (a ++ r))), w3 ++ (v ++ (a ++ r)), c! ":", ?_,
    tag_append (c! ":") _, styleAttrValue_read hw3 hv hne hl ha hq hr⟩
  refine trimmed_some.2 ⟨w2 ++ ':' :: (w3 ++ (v ++ (a ++ r))), ?_, ?_⟩
  · rw [ident_nonblank hk]
    refine ident_read hk (blank_noIdent hw2 ?_)
    intro d hd
    simp only [List.head?_cons, Option.mem_def, Option.some.injEq] at hd
    subst hd; decide
  · rw [spRest_blank hw2, hcolon]

end LexP
