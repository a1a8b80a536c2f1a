import Verif.Spec.Accepted
import Verif.Proofs.Readable

/-! # Exactly the css that is accepted -/

namespace AcceptedP
open Nom NomP Css ParserP LexP ShapeP GrammarP DeclsP HeadersP ReparseP LayoutP ReadableP Spec

variable {α β : Type}

theorem gap_iff {i r : Str} : Skips i r ↔ r = spRest i := by
  constructor
  · rintro ⟨b, hb, rfl, hn⟩
    rw [spRest_blank hb, spRest_of_noBlanks hn]
  · rintro rfl
    obtain ⟨b, hb, e⟩ := spRest_text i
    exact ⟨b, hb, e, noBlanks_sp i⟩

theorem gap_sp (i : Str) : Skips i (spRest i) := gap_iff.2 rfl

/-! ## As long as can be -/

theorem rest0_le {p : Parser α} (hp : Suff p) (hpp : Prog p) (i : Str) : (rest0 p i).length ≤ i.length := by
  obtain ⟨as, h⟩ := many0_rest0 hp hpp i
  exact (suff_many0 hp).le h

theorem longest_iff {p : Parser Str} (hp : Suff p) (hpp : Prog p) {P : Str → Prop}
    (h1 : ∀ i r a, recognize (many1 p) i = some (r, a) → i = a ++ r ∧ P a ∧ a ≠ [])
    (h2 : ∀ t w, P t → (rest0 p (t ++ w)).length ≤ w.length ∧ (t ≠ [] → ∃ x, p (t ++ w) = some x))
    {i r a : Str} : recognize (many1 p) i = some (r, a) ↔ i = a ++ r ∧ a ≠ [] ∧ Longest P a r := by
  have fwd : ∀ {r a}, recognize (many1 p) i = some (r, a) → i = a ++ r ∧ a ≠ [] ∧ Longest P a r := by
    intro r a h
    obtain ⟨e, hP, hne⟩ := h1 _ _ _ h
    refine ⟨e, hne, hP, fun t' r' e' ht' => ?_⟩
    obtain ⟨as, h3, -⟩ := recognize_some.1 h
    obtain ⟨r1, x, as', h4, h5, -⟩ := many1_some.1 h3
    have h6 : rest0 p i = r := by
      rw [rest0_step hp hpp h4, rest0, h5]; rfl
    have h7 := (h2 t' r' ht').1
    rw [← e', ← e, h6] at h7
    have h8 := congrArg List.length e'
    simp only [List.length_append] at h8
    omega
  refine ⟨fwd, ?_⟩
  rintro ⟨e, hne, hP, hl⟩
  obtain ⟨x, hx⟩ := (h2 a r hP).2 hne
  rw [← e] at hx
  obtain ⟨as, has⟩ := many1_rest0 hp hpp hx
  have h3 : recognize (many1 p) i = some (rest0 p i, i.take (i.length - (rest0 p i).length)) :=
    recognize_some.2 ⟨as, has, rfl⟩
  obtain ⟨e', -, hP', hl'⟩ := fwd h3
  generalize i.take (i.length - (rest0 p i).length) = a' at *
  have l1 := hl _ _ (e.symm.trans e') hP'
  have l2 := hl' _ _ (e'.symm.trans e) hP
  obtain ⟨ea, er⟩ := List.append_inj (e.symm.trans e') (by omega)
  rw [h3, ← ea, ← er]

theorem dropWhile_le (f : Char → Bool) (s w : Str) (hs : ∀ d ∈ s, f d = true) :
    ((s ++ w).dropWhile f).length ≤ w.length := by
  induction s with
  | nil => exact (List.dropWhile_suffix f).length_le
  | cons c s ih =>
    rw [List.cons_append, List.dropWhile_cons, if_pos (hs c (by simp))]
    exact ih (fun d hd => hs d (by simp [hd]))

theorem value_reach {v : Str} (hv : ReadableValue v) (w : Str) :
    ((rest0 valuePiece (v ++ w)).length ≤ w.length ∧ (rest0 valuePiece (spRest (v ++ w))).length ≤ w.length) ∧
    (v ≠ [] → ∃ x, valuePiece (v ++ w) = some x) := by
  have hle := rest0_le suff_valuePiece prog_valuePiece
  induction hv with
  | nil =>
    refine ⟨⟨hle w, Nat.le_trans (hle _) (ParserP.spRest_le w)⟩, fun h => absurd rfl h⟩
  | char c s hc _ ih =>
    rw [List.cons_append]
    refine ⟨?_, fun _ => ?_⟩
    · have h1 : rest0 valuePiece (c :: (s ++ w)) = rest0 valuePiece (s ++ w) := rest0_value_char hc _
      refine ⟨by rw [h1]; exact ih.1.1, ?_⟩
      by_cases hw : c ∈ (c! " \t\r\n")
      · rw [spRest_ws (by simpa using hw)]
        exact ih.1.2
      · rw [spRest_nonblank hw (by rintro rfl; simp at hc), h1]
        exact ih.1.1
    · obtain ⟨a, ha⟩ := isNot_run hc (s ++ w)
      exact ⟨_, alt_some.2 (Or.inl ha)⟩
  | slash c s hc _ ih =>
    rw [List.cons_append, List.cons_append]
    have hne : c ≠ '*' := by rintro rfl; simp at hc
    have hsp := spRest_slash hne (s ++ w)
    have hp : valuePiece ('/' :: c :: (s ++ w)) = some (s ++ w, ['/', c]) := by
      refine alt_some.2 (Or.inr ⟨isNot_fail (by simp) _, alt_some.2 (Or.inr
        ⟨recognize_none.2 (interpolation_fail ?_), alt_some.2 (Or.inr ⟨string_fail ?_, ?_⟩)⟩)⟩)
      · rw [hsp]; simp
      · rw [hsp]; simp
      · exact recognize_append (t := ['/', c]) (a := c) (preceded_some.2
          ⟨c :: (s ++ w), c! "/", tag_append (c! "/") _, noneOf_some.2 ⟨rfl, hc⟩⟩)
    rw [hsp, rest0_step suff_valuePiece prog_valuePiece hp]
    exact ⟨⟨ih.1.1, ih.1.1⟩, fun _ => ⟨_, hp⟩⟩
  | str b body b' s hb hbody hb' _ ih =>
    have e : b ++ '"' :: (body ++ '"' :: (b' ++ s)) ++ w = b ++ ('"' :: (body ++ '"' :: (b' ++ (s ++ w)))) := by simp
    rw [e]
    obtain ⟨h1, h2⟩ := value_string (w := b' ++ (s ++ w)) hbody
    obtain ⟨h3, h4⟩ := value_after h1 h2 (isNot_fail (by simp) _) hb
    obtain ⟨h5, -⟩ := value_after h1 h2 (isNot_fail (by simp) _) .nil
    have h6 : (rest0 valuePiece (spRest (b' ++ (s ++ w)))).length ≤ w.length := by
      rw [spRest_blank hb']; exact ih.1.2
    refine ⟨⟨by rw [h3]; exact h6, ?_⟩, fun _ => h4⟩
    rw [spRest_blank hb, h1]
    rw [List.nil_append] at h5
    rw [h5]
    exact h6
  | placeholder b t b' s hb ht hb' _ ih =>
    have e : b ++ (t ++ (b' ++ s)) ++ w = b ++ (t ++ (b' ++ (s ++ w))) := by simp
    rw [e]
    obtain ⟨h1, h2⟩ := value_placeholder (w := b' ++ (s ++ w)) ht
    have h0 : isNot (c! "${;}/\"") (t ++ (b' ++ (s ++ w))) = none := by
      obtain ⟨u, rfl⟩ := placeholder_cons ht
      exact isNot_fail (by simp) _
    obtain ⟨h3, h4⟩ := value_after h1 h2 h0 hb
    obtain ⟨h5, -⟩ := value_after h1 h2 h0 .nil
    have h6 : (rest0 valuePiece (spRest (b' ++ (s ++ w)))).length ≤ w.length := by
      rw [spRest_blank hb']; exact ih.1.2
    refine ⟨⟨by rw [h3]; exact h6, ?_⟩, fun _ => h4⟩
    rw [spRest_blank hb, h1]
    rw [List.nil_append] at h5
    rw [h5]
    exact h6

/-- The values that are read are the longest ones. -/
theorem value_iff {i r a : Str} : recognize (many1 valuePiece) i = some (r, a) ↔
    i = a ++ r ∧ a ≠ [] ∧ Longest ReadableValue a r := by
  refine longest_iff suff_valuePiece prog_valuePiece ?_ (fun t w h => ⟨(value_reach h w).1.1, (value_reach h w).2⟩)
  intro i r a h
  obtain ⟨t, e, rfl, h1, h2⟩ := readable_follows _ _ _ h
  exact ⟨e, h1, h2⟩

/-- Blanks that are skipped in front of a text with something behind. -/
theorem skip_cases {s w : Str} (hs : NoBlanks s) :
    spRest (s ++ w) = s ++ w ∨ (spRest (s ++ w)).length ≤ w.length := by
  obtain ⟨b, hb, e⟩ := spRest_text (s ++ w)
  rcases List.append_eq_append_iff.1 e with ⟨a, h1, h2⟩ | ⟨a, h1, h2⟩
  · right
    have := congrArg List.length h2
    rw [List.length_append] at this
    omega
  · left
    have := hs b a hb h1
    subst this
    exact e.symm

theorem sel_reach {s : Str} (hs : ReadableSelector s) (w : Str) :
    (rest0 selectorPiece (s ++ w)).length ≤ w.length ∧ (s ≠ [] → ∃ x, selectorPiece (s ++ w) = some x) := by
  have hle := rest0_le suff_selectorPiece prog_selectorPiece
  induction hs with
  | nil => exact ⟨hle w, fun h => absurd rfl h⟩
  | run c s u hc hs hu _ ih =>
    obtain ⟨a, ha⟩ := selectorPiece_char hc (s ++ (u ++ w))
    have e : c :: (s ++ u) ++ w = c :: (s ++ (u ++ w)) := by simp
    rw [e]
    refine ⟨?_, fun _ => ⟨_, ha⟩⟩
    rw [rest0_step suff_selectorPiece prog_selectorPiece ha]
    cases u with
    | nil => exact Nat.le_trans (hle _) (dropWhile_le _ s w (fun d hd => elem_false (hs d hd)))
    | cons x u =>
      rw [dropWhile_run (fun d hd => elem_false (hs d hd)) (by
        intro d hd
        rcases hu d (by simpa using hd) with rfl | rfl <;> decide)]
      exact ih.1
  | str body b s hbody hb hn _ ih =>
    obtain ⟨a, ha⟩ := selectorPiece_string (w := b ++ (s ++ w)) hbody
    rw [spRest_blank hb] at ha
    have e : '"' :: (body ++ '"' :: (b ++ s)) ++ w = '"' :: (body ++ '"' :: (b ++ (s ++ w))) := by simp
    rw [e]
    refine ⟨?_, fun _ => ⟨_, ha⟩⟩
    rw [rest0_step suff_selectorPiece prog_selectorPiece ha]
    rcases skip_cases (w := w) hn with h | h
    · rw [h]; exact ih.1
    · exact Nat.le_trans (hle _) h
  | placeholder t b s ht hb hn _ ih =>
    obtain ⟨a, ha⟩ := selectorPiece_placeholder (w := b ++ (s ++ w)) ht
    rw [spRest_blank hb] at ha
    have e : t ++ (b ++ s) ++ w = t ++ (b ++ (s ++ w)) := by simp
    rw [e]
    refine ⟨?_, fun _ => ⟨_, ha⟩⟩
    rw [rest0_step suff_selectorPiece prog_selectorPiece ha]
    rcases skip_cases (w := w) hn with h | h
    · rw [h]; exact ih.1
    · exact Nat.le_trans (hle _) h

theorem selectorRaw_iff {i r a : Str} : recognize (many1 selectorPiece) i = some (r, a) ↔
    i = a ++ r ∧ a ≠ [] ∧ Longest ReadableSelector a r :=
  longest_iff suff_selectorPiece prog_selectorPiece (fun _ _ _ h => selector_exact h) (fun _ w h => sel_reach h w)

theorem cond_reach {s : Str} (hs : ReadableCondition s) (w : Str) :
    (rest0 atRulePiece (s ++ w)).length ≤ w.length ∧ (s ≠ [] → ∃ x, atRulePiece (s ++ w) = some x) := by
  have hle := rest0_le suff_atRulePiece prog_atRulePiece
  induction hs with
  | nil => exact ⟨hle w, fun h => absurd rfl h⟩
  | char c s hc _ ih =>
    refine ⟨?_, fun _ => ?_⟩
    · have h1 : rest0 atRulePiece (c :: (s ++ w)) = rest0 atRulePiece (s ++ w) := by
        refine rest0_run suff_atRulePiece prog_atRulePiece (f := fun c => !(c! "${").elem c) ?_ (elem_false hc) _
        intro d j hd
        obtain ⟨a, ha⟩ := takeWhile1_run (f := fun c => !(c! "${").elem c) hd j
        exact ⟨a, alt_some.2 (Or.inl ha)⟩
      rw [List.cons_append, h1]
      exact ih.1
    · obtain ⟨a, ha⟩ := isNot_run hc (s ++ w)
      exact ⟨_, alt_some.2 (Or.inl ha)⟩
  | placeholder t b s ht hb hn _ ih =>
    obtain ⟨a, ha⟩ := interpolation_read ht (b ++ (s ++ w))
    rw [spRest_blank hb] at ha
    have e : t ++ (b ++ s) ++ w = t ++ (b ++ (s ++ w)) := by simp
    rw [e]
    have hp : ∃ x, atRulePiece (t ++ (b ++ (s ++ w))) = some (spRest (s ++ w), x) := by
      obtain ⟨u, rfl⟩ := placeholder_cons ht
      exact ⟨_, alt_some.2 (Or.inr ⟨isNot_fail (by simp) _, recognize_some.2 ⟨a, ha, rfl⟩⟩)⟩
    obtain ⟨x, hx⟩ := hp
    refine ⟨?_, fun _ => ⟨_, hx⟩⟩
    rw [rest0_step suff_atRulePiece prog_atRulePiece hx]
    rcases skip_cases (w := w) hn with h | h
    · rw [h]; exact ih.1
    · exact Nat.le_trans (hle _) h

theorem conditionRaw_iff {i r a : Str} : recognize (many1 atRulePiece) i = some (r, a) ↔
    i = a ++ r ∧ a ≠ [] ∧ Longest ReadableCondition a r :=
  longest_iff suff_atRulePiece prog_atRulePiece (fun _ _ _ h => condition_exact h) (fun _ w h => cond_reach h w)

end AcceptedP
