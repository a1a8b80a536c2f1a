import Verif.Spec.Grammar
import Verif.Proofs.Shape

/-! # The parser follows the grammar -/

namespace GrammarP
open Nom NomP Css ParserP LexP ShapeP Spec

variable {α β : Type}

/-- What the parser consumes is a text of `G`. -/
def Follows (p : Parser α) (G : Str → α → Prop) : Prop :=
  ∀ i r a, p i = some (r, a) → ∃ t, i = t ++ r ∧ G t a

theorem many0_follows {p : Parser α} (hp : Suff p) {G : Str → α → Prop} {M : Str → List α → Prop}
    (h : Follows p G) (hn : M [] []) (hc : ∀ t u a as, G t a → M u as → M (t ++ u) (a :: as)) :
    Follows (many0 p) M := by
  intro i r as hm
  generalize hl : i.length = n
  induction n using Nat.strongRecOn generalizing i r as with
  | ind n ih =>
    rw [many0_unfold hp] at hm
    split at hm
    · simp at hm
      exact ⟨[], by simp [hm.1], by rw [hm.2]; exact hn⟩
    · rename_i r1 a h1
      split at hm
      · simp at hm
      · split at hm
        · simp at hm
        · rename_i hne _ r2 as' h2
          simp at hm
          have := hp.le h1
          obtain ⟨t2, e2, c2⟩ := ih r1.length (by omega) _ _ _ h2 rfl
          obtain ⟨t1, e1, c1⟩ := h _ _ _ h1
          refine ⟨t1 ++ t2, by rw [e1, e2, hm.1]; simp, ?_⟩
          rw [← hm.2]
          exact hc _ _ _ _ c1 c2

theorem many1_follows {p : Parser α} (hp : Suff p) {G : Str → α → Prop} {M : Str → List α → Prop}
    (h : Follows p G) (hn : M [] []) (hc : ∀ t u a as, G t a → M u as → M (t ++ u) (a :: as)) :
    Follows (many1 p) M := by
  intro i r as hm
  obtain ⟨r1, a, as', h1, h2, rfl⟩ := many1_some.1 hm
  obtain ⟨t1, e1, c1⟩ := h _ _ _ h1
  obtain ⟨t2, e2, c2⟩ := many0_follows hp h hn hc _ _ _ h2
  exact ⟨t1 ++ t2, by rw [e1, e2]; simp, hc _ _ _ _ c1 c2⟩

/-! ## Blanks -/

theorem blank_append {a b : Str} (ha : Blank a) (hb : Blank b) : Blank (a ++ b) := by
  induction ha with
  | nil => exact hb
  | ws c w hc _ ih => exact .ws c _ hc ih
  | comment body w hn _ ih =>
    have := Blank.comment body _ hn ih
    simpa [List.append_assoc] using this

theorem no_close_run {run t : Str} (h : ∀ c ∈ run, c ≠ '*') (ht : ¬ (c! "*/") <:+: t) :
    ¬ (c! "*/") <:+: (run ++ t) := by
  induction run with
  | nil => exact ht
  | cons c run ih =>
    rw [List.cons_append, List.infix_cons_iff]
    rintro (⟨s, hs⟩ | h2)
    · simp at hs
      exact h c (by simp) hs.1.symm
    · exact ih (fun d hd => h d (by simp [hd])) h2

theorem cmt_body {i r : Str} {as : List Str} (h : many0 cmtPiece i = some (r, as)) :
    ∃ t, i = t ++ r ∧ ¬ (c! "*/") <:+: t := by
  generalize hl : i.length = n
  induction n using Nat.strongRecOn generalizing i r as with
  | ind n ih =>
    rw [many0_unfold suff_cmtPiece] at h
    split at h
    · simp at h
      exact ⟨[], by simp [h.1], by simp [List.infix_nil]⟩
    · rename_i r1 a h1
      split at h
      · simp at h
      · split at h
        · simp at h
        · rename_i hne _ r2 as' h2
          simp at h
          have := suff_cmtPiece.le h1
          obtain ⟨t2, e2, c2⟩ := ih r1.length (by omega) h2 rfl
          rcases alt_some.1 h1 with h1 | ⟨-, h1⟩
          · obtain ⟨t, e, ht⟩ := takeWhile1_text h1
            refine ⟨t ++ t2, by rw [e, e2, h.1]; simp, no_close_run ?_ c2⟩
            intro c hc
            have := ht c hc
            simpa using this
          · obtain ⟨r3, b, h3, h4⟩ := terminated_some.1 h1
            obtain ⟨e3, -⟩ := tag_some.1 h3
            have hno : tag (c! "/") r3 = none ∧ r1 = r3 := by
              unfold Nom.not at h4
              cases hx : tag (c! "/") r3 with
              | none => rw [hx] at h4; simp at h4; exact ⟨rfl, h4.symm⟩
              | some y => rw [hx] at h4; cases h4
            obtain ⟨hno, rfl⟩ := hno
            refine ⟨'*' :: t2, by rw [e3, e2, h.1]; simp, ?_⟩
            rw [List.infix_cons_iff]
            rintro (⟨s, hs⟩ | h5)
            · rw [tag_none] at hno
              apply hno
              simp only [List.cons_append, List.nil_append, List.cons.injEq, true_and] at hs
              rw [e2, ← hs]
              exact ⟨s ++ r2, by simp⟩
            · exact c2 h5

theorem cmt_follows : Follows cmt (fun t _ => Blank t) := by
  intro i r a h
  obtain ⟨r1, x, r2, y, h1, h2, h3⟩ := delimited_some.1 h
  obtain ⟨e1, -⟩ := tag_some.1 h1
  obtain ⟨e3, -⟩ := tag_some.1 h3
  obtain ⟨as, h4, -⟩ := recognize_some.1 h2
  obtain ⟨t, e, ht⟩ := cmt_body h4
  refine ⟨c! "/*" ++ t ++ c! "*/" ++ [], by rw [e1, e, e3]; simp, .comment t [] ht .nil⟩

theorem ws_blank {t : Str} (h : ∀ c ∈ t, c ∈ (c! " \t\r\n")) : Blank t := by
  induction t with
  | nil => exact .nil
  | cons c t ih => exact .ws c t (h c (by simp)) (ih fun d hd => h d (by simp [hd]))

theorem sp_follows : Follows sp (fun t _ => Blank t) := by
  intro i r a h
  obtain ⟨as, h1, -⟩ := recognize_some.1 h
  refine many0_follows suff_spPiece (G := fun t _ => Blank t) (M := fun t _ => Blank t) ?_ .nil
    (fun t u a as h1 h2 => blank_append h1 h2) _ _ _ h1
  intro i r a h
  rcases alt_some.1 h with h | ⟨-, h⟩
  · obtain ⟨t, e, ht⟩ := takeWhile1_text h
    exact ⟨t, e, ws_blank fun c hc => by simpa using ht c hc⟩
  · exact cmt_follows _ _ _ h

theorem spRest_text (i : Str) : ∃ b, Blank b ∧ i = b ++ spRest i := by
  obtain ⟨t, h⟩ := sp_total i
  obtain ⟨b, e, hb⟩ := sp_follows _ _ _ h
  exact ⟨b, hb, e⟩

theorem trimmed_text {f : Parser α} {i r : Str} {a : α} (h : trimmed f i = some (r, a)) :
    ∃ b b' i' r', Blank b ∧ Blank b' ∧ i = b ++ i' ∧ r' = b' ++ r ∧ f i' = some (r', a) := by
  obtain ⟨r', h1, rfl⟩ := trimmed_some.1 h
  obtain ⟨b, hb, e⟩ := spRest_text i
  obtain ⟨b', hb', e'⟩ := spRest_text r'
  exact ⟨b, b', _, r', hb, hb', e, e', h1⟩

/-! ## Pieces of raw texts -/

theorem str_body {i r : Str} {as : List Str} (h : many0 strPiece i = some (r, as)) :
    ∃ t, i = t ++ r ∧ StrBody t := by
  refine many0_follows (p := strPiece) suff_stringPiece
    (G := fun t _ => ∀ u, StrBody u → StrBody (t ++ u)) (M := fun t _ => StrBody t) ?_ .nil
    (fun t u a as h1 h2 => h1 u h2) _ _ _ h
  intro i r a h
  rcases alt_some.1 h with h | ⟨-, h⟩
  · obtain ⟨t, e, ht⟩ := takeWhile1_text h
    refine ⟨t, e, ?_⟩
    clear e h
    intro u hu
    induction t with
    | nil => exact hu
    | cons c t ih =>
      have := ht c (by simp)
      simp at this
      exact .char c _ this.1 this.2 (ih fun d hd => ht d (by simp [hd]))
  · obtain ⟨c, h1, -⟩ := recognize_some.1 h
    obtain ⟨r1, x, h2, h3⟩ := preceded_some.1 h1
    obtain ⟨rfl, -⟩ := tag_some.1 h2
    cases r1 with
    | nil => simp [anychar] at h3
    | cons d r1 =>
      simp only [anychar, Option.some.injEq, Prod.mk.injEq] at h3
      obtain ⟨rfl, rfl⟩ := h3
      exact ⟨['\\', d], by simp, fun u hu => .esc d u hu⟩

/-- Variant of `opt_some` with the parsed value first. -/
theorem opt_cases {p : Parser α} {i r : Str} {o : Option α} (h : opt p i = some (r, o)) :
    (∃ z, p i = some (r, z)) ∨ r = i := by
  unfold opt at h
  split at h
  · simp at h; exact Or.inr h.1.symm
  · rename_i r' a h1
    simp at h
    exact Or.inl ⟨a, by rw [h1, h.1]⟩

theorem string_follows : Follows Css.string (fun t _ => ∃ b b' body, Blank b ∧ Blank b' ∧ StrBody body ∧
    t = b ++ ('"' :: body ++ '"' :: b')) := by
  intro i r a h
  obtain ⟨b, b', i', r', hb, hb', e, e', h1⟩ := trimmed_text h
  obtain ⟨-, h2⟩ := nonEmpty_some.1 h1
  obtain ⟨as, h3, -⟩ := recognize_some.1 h2
  obtain ⟨r1, x, h4, h5⟩ := preceded_some.1 h3
  obtain ⟨r2, y, h6, h7⟩ := terminated_some.1 h5
  obtain ⟨e4, -⟩ := tag_some.1 h4
  obtain ⟨e7, -⟩ := tag_some.1 h7
  obtain ⟨t, e6, ht⟩ := str_body h6
  exact ⟨_, by rw [e, e4, e6, e7, e']; simp, b, b', t, hb, hb', ht, rfl⟩

theorem run_letters {f : Char → Bool} {i r a : Str} (h : takeWhile1 f i = some (r, a)) :
    ∃ c t, i = c :: t ++ r ∧ f c = true ∧ ∀ d ∈ t, f d = true := by
  obtain ⟨t, e, ht⟩ := takeWhile1_text h
  cases t with
  | nil =>
    have hp := prog_takeWhile1 f _ _ _ h
    rw [e] at hp
    simp at hp
  | cons c t => exact ⟨c, t, e, ht c (by simp), fun d hd => ht d (by simp [hd])⟩

theorem interpolation_follows : Follows interpolation (fun t _ => ∃ b b' u, Blank b ∧ Blank b' ∧
    Placeholder u ∧ t = b ++ (u ++ b')) := by
  intro i r a h
  obtain ⟨b, b', i', r', hb, hb', e, e', h1⟩ := trimmed_text h
  obtain ⟨-, h2⟩ := nonEmpty_some.1 h1
  obtain ⟨r1, x, r2, y, h3, h4, h5⟩ := delimited_some.1 h2
  obtain ⟨e3, -⟩ := tag_some.1 h3
  obtain ⟨e5, -⟩ := tag_some.1 h5
  obtain ⟨b1, b2, i2, r3, hb1, hb2, e4, e6, h6⟩ := trimmed_text h4
  obtain ⟨as, h7, -⟩ := recognize_some.1 h6
  obtain ⟨r4, z, h8, h9⟩ := preceded_some.1 h7
  obtain ⟨c, t, e8, hc, ht⟩ := run_letters h8
  have hpiece : Follows (alt alphanumeric1 (tag (c! "_")))
      (fun t _ => ∀ d ∈ t, isLetter d = true ∨ ('0' ≤ d ∧ d ≤ '9') ∨ d = '_') := by
    intro i r a h
    rcases alt_some.1 h with h | ⟨-, h⟩
    · obtain ⟨t, e, ht⟩ := takeWhile1_text h
      refine ⟨t, e, fun d hd => ?_⟩
      have := ht d hd
      simp only [isAlnum, Bool.or_eq_true, Bool.and_eq_true, decide_eq_true_eq, isLetter_eq] at this
      grind
    · obtain ⟨rfl, -⟩ := tag_some.1 h
      exact ⟨['_'], rfl, by simp⟩
  obtain ⟨t2, e9, ht2⟩ := many0_follows (suff_alt (suff_takeWhile1 _) (suff_tag _)) hpiece
    (M := fun t _ => ∀ d ∈ t, isLetter d = true ∨ ('0' ≤ d ∧ d ≤ '9') ∨ d = '_') (by simp)
    (by intro t u _ _ h1 h2 d hd; rcases List.mem_append.1 hd with hd | hd
        · exact h1 d hd
        · exact h2 d hd) _ _ _ h9
  refine ⟨b ++ ((c! "${" ++ b1 ++ c :: (t ++ t2) ++ b2 ++ c! "}") ++ b'), ?_, b, b', _, hb, hb',
    ⟨b1, c, t ++ t2, b2, hb1, hb2, hc, ?_, rfl⟩, rfl⟩
  · rw [e, e3, e4, e8, e9, e6, e5, e']; simp
  · intro d hd
    rcases List.mem_append.1 hd with hd | hd
    · exact Or.inl (ht d hd)
    · exact ht2 d hd

/-- Prefixing a text keeps it in `R`. -/
def Extends (R : Str → Prop) (t : Str) : Prop := ∀ u, R u → R (t ++ u)

theorem value_follows : Follows (recognize (many1 valuePiece))
    (fun t a => a = t ∧ RawValue t ∧ t ≠ []) := by
  intro i r a h
  have hp := prog_recognize (prog_many1 suff_valuePiece prog_valuePiece) _ _ _ h
  obtain ⟨as, h1, rfl⟩ := recognize_some.1 h
  obtain ⟨t, e, ht⟩ := many1_follows suff_valuePiece (G := fun t _ => Extends RawValue t)
    (M := fun t _ => RawValue t) (by
      intro i r a h
      rcases alt_some.1 h with h | ⟨-, h⟩
      · obtain ⟨t, e, ht⟩ := takeWhile1_text h
        refine ⟨t, e, ?_⟩
        clear e h
        intro u hu
        induction t with
        | nil => exact hu
        | cons c t ih =>
          refine .char c _ ?_ (ih fun d hd => ht d (by simp [hd]))
          simpa using ht c (by simp)
      rcases alt_some.1 h with h | ⟨-, h⟩
      · obtain ⟨x, h2, -⟩ := recognize_some.1 h
        obtain ⟨t, e, b, b', u, hb, hb', hu, rfl⟩ := interpolation_follows _ _ _ h2
        refine ⟨_, e, fun w hw => ?_⟩
        have := RawValue.blank b _ hb (.placeholder u _ hu (.blank b' w hb' hw))
        simpa [List.append_assoc] using this
      rcases alt_some.1 h with h | ⟨-, h⟩
      · obtain ⟨t, e, b, b', u, hb, hb', hu, rfl⟩ := string_follows _ _ _ h
        refine ⟨_, e, fun w hw => ?_⟩
        have := RawValue.blank b _ hb (.str u _ hu (.blank b' w hb' hw))
        simpa [List.append_assoc] using this
      · obtain ⟨x, h2, -⟩ := recognize_some.1 h
        obtain ⟨r1, y, h3, h4⟩ := preceded_some.1 h2
        obtain ⟨rfl, -⟩ := tag_some.1 h3
        obtain ⟨rfl, h5⟩ := noneOf_some.1 h4
        exact ⟨['/', x], rfl, fun u hu => .slash x u (by simpa using h5) hu⟩)
    .nil (fun t u a as h1 h2 => h1 u h2) _ _ _ h1
  refine ⟨t, e, ?_, ht, ?_⟩
  · rw [e, take_text]
  · rintro rfl
    rw [e] at hp
    simp at hp

theorem selectorRaw_follows : Follows (recognize (many1 selectorPiece))
    (fun t a => a = t ∧ RawSelector t ∧ t ≠ []) := by
  intro i r a h
  have hp := prog_recognize (prog_many1 suff_selectorPiece prog_selectorPiece) _ _ _ h
  obtain ⟨as, h1, rfl⟩ := recognize_some.1 h
  obtain ⟨t, e, ht⟩ := many1_follows suff_selectorPiece (G := fun t _ => Extends RawSelector t)
    (M := fun t _ => RawSelector t) (by
      intro i r a h
      rcases alt_some.1 h with h | ⟨-, h⟩
      · obtain ⟨x, h2, -⟩ := recognize_some.1 h
        obtain ⟨r1, y, h3, h4⟩ := preceded_some.1 h2
        obtain ⟨rfl, h5⟩ := noneOf_some.1 h3
        rcases opt_cases h4 with ⟨z, h6⟩ | e6
        · obtain ⟨t, e, ht⟩ := takeWhile1_text h6
          refine ⟨y :: t, by rw [e]; rfl, fun u hu => .run y t u (by simpa using h5) ?_ hu⟩
          intro d hd
          simpa using ht d hd
        · subst e6
          exact ⟨[y], rfl, fun u hu => .run y [] u (by simpa using h5) (by simp) hu⟩
      rcases alt_some.1 h with h | ⟨-, h⟩
      · obtain ⟨t, e, b, b', u, hb, hb', hu, rfl⟩ := string_follows _ _ _ h
        refine ⟨_, e, fun w hw => ?_⟩
        have := RawSelector.blank b _ hb (.str u _ hu (.blank b' w hb' hw))
        simpa [List.append_assoc] using this
      · obtain ⟨x, h2, -⟩ := recognize_some.1 h
        obtain ⟨t, e, b, b', u, hb, hb', hu, rfl⟩ := interpolation_follows _ _ _ h2
        refine ⟨_, e, fun w hw => ?_⟩
        have := RawSelector.blank b _ hb (.placeholder u _ hu (.blank b' w hb' hw))
        simpa [List.append_assoc] using this)
    .nil (fun t u a as h1 h2 => h1 u h2) _ _ _ h1
  refine ⟨t, e, ?_, ht, ?_⟩
  · rw [e, take_text]
  · rintro rfl
    rw [e] at hp
    simp at hp

theorem conditionRaw_follows : Follows (recognize (many1 atRulePiece))
    (fun t a => a = t ∧ RawCondition t ∧ t ≠ []) := by
  intro i r a h
  have hp := prog_recognize (prog_many1 suff_atRulePiece prog_atRulePiece) _ _ _ h
  obtain ⟨as, h1, rfl⟩ := recognize_some.1 h
  obtain ⟨t, e, ht⟩ := many1_follows suff_atRulePiece (G := fun t _ => Extends RawCondition t)
    (M := fun t _ => RawCondition t) (by
      intro i r a h
      rcases alt_some.1 h with h | ⟨-, h⟩
      · obtain ⟨t, e, ht⟩ := takeWhile1_text h
        refine ⟨t, e, ?_⟩
        clear e h
        intro u hu
        induction t with
        | nil => exact hu
        | cons c t ih =>
          refine .char c _ ?_ (ih fun d hd => ht d (by simp [hd]))
          simpa using ht c (by simp)
      · obtain ⟨x, h2, -⟩ := recognize_some.1 h
        obtain ⟨t, e, b, b', u, hb, hb', hu, rfl⟩ := interpolation_follows _ _ _ h2
        refine ⟨_, e, fun w hw => ?_⟩
        have := RawCondition.blank b _ hb (.placeholder u _ hu (.blank b' w hb' hw))
        simpa [List.append_assoc] using this)
    .nil (fun t u a as h1 h2 => h1 u h2) _ _ _ h1
  refine ⟨t, e, ?_, ht, ?_⟩
  · rw [e, take_text]
  · rintro rfl
    rw [e] at hp
    simp at hp

/-! ## Declarations -/

theorem ident_text {i r k : Str} (h : ident i = some (r, k)) : i = k ++ r := by
  obtain ⟨a, h1, rfl⟩ := recognize_some.1 h
  obtain ⟨t, ht⟩ := suff_ident _ _ _ h
  rw [← ht, take_text]

theorem decl_follows : Follows styleAttribute DeclText := by
  intro i r x h
  obtain ⟨b0, b9, i1, r1, hb0, hb9, e0, e9, h1⟩ := trimmed_text h
  obtain ⟨-, h2⟩ := nonEmpty_some.1 h1
  obtain ⟨⟨k, v⟩, h3, rfl⟩ := map_some.1 h2
  obtain ⟨r2, r3, b, h4, h5, h6⟩ := separatedPair_some.1 h3
  obtain ⟨e5, -⟩ := tag_some.1 h5
  obtain ⟨c0, c1, i2, r4, hc0, hc1, f0, f1, h7⟩ := trimmed_text h4
  obtain ⟨d0, d1, i3, r5, hd0, hd1, g0, g1, h8⟩ := trimmed_text h6
  obtain ⟨w, h9, h10⟩ := map_some.1 h8
  obtain ⟨t, e, rfl, ht, hne⟩ := value_follows _ _ _ h9
  simp only at h10
  have := DeclText.intro (b0 ++ c0) k c1 d0 w (d1 ++ b9) (blank_append hb0 hc0) (ident_sound h7) hc1
    hd0 ht hne (blank_append hd1 hb9)
  refine ⟨_, ?_, by rw [h10] at this; exact this⟩
  rw [e0, f0, ident_text h7, f1, e5, g0, e, g1, e9]
  simp

theorem decls_loop : ∀ (n : Nat) (i r : Str) (as : List (Str × List Str)) (t : Str) (d : Str × List Str),
    DeclText t d → sepLoop (tag (c! ";")) styleAttribute n i = some (r, as) →
    ∃ u, t ++ i = u ++ r ∧ DeclTexts u (d :: as)
  | 0, i, r, as, t, d, _, h => by simp [sepLoop] at h
  | n + 1, i, r, as, t, d, hd, h => by
    simp only [sepLoop] at h
    split at h
    · simp at h
      exact ⟨t, by rw [h.1], by rw [h.2]; exact .one t d hd⟩
    · rename_i r1 x h1
      split at h
      · simp at h
      · split at h
        · simp at h
          exact ⟨t, by rw [h.1], by rw [h.2]; exact .one t d hd⟩
        · rename_i r' b h2
          split at h
          · simp at h
          · rename_i r'' bs h3
            simp at h
            obtain ⟨e1, -⟩ := tag_some.1 h1
            obtain ⟨t2, e2, hb⟩ := decl_follows _ _ _ h2
            obtain ⟨u, e3, hu⟩ := decls_loop n _ _ _ t2 b hb h3
            refine ⟨t ++ c! ";" ++ u, ?_, by rw [← h.2]; exact .cons t u d _ hd hu⟩
            rw [e1, e2, e3, h.1]; simp

theorem decls_follows : Follows (separatedList1 (tag (c! ";")) styleAttribute) DeclTexts := by
  intro i r as h
  simp only [separatedList1] at h
  split at h
  · simp at h
  · rename_i r1 b h1
    split at h
    · simp at h
    · rename_i r2 bs h2
      simp at h
      obtain ⟨t, e, ht⟩ := decl_follows _ _ _ h1
      obtain ⟨u, e2, hu⟩ := decls_loop _ _ _ _ t b ht h2
      exact ⟨u, by rw [e, e2, h.1], by rw [← h.2]; exact hu⟩

theorem decl_prefix {b t : Str} {d : Str × List Str} (hb : Blank b) (h : DeclText t d) :
    DeclText (b ++ t) d := by
  obtain ⟨b0, key, b1, b2, raw, b3, h0, h1, h2, h3, h4, h5, h6⟩ := h
  have := DeclText.intro (b ++ b0) key b1 b2 raw b3 (blank_append hb h0) h1 h2 h3 h4 h5 h6
  simpa [List.append_assoc] using this

theorem decls_prefix {b t : Str} {ds : List (Str × List Str)} (hb : Blank b) (h : DeclTexts t ds) :
    DeclTexts (b ++ t) ds := by
  cases h with
  | one _ d h => exact .one _ d (decl_prefix hb h)
  | cons t u d ds h1 h2 =>
    have := DeclTexts.cons (b ++ t) u d ds (decl_prefix hb h1) h2
    simpa [List.append_assoc] using this

theorem decl_suffix {b t : Str} {d : Str × List Str} (hb : Blank b) (h : DeclText t d) :
    DeclText (t ++ b) d := by
  obtain ⟨b0, key, b1, b2, raw, b3, h0, h1, h2, h3, h4, h5, h6⟩ := h
  have := DeclText.intro b0 key b1 b2 raw (b3 ++ b) h0 h1 h2 h3 h4 h5 (blank_append h6 hb)
  simpa [List.append_assoc] using this

theorem decls_suffix {b t : Str} {ds : List (Str × List Str)} (hb : Blank b) (h : DeclTexts t ds) :
    DeclTexts (t ++ b) ds := by
  induction h with
  | one _ d h => exact .one _ d (decl_suffix hb h)
  | cons t u d ds h1 _ ih =>
    have := DeclTexts.cons t (u ++ b) d ds h1 ih
    simpa [List.append_assoc] using this

theorem attributes_follows (dangling : Bool) : Follows (attributes dangling) (fun t ds =>
    ∃ u semi b, DeclTexts u ds ∧ Blank b ∧ t = u ++ semi ++ b ∧
      (semi = c! ";" ∨ (dangling = false ∧ semi = []))) := by
  intro i r ds h
  obtain ⟨b0, b9, i1, r1, hb0, hb9, e0, e9, h1⟩ := trimmed_text h
  obtain ⟨-, h2⟩ := nonEmpty_some.1 h1
  obtain ⟨r2, x, h3, h4⟩ := terminated_some.1 h2
  obtain ⟨u, e, hu⟩ := decls_follows _ _ _ h3
  obtain ⟨r3, y, h5, h6⟩ := preceded_some.1 h4
  have hb : ∃ b, Blank b ∧ r2 = b ++ r3 := by
    rcases opt_cases h5 with ⟨z, h7⟩ | e7
    · obtain ⟨b, e, hb⟩ := sp_follows _ _ _ h7
      exact ⟨b, hb, e⟩
    · exact ⟨[], .nil, by rw [e7]; rfl⟩
  obtain ⟨b, hb, eb⟩ := hb
  have hs : ∃ semi, r3 = semi ++ r1 ∧ (semi = c! ";" ∨ (dangling = false ∧ semi = [])) := by
    cases dangling with
    | true =>
      simp only [finalSemicolon, if_true] at h6
      obtain ⟨z, h7, -⟩ := map_some.1 h6
      exact ⟨_, (tag_some.1 h7).1, Or.inl rfl⟩
    | false =>
      simp only [finalSemicolon, Bool.false_eq_true, if_false] at h6
      rcases opt_cases h6 with ⟨z, h7⟩ | e7
      · exact ⟨_, (tag_some.1 h7).1, Or.inl rfl⟩
      · exact ⟨[], by rw [e7]; rfl, Or.inr ⟨rfl, rfl⟩⟩
  obtain ⟨semi, es, hs⟩ := hs
  refine ⟨(b0 ++ u ++ b) ++ semi ++ b9, ?_, _, semi, b9, decls_suffix hb (decls_prefix hb0 hu), hb9,
    rfl, hs⟩
  rw [e0, e, eb, es, e9]
  simp

/-! ## Selectors -/

theorem selectorPiece_stop {i : Str} (h : selectorPiece i = none) : spRest i = i := by
  cases i with
  | nil => exact spRest_nil
  | cons c i =>
    have hc : c ∈ (c! "$,}@{\"") := by
      have h1 := (alt_none.1 h).1
      rw [recognize_none] at h1
      by_cases hc : (c! "$,}@{\"").elem c = true
      · simpa using hc
      · exfalso
        have h2 : noneOf (c! "$,}@{\"") (c :: i) = some (i, c) := by
          rw [noneOf, if_neg hc]
        cases ho : opt (isNot (c! "$,\"{")) i with
        | none =>
          unfold opt at ho
          split at ho <;> cases ho
        | some x =>
          have := preceded_some.2 ⟨i, c, h2, (show _ = some (x.1, x.2) from ho)⟩
          rw [h1] at this; cases this
    refine spRest_nonblank ?_ ?_ i
    · intro hw
      simp at hc hw
      rcases hc with rfl | rfl | rfl | rfl | rfl | rfl <;> simp at hw
    · rintro rfl
      revert hc; decide

theorem selector_text {i r : Str} {s : Selector} (h : selector i = some (r, s)) :
    ∃ b raw b', Blank b ∧ RawSelector raw ∧ raw ≠ [] ∧ Blank b' ∧ i = b ++ raw ++ b' ++ r ∧
      s = [Str.trim raw] ∧ selector r = none := by
  obtain ⟨b, b', i', r', hb, hb', e, e', h1⟩ := trimmed_text h
  obtain ⟨r'', h1', hr⟩ := trimmed_some.1 h
  obtain ⟨-, h2⟩ := nonEmpty_some.1 h1
  obtain ⟨raw, h3, rfl⟩ := map_some.1 h2
  obtain ⟨t, e3, rfl, ht, hne⟩ := selectorRaw_follows _ _ _ h3
  refine ⟨b, raw, b', hb, ht, hne, hb', by rw [e, e3, e']; simp, rfl, ?_⟩
  obtain ⟨-, h5⟩ := nonEmpty_some.1 h1'
  obtain ⟨raw', h6, -⟩ := map_some.1 h5
  obtain ⟨as, h7, -⟩ := recognize_some.1 h6
  obtain ⟨r1, a, as', -, h8, -⟩ := many1_some.1 h7
  have hstop := many0_stops suff_selectorPiece h8
  have hsp := selectorPiece_stop hstop
  rw [hsp] at hr
  subst hr
  refine trimmed_none.2 ?_
  rw [hsp]
  cases hx : r with
  | nil => rfl
  | cons c w =>
    rw [nonEmpty_cons _ (by simp), map_none, recognize_none, many1_none suff_selectorPiece
      prog_selectorPiece, ← hx, hstop]

theorem conditionPiece_none {r : Str} (h : selector r = none) :
    terminated selector (opt (tag (c! ","))) r = none := by
  cases hx : terminated selector (opt (tag (c! ","))) r with
  | none => rfl
  | some x =>
    obtain ⟨r1, b, h1, -⟩ := terminated_some.1 (show _ = some (x.1, x.2) from hx)
    rw [h] at h1; cases h1

theorem selectors_loop {i r : Str} {as : List Selector}
    (h : many0 (terminated selector (opt (tag (c! ",")))) i = some (r, as)) :
    (as = [] ∧ i = r) ∨ ∃ t, i = t ++ r ∧ SelectorTexts t as := by
  generalize hl : i.length = n
  induction n using Nat.strongRecOn generalizing i r as with
  | ind n ih =>
    rw [many0_unfold suff_conditionPiece] at h
    split at h
    · simp at h
      exact Or.inl ⟨h.2, h.1⟩
    · rename_i r1 a h1
      split at h
      · simp at h
      · split at h
        · simp at h
        · rename_i hne _ r2 as' h2
          simp at h
          have := suff_conditionPiece.le h1
          right
          obtain ⟨r3, x, h3, h4⟩ := terminated_some.1 h1
          obtain ⟨b, raw, b', hb, hraw, hn, hb', e, ea, hno⟩ := selector_text h3
          rcases opt_cases h4 with ⟨z, h5⟩ | e5
          · obtain ⟨e5, -⟩ := tag_some.1 h5
            rcases ih r1.length (by omega) h2 rfl with ⟨e6, e7⟩ | ⟨t, e6, ht⟩
            · refine ⟨b ++ raw ++ b' ++ c! ",", ?_, ?_⟩
              · rw [e, e5, e7, h.1]; simp
              · rw [← h.2, ea, e6]
                exact .one b raw b' _ hb hraw hn hb' (Or.inr rfl)
            · refine ⟨b ++ raw ++ b' ++ c! "," ++ t, ?_, ?_⟩
              · rw [e, e5, e6, h.1]; simp
              · rw [← h.2, ea]
                exact .cons b raw b' t as' hb hraw hn hb' ht
          · subst e5
            rw [many0_stop suff_conditionPiece (conditionPiece_none hno)] at h2
            simp only [Option.some.injEq, Prod.mk.injEq] at h2
            refine ⟨b ++ raw ++ b' ++ [], ?_, ?_⟩
            · rw [e, ← h.1, ← h2.1]; simp
            · rw [← h.2, ea, ← h2.2]
              exact .one b raw b' _ hb hraw hn hb' (Or.inl rfl)

theorem selectors_prefix {b t : Str} {ss : List Selector} (hb : Blank b) (h : SelectorTexts t ss) :
    SelectorTexts (b ++ t) ss := by
  cases h with
  | one b0 raw b' comma h0 h1 h2 h3 h4 =>
    have := SelectorTexts.one (b ++ b0) raw b' comma (blank_append hb h0) h1 h2 h3 h4
    simpa [List.append_assoc] using this
  | cons b0 raw b' u sels h0 h1 h2 h3 h4 =>
    have := SelectorTexts.cons (b ++ b0) raw b' u sels (blank_append hb h0) h1 h2 h3 h4
    simpa [List.append_assoc] using this

theorem condition_follows : Follows condition (fun t ss => ∃ u b, SelectorTexts u ss ∧ Blank b ∧ t = u ++ b) := by
  intro i r ss h
  obtain ⟨b, b', i', r', hb, hb', e, e', h1⟩ := trimmed_text h
  obtain ⟨-, h2⟩ := nonEmpty_some.1 h1
  have h3 : many0 (terminated selector (opt (tag (c! ",")))) i' = some (r', ss) := by
    obtain ⟨r1, a, as', h4, h5, rfl⟩ := many1_some.1 h2
    rw [many0_step suff_conditionPiece prog_conditionPiece h4, h5]
  rcases selectors_loop h3 with ⟨rfl, -⟩ | ⟨t, e3, ht⟩
  · obtain ⟨r1, a, as', -, -, h6⟩ := many1_some.1 h2
    cases h6
  · exact ⟨(b ++ t) ++ b', by rw [e, e3, e']; simp, _, b', selectors_prefix hb ht, hb', rfl⟩

/-! ## At-rules and blocks -/

theorem at_follows {p : Parser Str} {names : List Str}
    (hp : ∀ i r a, p i = some (r, a) → ∃ n ∈ names, i = n ++ r) :
    Follows (atRuleCondition p) (AtText names) := by
  intro i r c h
  obtain ⟨b, b', i', r', hb, hb', e, e', h1⟩ := trimmed_text h
  obtain ⟨-, h2⟩ := nonEmpty_some.1 h1
  obtain ⟨⟨x, y⟩, h3, rfl⟩ := map_some.1 h2
  obtain ⟨r2, h4, h5⟩ := pair_some.1 h3
  obtain ⟨a, h6, h7⟩ := recognize_some.1 h4
  obtain ⟨r3, z, h8, h9⟩ := terminated_some.1 h6
  obtain ⟨n, hn, e8⟩ := hp _ _ _ h8
  obtain ⟨e9, -⟩ := tag_some.1 h9
  obtain ⟨w, h10, h11⟩ := map_some.1 h5
  obtain ⟨t, e10, rfl, ht, hne⟩ := conditionRaw_follows _ _ _ h10
  simp only at h7 h11
  refine ⟨b ++ n ++ c! " " ++ w ++ b', by rw [e, e8, e9, e10, e']; simp, ?_⟩
  have hx : x = n ++ c! " " := by
    rw [h7, e8, e9, ← List.append_assoc, take_text]
  rw [hx, ← h11]
  exact .intro b n w b' hb hn ht hne hb'

theorem at_names {names names' : List Str} (h : ∀ n ∈ names, n ∈ names') {t : Str} {c : List Str}
    (ht : AtText names t c) : AtText names' t c := by
  obtain ⟨b, n, raw, b', h1, h2, h3, h4, h5⟩ := ht
  exact .intro b n raw b' h1 (h n h2) h3 h4 h5

theorem at_prefix {names : List Str} {b t : Str} {c : List Str} (hb : Blank b)
    (ht : AtText names t c) : AtText names (b ++ t) c := by
  obtain ⟨b0, n, raw, b', h1, h2, h3, h4, h5⟩ := ht
  have := AtText.intro (names := names) (b ++ b0) n raw b' (blank_append hb h1) h2 h3 h4 h5
  simpa [List.append_assoc] using this

/-- The text of a conditional at-rule inside a block. -/
def RuleText (t : Str) (x : RuleP) : Prop :=
  ∃ u body b, AtText conditional u x.1 ∧ ContentText body x.2 ∧ Blank b ∧
    t = u ++ c! "{" ++ body ++ c! "}" ++ b

theorem contents_follows {rb : Parser RuleP} (hs : Suff rb) (hrb : Follows rb RuleText) :
    Follows (contentsWith rb) ContentText := by
  intro i r l h
  obtain ⟨ls, h1, rfl⟩ := map_some.1 h
  refine many0_follows (suff_alt (suff_map (suff_attributes false)) (suff_map hs))
    (G := fun t l => ∀ u rest, ContentText u rest → ContentText (t ++ u) (l ++ rest))
    (M := fun t ls => ContentText t ls.flatten) ?_ .nil
    (fun t u a as h1 h2 => by rw [List.flatten_cons]; exact h1 u _ h2) _ _ _ h1
  intro i r a ha
  rcases alt_some.1 ha with ha | ⟨-, ha⟩
  · obtain ⟨l, hl, rfl⟩ := map_some.1 ha
    obtain ⟨t, e, u, semi, b, hu, hb, rfl, hsemi⟩ := attributes_follows false _ _ _ hl
    refine ⟨_, e, fun w rest hw => ?_⟩
    have := ContentText.decls u semi (b ++ w) l rest hu (by grind) (.blank b w rest hb hw)
    simpa [List.append_assoc, declContents, attrsToRBC] using this
  · obtain ⟨x, hx, rfl⟩ := map_some.1 ha
    obtain ⟨t, e, u, body, b, hu, hbody, hb, rfl⟩ := hrb _ _ _ hx
    refine ⟨_, e, fun w rest hw => ?_⟩
    have := ContentText.rule u body (b ++ w) _ _ rest hu hbody (.blank b w rest hb hw)
    simpa [List.append_assoc] using this

theorem ruleBlockWith_text {c : Parser (List Str)} {rb : Parser RuleP} (hs : Suff rb)
    (hrb : Follows rb RuleText) {i r : Str} {x : RuleP} (h : ruleBlockWith c rb i = some (r, x)) :
    ∃ b i' r1 body b', Blank b ∧ i = b ++ i' ∧ c i' = some (r1, x.1) ∧
      r1 = c! "{" ++ body ++ c! "}" ++ b' ++ r ∧ ContentText body x.2 ∧ Blank b' := by
  obtain ⟨b, b', i', r', hb, hb', e, e', h1⟩ := trimmed_text h
  obtain ⟨-, h2⟩ := nonEmpty_some.1 h1
  obtain ⟨r2, r3, y, h3, h4, h5⟩ := separatedPair_some.1 h2
  obtain ⟨r4, b2, h6, h6'⟩ := terminated_some.1 h5
  obtain ⟨-, h7⟩ := nonEmpty_some.1 h6
  obtain ⟨e4, -⟩ := tag_some.1 h4
  obtain ⟨e6, -⟩ := tag_some.1 h6'
  obtain ⟨body, e7, hbody⟩ := contents_follows hs hrb _ _ _ h7
  exact ⟨b, i', r2, body, b', hb, e, h3, by rw [e4, e7, e6, e']; simp, hbody, hb'⟩

theorem otherCondition_follows : Follows otherCondition (AtText conditional) := by
  intro i r c h
  obtain ⟨t, e, ht⟩ := at_follows (fun _ _ _ => tags3) _ _ _ h
  refine ⟨t, e, at_names ?_ ht⟩
  intro n hn
  simp only [List.mem_cons, List.not_mem_nil, or_false, conditional] at hn ⊢
  grind

theorem ruleBlock_follows : ∀ n, Follows (ruleBlock n) RuleText
  | 0 => by intro i r x h; simp [ruleBlock, fail] at h
  | n + 1 => by
    intro i r x h
    obtain ⟨b, i', r1, body, b', hb, e, h1, e1, hbody, hb'⟩ :=
      ruleBlockWith_text (suff_ruleBlock n) (ruleBlock_follows n) h
    obtain ⟨t, e2, ht⟩ := otherCondition_follows _ _ _ h1
    refine ⟨(b ++ t) ++ c! "{" ++ body ++ c! "}" ++ b', ?_, _, body, b', at_prefix hb ht, hbody, hb', rfl⟩
    rw [e, e2, e1]; simp

theorem frames_follows (n : Nat) : Follows (many0 (ruleBlockKeyframes n))
    (fun t l => FrameTexts t (l.map (fun r => RBC.rule r.1 r.2))) := by
  refine many0_follows (suff_ruleBlockKeyframes n)
    (G := fun t x => ∀ u rest, FrameTexts u rest → FrameTexts (t ++ u) (.rule x.1 x.2 :: rest)) ?_ .nil
    (fun t u a as h1 h2 => h1 u _ h2)
  intro i r x h
  obtain ⟨b, i', r1, body, b', hb, e, h1, e1, hbody, hb'⟩ :=
    ruleBlockWith_text (suff_ruleBlock n) (ruleBlock_follows n) h
  obtain ⟨m, h2, h3⟩ := map_some.1 h1
  obtain ⟨ss, h4, h5⟩ := recognize_some.1 h2
  obtain ⟨t, e4, u, b2, hu, hb2, rfl⟩ := condition_follows _ _ _ h4
  have hm : m = u ++ b2 := by rw [h5, e4, take_text]
  refine ⟨b ++ (u ++ b2 ++ c! "{" ++ body ++ c! "}" ++ b'), by rw [e, e4, e1]; simp, ?_⟩
  intro w rest hw
  rw [← h3, hm]
  have := FrameTexts.blank b _ _ hb (.frame u b2 body (b' ++ w) ss x.2 rest hu hb2 hbody
    (.blank b' w rest hb' hw))
  simpa [List.append_assoc] using this

/-! ## Sheets -/

/-- A text of one item: any continuation may follow. -/
def ItemText (t : Str) (x : ScopeContent) : Prop :=
  ∀ u rest, SheetText u rest → SheetText (t ++ u) (x :: rest)

theorem content_prefix {b t : Str} {l : List RBC} (hb : Blank b) (h : ContentText t l) :
    ContentText (b ++ t) l := .blank b t l hb h

theorem content_suffix {b t : Str} {l : List RBC} (hb : Blank b) (h : ContentText t l) :
    ContentText (t ++ b) l := by
  induction h with
  | nil => simpa using ContentText.blank b [] [] hb .nil
  | blank b0 u rest h0 _ ih =>
    have := ContentText.blank b0 _ rest h0 ih
    simpa [List.append_assoc] using this
  | decls t semi u ds rest h1 h2 _ ih =>
    have := ContentText.decls t semi _ ds rest h1 h2 ih
    simpa [List.append_assoc] using this
  | rule t body u cond content rest h1 h2 _ _ ih =>
    have := ContentText.rule t body _ cond content rest h1 h2 ih
    simpa [List.append_assoc] using this

theorem sheet_suffix {b t : Str} {l : Sheet} (hb : Blank b) (h : SheetText t l) :
    SheetText (t ++ b) l := by
  induction h with
  | nil => simpa using SheetText.blank b [] [] hb .nil
  | blank b0 u rest h0 _ ih =>
    have := SheetText.blank b0 _ rest h0 ih
    simpa [List.append_assoc] using this
  | decls t u ds rest h1 _ ih =>
    have := SheetText.decls t _ ds rest h1 ih
    simpa [List.append_assoc] using this
  | block t b0 body u sels content rest h1 h2 h3 _ ih =>
    have := SheetText.block t b0 body _ sels content rest h1 h2 h3 ih
    simpa [List.append_assoc] using this
  | rule t body u cond content rest h1 h2 _ _ ih =>
    have := SheetText.rule t body _ cond content rest h1 h2 ih
    simpa [List.append_assoc] using this
  | keyframes t body u cond content rest h1 h2 _ ih =>
    have := SheetText.keyframes t body _ cond content rest h1 h2 ih
    simpa [List.append_assoc] using this

theorem dangling_follows : Follows danglingBlock ItemText := by
  intro i r x h
  obtain ⟨b, b', i', r', hb, hb', e, e', h1⟩ := trimmed_text h
  obtain ⟨-, h2⟩ := nonEmpty_some.1 h1
  obtain ⟨l, h3, rfl⟩ := map_some.1 h2
  obtain ⟨t, e3, u, semi, b2, hu, hb2, rfl, hsemi⟩ := attributes_follows true _ _ _ h3
  have hsemi : semi = c! ";" := by
    rcases hsemi with h | ⟨h, -⟩
    · exact h
    · cases h
  subst hsemi
  refine ⟨b ++ (u ++ c! ";" ++ b2) ++ b', by rw [e, e3, e']; simp, fun w rest hw => ?_⟩
  have := SheetText.decls (b ++ u) (b2 ++ b' ++ w) l rest (decls_prefix hb hu)
    (.blank (b2 ++ b') w rest (blank_append hb2 hb') hw)
  simpa [List.append_assoc, declContents, attrsToRBC] using this

theorem block_follows (n : Nat) : Follows (block n) ItemText := by
  intro i r x h
  obtain ⟨b, b', i', r', hb, hb', e, e', h1⟩ := trimmed_text h
  obtain ⟨-, h2⟩ := nonEmpty_some.1 h1
  obtain ⟨⟨ss, l⟩, h3, rfl⟩ := map_some.1 h2
  obtain ⟨r2, h4, h5⟩ := pair_some.1 h3
  obtain ⟨r3, y, r4, z, h6, h7, h8⟩ := delimited_some.1 h5
  obtain ⟨e6, -⟩ := tag_some.1 h6
  obtain ⟨e8, -⟩ := tag_some.1 h8
  obtain ⟨t, e4, u, b2, hu, hb2, rfl⟩ := condition_follows _ _ _ h4
  obtain ⟨c, c', j, s, hc, hc', f, f', h9⟩ := trimmed_text h7
  obtain ⟨d, d', k, v, hd, hd', g, g', h10⟩ := trimmed_text h9
  obtain ⟨-, h11⟩ := nonEmpty_some.1 h10
  obtain ⟨body, e11, hbody⟩ := contents_follows (suff_ruleBlock n) (ruleBlock_follows n) _ _ _ h11
  refine ⟨b ++ (u ++ b2) ++ c! "{" ++ (c ++ d ++ body ++ d' ++ c') ++ c! "}" ++ b', ?_, fun w rest hw => ?_⟩
  · rw [e, e4, e6, f, g, e11, g', f', e8, e']; simp
  · have := SheetText.block (b ++ u) b2 (c ++ d ++ body ++ d' ++ c') (b' ++ w) ss l rest
      (selectors_prefix hb hu) hb2
      (content_suffix hc' (content_suffix hd' (content_prefix (blank_append hc hd) hbody)))
      (.blank b' w rest hb' hw)
    simpa [List.append_assoc] using this

theorem keyframes_follows (n : Nat) : Follows (keyframes n) ItemText := by
  intro i r x h
  obtain ⟨⟨cond, l⟩, h0, rfl⟩ := map_some.1 h
  obtain ⟨b, b', i', r', hb, hb', e, e', h1⟩ := trimmed_text h0
  obtain ⟨r2, r3, y, h3, h4, h5⟩ := separatedPair_some.1 h1
  obtain ⟨r4, z, h6, h7⟩ := terminated_some.1 h5
  obtain ⟨e4, -⟩ := tag_some.1 h4
  obtain ⟨e7, -⟩ := tag_some.1 h7
  obtain ⟨t, e3, ht⟩ := at_follows (names := [c! "@keyframes"]) (by
    intro i r a h
    rcases alt_some.1 h with h | ⟨-, h⟩
    · exact ⟨_, by simp, (tag_some.1 h).1⟩
    · simp [fail] at h) _ _ _ h3
  obtain ⟨body, e6, hbody⟩ := frames_follows n _ _ _ h6
  refine ⟨b ++ t ++ c! "{" ++ body ++ c! "}" ++ b', by rw [e, e3, e4, e6, e7, e']; simp, fun w rest hw => ?_⟩
  have := SheetText.keyframes (b ++ t) body (b' ++ w) cond _ rest (at_prefix hb ht) hbody
    (.blank b' w rest hb' hw)
  simpa [List.append_assoc] using this

theorem atRule_follows {sc : Parser (List ScopeContent)} (hsc : Follows sc SheetText) :
    Follows (atRuleWith sc) ItemText := by
  intro i r x h
  obtain ⟨b, b', i', r', hb, hb', e, e', h1⟩ := trimmed_text h
  obtain ⟨-, h2⟩ := nonEmpty_some.1 h1
  obtain ⟨⟨cond, l⟩, h0, rfl⟩ := map_some.1 h2
  obtain ⟨r2, r3, y, h3, h4, h5⟩ := separatedPair_some.1 h0
  obtain ⟨r4, z, h6, h7⟩ := terminated_some.1 h5
  obtain ⟨e4, -⟩ := tag_some.1 h4
  obtain ⟨e7, -⟩ := tag_some.1 h7
  obtain ⟨t, e3, ht⟩ := at_follows (fun _ _ _ => tags3) _ _ _ h3
  obtain ⟨body, e6, hbody⟩ := hsc _ _ _ h6
  refine ⟨b ++ t ++ c! "{" ++ body ++ c! "}" ++ b', by rw [e, e3, e4, e6, e7, e']; simp, fun w rest hw => ?_⟩
  have := SheetText.rule (b ++ t) body (b' ++ w) cond _ rest (at_prefix hb (at_names (by
      intro n hn
      simp only [List.mem_cons, List.not_mem_nil, or_false, conditional] at hn ⊢
      grind) ht)) hbody (.blank b' w rest hb' hw)
  simpa [List.append_assoc] using this

theorem scopeContents_follows : ∀ n, Follows (scopeContents n) SheetText
  | 0 => by intro i r x h; simp [scopeContents, fail] at h
  | n + 1 => by
    intro i r l h
    obtain ⟨b, b', i', r', hb, hb', e, e', h1⟩ := trimmed_text h
    obtain ⟨-, h2⟩ := nonEmpty_some.1 h1
    obtain ⟨t, e2, ht⟩ := many0_follows (suff_scopeItemWith n (suff_scopeContents n)) (G := ItemText)
      (M := SheetText) (by
        intro i r x h
        rcases alt_some.1 h with h | ⟨-, h⟩
        · exact dangling_follows _ _ _ h
        rcases alt_some.1 h with h | ⟨-, h⟩
        · exact block_follows n _ _ _ h
        rcases alt_some.1 h with h | ⟨-, h⟩
        · exact atRule_follows (scopeContents_follows n) _ _ _ h
        · exact keyframes_follows n _ _ _ h) .nil (fun t u a as h1 h2 => h1 u as h2) _ _ _ h2
    exact ⟨b ++ (t ++ b'), by rw [e, e2, e']; simp, .blank b _ l hb (sheet_suffix hb' ht)⟩

theorem sheet_append {t u : Str} {l m : Sheet} (h : SheetText t l) (h' : SheetText u m) :
    SheetText (t ++ u) (l ++ m) := by
  induction h with
  | nil => exact h'
  | blank b0 u rest h0 _ ih =>
    have := SheetText.blank b0 _ _ h0 ih
    simpa [List.append_assoc] using this
  | decls t u ds rest h1 _ ih =>
    have := SheetText.decls t _ ds _ h1 ih
    simpa [List.append_assoc] using this
  | block t b0 body u sels content rest h1 h2 h3 _ ih =>
    have := SheetText.block t b0 body _ sels content _ h1 h2 h3 ih
    simpa [List.append_assoc] using this
  | rule t body u cond content rest h1 h2 _ _ ih =>
    have := SheetText.rule t body _ cond content _ h1 h2 ih
    simpa [List.append_assoc] using this
  | keyframes t body u cond content rest h1 h2 _ ih =>
    have := SheetText.keyframes t body _ cond content _ h1 h2 ih
    simpa [List.append_assoc] using this

theorem sheet_follows (n : Nat) : Follows (sheet n) SheetText := by
  intro i r l h
  obtain ⟨b, b', i', r', hb, hb', e, e', h1⟩ := trimmed_text h
  obtain ⟨ls, h2, rfl⟩ := map_some.1 h1
  obtain ⟨t, e2, ht⟩ := many0_follows (suff_scope n) (G := SheetText)
    (M := fun t ls => SheetText t ls.flatten) (by
      intro i r x h
      obtain ⟨c, c', j, s, hc, hc', f, f', h3⟩ := trimmed_text h
      obtain ⟨-, h4⟩ := nonEmpty_some.1 h3
      obtain ⟨t, e4, ht⟩ := scopeContents_follows n _ _ _ h4
      exact ⟨c ++ (t ++ c'), by rw [f, e4, f']; simp, .blank c _ x hc (sheet_suffix hc' ht)⟩)
    .nil (fun t u a as h1 h2 => by rw [List.flatten_cons]; exact sheet_append h1 h2) _ _ _ h2
  exact ⟨b ++ (t ++ b'), by rw [e, e2, e']; simp, .blank b _ _ hb (sheet_suffix hb' ht)⟩

theorem parse_follows {css : Str} {s : Sheet} (h : parse css = some s) : SheetText css s := by
  unfold parse parseWith at h
  cases hs : sheet (css.length + 1) css with
  | none => rw [hs] at h; cases h
  | some x =>
    obtain ⟨r, s'⟩ := x
    rw [hs] at h
    simp only [Option.map_some, Option.some.injEq] at h
    have := sheet_consumes css.length hs
    subst this
    obtain ⟨t, e, ht⟩ := sheet_follows _ _ _ _ hs
    rw [List.append_nil] at e
    rw [e, ← h]
    exact ht

end GrammarP
