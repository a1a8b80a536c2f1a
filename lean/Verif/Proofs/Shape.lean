import Verif.Proofs.Lex
import Verif.Proofs.Text

/-! # What parsed sheets look like -/

namespace ShapeP
open Nom NomP Css ParserP LexP Spec

variable {α β : Type}

theorem take_text (t r : Str) : (t ++ r).take ((t ++ r).length - r.length) = t := by simp

/-! ## Trimming -/

theorem trimStart_idem (s : Str) : Str.trimStart (Str.trimStart s) = Str.trimStart s := by
  induction s with
  | nil => rfl
  | cons c s ih =>
    unfold Str.trimStart at *
    by_cases h : Str.isWhitespace c = true
    · simp only [List.dropWhile_cons, h, if_true]; exact ih
    · simp [h]

theorem trimEnd_idem (s : Str) : Str.trimEnd (Str.trimEnd s) = Str.trimEnd s := by
  induction s with
  | nil => rfl
  | cons c s ih =>
    simp only [Str.trimEnd]
    cases h : Str.trimEnd s with
    | nil =>
      simp only
      split
      · rfl
      · rename_i hw; simp [Str.trimEnd, hw]
    | cons d t =>
      simp only
      rw [h] at ih
      rw [Str.trimEnd, ih]

theorem trimEnd_head (c : Char) (s : Str) (h : Str.isWhitespace c = false) :
    ∃ t, Str.trimEnd (c :: s) = c :: t := by
  simp only [Str.trimEnd]
  cases Str.trimEnd s with
  | nil => simp [h]
  | cons d t => exact ⟨_, rfl⟩

theorem trim_idem (s : Str) : Str.trim (Str.trim s) = Str.trim s := by
  unfold Str.trim
  cases h : Str.trimStart s with
  | nil => rfl
  | cons c t =>
    have hc : Str.isWhitespace c = false := by
      have := trimStart_idem s
      rw [h] at this
      unfold Str.trimStart at this
      rw [List.dropWhile_cons] at this
      cases hw : Str.isWhitespace c with
      | false => rfl
      | true =>
        rw [hw] at this
        simp only [if_true] at this
        have hl := (List.dropWhile_suffix (l := t) Str.isWhitespace).length_le
        rw [this] at hl
        simp at hl
        omega
    obtain ⟨u, hu⟩ := trimEnd_head c t hc
    rw [hu]
    have : Str.trimStart (c :: u) = c :: u := by
      unfold Str.trimStart; rw [List.dropWhile_cons, hc]; simp
    rw [this, ← hu, trimEnd_idem]

theorem trimEnd_prefix (s : Str) : Str.trimEnd s <+: s := by
  induction s with
  | nil => exact List.prefix_refl _
  | cons c s ih =>
    simp only [Str.trimEnd]
    cases h : Str.trimEnd s with
    | nil =>
      simp only
      split
      · exact List.nil_prefix
      · exact ⟨s, rfl⟩
    | cons d t =>
      simp only
      rw [h] at ih
      obtain ⟨u, hu⟩ := ih
      exact ⟨u, by rw [← hu]; rfl⟩

theorem trim_mem {s : Str} {c : Char} (h : c ∈ Str.trim s) : c ∈ s := by
  have h1 := (trimEnd_prefix (Str.trimStart s)).subset h
  exact (List.dropWhile_suffix Str.isWhitespace).subset h1

/-! ## Identifiers -/

theorem many0_text {p : Parser α} {P : Char → Prop} (hp : Suff p)
    (h : ∀ i r a, p i = some (r, a) → ∃ t, i = t ++ r ∧ ∀ c ∈ t, P c) {i r : Str} {as : List α}
    (hm : many0 p i = some (r, as)) : ∃ t, i = t ++ r ∧ ∀ c ∈ t, P c := by
  generalize hn : i.length = n
  induction n using Nat.strongRecOn generalizing i r as with
  | ind n ih =>
    rw [many0_unfold hp] at hm
    split at hm
    · simp at hm
      exact ⟨[], by simp [hm.1], by simp⟩
    · rename_i r1 a h1
      split at hm
      · simp at hm
      · rename_i hne
        split at hm
        · simp at hm
        · rename_i r2 as' h2
          simp at hm
          have := hp.le h1
          obtain ⟨t2, e2, c2⟩ := ih r1.length (by omega) h2 rfl
          obtain ⟨t1, e1, c1⟩ := h _ _ _ h1
          refine ⟨t1 ++ t2, by rw [e1, e2, hm.1]; simp, ?_⟩
          intro c hc
          rcases List.mem_append.1 hc with hc | hc
          · exact c1 c hc
          · exact c2 c hc

theorem takeWhile1_text {f : Char → Bool} {i r a : Str} (h : takeWhile1 f i = some (r, a)) :
    ∃ t, i = t ++ r ∧ ∀ c ∈ t, f c = true := by
  obtain ⟨-, rfl, -⟩ := takeWhile1_some.1 h
  refine ⟨i.takeWhile f, List.takeWhile_append_dropWhile.symm, ?_⟩
  intro c hc
  have := List.all_takeWhile (l := i) (p := f)
  rw [List.all_eq_true] at this
  exact this c hc

theorem alnum_ident {c : Char} (h : isAlnum c = true) : isIdentChar c = true := by
  simp only [isAlnum, isLetter_eq, Bool.or_eq_true] at h
  simp only [isIdentChar, Bool.or_eq_true]
  grind

theorem nonAscii_ident {c : Char} (h : nonAscii c = true) : isIdentChar c = true := by
  simp only [nonAscii] at h
  simp only [isIdentChar, h, Bool.or_true]

theorem alpha_alnum {c : Char} (h : isAlpha c = true) : isAlnum c = true := by
  simp [isAlnum, h]

theorem tag1_text {d : Char} {i r a : Str} (hd : isIdentChar d = true) (h : tag [d] i = some (r, a)) :
    ∃ t, i = t ++ r ∧ ∀ c ∈ t, isIdentChar c = true := by
  obtain ⟨rfl, -⟩ := tag_some.1 h
  exact ⟨[d], rfl, by simpa using hd⟩

theorem identPiece_text {i r a : Str} (h : identPiece i = some (r, a)) :
    ∃ t, i = t ++ r ∧ ∀ c ∈ t, isIdentChar c = true := by
  rcases alt_some.1 h with h | ⟨-, h⟩
  · exact tag1_text (by decide) h
  rcases alt_some.1 h with h | ⟨-, h⟩
  · exact tag1_text (by decide) h
  rcases alt_some.1 h with h | ⟨-, h⟩
  · obtain ⟨t, e, ht⟩ := takeWhile1_text h
    exact ⟨t, e, fun c hc => alnum_ident (ht c hc)⟩
  · obtain ⟨t, e, ht⟩ := takeWhile1_text h
    exact ⟨t, e, fun c hc => nonAscii_ident (ht c hc)⟩

theorem alpha_not_digit {c : Char} (h : isAlpha c = true) : ¬ ('0' ≤ c ∧ c ≤ '9') := by
  simp only [isAlpha, Bool.or_eq_true, Bool.and_eq_true, decide_eq_true_eq] at h
  simp only [Char.le_def, UInt32.le_iff_toNat_le] at h ⊢
  rintro ⟨-, h2⟩
  rcases h with ⟨h, -⟩ | ⟨h, -⟩ <;> (have := Nat.le_trans h h2; revert this; decide)

theorem nonAscii_not_digit {c : Char} (h : nonAscii c = true) : ¬ ('0' ≤ c ∧ c ≤ '9') := by
  simp only [nonAscii, decide_eq_true_eq] at h
  simp only [Char.le_def, UInt32.le_iff_toNat_le]
  rintro ⟨-, h2⟩
  have := Nat.le_trans h h2
  revert this; decide

theorem run_ident {f : Char → Bool} (h1 : ∀ c, f c = true → isIdentChar c = true)
    (h2 : ∀ c, f c = true → ¬ ('0' ≤ c ∧ c ≤ '9')) {i r a : Str} (h : takeWhile1 f i = some (r, a)) :
    ∃ t, i = t ++ r ∧ Ident t := by
  obtain ⟨t, e, ht⟩ := takeWhile1_text h
  refine ⟨t, e, ?_⟩
  cases t with
  | nil =>
    have hp := prog_takeWhile1 f _ _ _ h
    rw [e] at hp
    simp at hp
  | cons c t =>
    exact ⟨h1 c (ht c (by simp)), h2 c (ht c (by simp)), fun d hd => h1 d (ht d (by simp [hd]))⟩

theorem tag1_ident {d : Char} {i r a : Str} (hd : Ident [d]) (h : tag [d] i = some (r, a)) :
    ∃ t, i = t ++ r ∧ Ident t := by
  obtain ⟨rfl, -⟩ := tag_some.1 h
  exact ⟨[d], rfl, hd⟩

theorem identFirst_text {i r a : Str} (h : identFirst i = some (r, a)) :
    ∃ t, i = t ++ r ∧ Ident t := by
  rcases alt_some.1 h with h | ⟨-, h⟩
  · exact tag1_ident (by decide) h
  rcases alt_some.1 h with h | ⟨-, h⟩
  · exact tag1_ident (by decide) h
  rcases alt_some.1 h with h | ⟨-, h⟩
  · exact run_ident (fun c hc => alnum_ident (alpha_alnum hc)) (fun c => alpha_not_digit) h
  · exact run_ident (fun c => nonAscii_ident) (fun c => nonAscii_not_digit) h

theorem ident_sound {i r k : Str} (h : ident i = some (r, k)) : Ident k := by
  obtain ⟨a, h1, rfl⟩ := recognize_some.1 h
  obtain ⟨r1, b, h2, h3⟩ := preceded_some.1 h1
  obtain ⟨t1, e1, c1⟩ := identFirst_text h2
  obtain ⟨t2, e2, c2⟩ := many0_text suff_identPiece (fun _ _ _ => identPiece_text) h3
  rw [e1, e2, ← List.append_assoc, take_text]
  cases t1 with
  | nil => exact c1.elim
  | cons c t =>
    refine ⟨c1.1, c1.2.1, ?_⟩
    intro d hd
    rcases List.mem_append.1 hd with hd | hd
    · exact c1.2.2 d hd
    · exact c2 d hd

/-! ## Pieces of a sheet -/

theorem attr_shape {i r : Str} {x : Str × List Str} (h : styleAttribute i = some (r, x)) :
    AttrShape x.1 x.2 := by
  obtain ⟨r1, h1, -⟩ := trimmed_some.1 h
  obtain ⟨-, h2⟩ := nonEmpty_some.1 h1
  obtain ⟨⟨k, v⟩, h3, rfl⟩ := map_some.1 h2
  obtain ⟨r2, r3, b, h4, -, h6⟩ := separatedPair_some.1 h3
  obtain ⟨r4, h7, -⟩ := trimmed_some.1 h4
  obtain ⟨r5, h8, -⟩ := trimmed_some.1 h6
  obtain ⟨w, -, h9⟩ := map_some.1 h8
  simp only at h9
  refine ⟨⟨k, ident_sound h7, rfl⟩, v, rfl, ?_⟩
  rw [← h9, trim_idem]

theorem attributes_shape {d : Bool} {i r : Str} {l : List (Str × List Str)}
    (h : attributes d i = some (r, l)) : l ≠ [] ∧ ∀ x ∈ l, AttrShape x.1 x.2 := by
  obtain ⟨r1, h1, -⟩ := trimmed_some.1 h
  obtain ⟨-, h2⟩ := nonEmpty_some.1 h1
  obtain ⟨r2, b, h3, -⟩ := terminated_some.1 h2
  exact separatedList1_forall (fun _ _ _ => attr_shape) h3

theorem attrsToRBC_shape {l : List (Str × List Str)} (h : ∀ x ∈ l, AttrShape x.1 x.2) :
    ∀ x ∈ attrsToRBC l, ∃ k v, x = .attr k v ∧ AttrShape k v := by
  intro x hx
  obtain ⟨y, hy, rfl⟩ := List.mem_map.1 hx
  exact ⟨y.1, y.2, rfl, h y hy⟩

theorem at_shape {t : Parser Str} {names : List Str}
    (ht : ∀ i r a, t i = some (r, a) → ∃ n ∈ names, i = n ++ r) {i r : Str} {c : List Str}
    (h : atRuleCondition t i = some (r, c)) : AtShape names c := by
  obtain ⟨r1, h1, -⟩ := trimmed_some.1 h
  obtain ⟨-, h2⟩ := nonEmpty_some.1 h1
  obtain ⟨⟨p, q⟩, h3, rfl⟩ := map_some.1 h2
  obtain ⟨r2, h4, h5⟩ := pair_some.1 h3
  obtain ⟨a, h6, h7⟩ := recognize_some.1 h4
  obtain ⟨r3, b, h8, h9⟩ := terminated_some.1 h6
  obtain ⟨n, hn, e⟩ := ht _ _ _ h8
  obtain ⟨e2, -⟩ := tag_some.1 h9
  obtain ⟨w, -, h10⟩ := map_some.1 h5
  simp only at h7 h10
  refine ⟨n, hn, q, ?_, by rw [← h10, trim_idem]⟩
  rw [h7, e, e2, ← List.append_assoc, take_text]

theorem contents_shape {rb : Parser RuleP} (hs : Suff rb)
    (hrb : ∀ i r x, rb i = some (r, x) →
      AtShape [c! "@media", c! "@supports", c! "@container"] x.1 ∧ ∀ y ∈ x.2, Item y)
    {i r : Str} {l : List RBC} (h : contentsWith rb i = some (r, l)) : ∀ x ∈ l, Item x := by
  obtain ⟨ls, h1, rfl⟩ := map_some.1 h
  have := many0_forall (P := fun l => ∀ x ∈ l, Item x)
    (suff_alt (suff_map (suff_attributes false)) (suff_map hs)) (by
      intro i r a ha
      rcases alt_some.1 ha with ha | ⟨-, ha⟩
      · obtain ⟨l, hl, rfl⟩ := map_some.1 ha
        intro x hx
        obtain ⟨k, v, rfl, hkv⟩ := attrsToRBC_shape (attributes_shape hl).2 x hx
        exact .attr k v hkv
      · obtain ⟨l, hl, rfl⟩ := map_some.1 ha
        intro x hx
        obtain ⟨h1, h2⟩ := hrb _ _ _ hl
        simp only [List.mem_cons, List.not_mem_nil, or_false] at hx
        subst hx
        exact .rule _ _ h1 h2) h1
  intro x hx
  obtain ⟨l, hl, hx⟩ := List.mem_flatten.1 hx
  exact this l hl x hx

theorem tags3 {a b c i r x : Str} (h : alt (tag a) (alt (tag b) (tag c)) i = some (r, x)) :
    ∃ n ∈ [a, b, c], i = n ++ r := by
  rcases alt_some.1 h with h | ⟨-, h⟩
  · exact ⟨a, by simp, (tag_some.1 h).1⟩
  rcases alt_some.1 h with h | ⟨-, h⟩
  · exact ⟨b, by simp, (tag_some.1 h).1⟩
  · exact ⟨c, by simp, (tag_some.1 h).1⟩

theorem names_perm {names names' : List Str} {c : List Str} (h : ∀ n ∈ names, n ∈ names')
    (hc : AtShape names c) : AtShape names' c := by
  obtain ⟨n, hn, t, e⟩ := hc
  exact ⟨n, h n hn, t, e⟩

theorem ruleBlock_shape : ∀ (n : Nat) (i r : Str) (x : RuleP), ruleBlock n i = some (r, x) →
    AtShape [c! "@media", c! "@supports", c! "@container"] x.1 ∧ ∀ y ∈ x.2, Item y
  | 0, i, r, x, h => by simp [ruleBlock, fail] at h
  | n + 1, i, r, x, h => by
    obtain ⟨r1, h1, -⟩ := trimmed_some.1 h
    obtain ⟨-, h2⟩ := nonEmpty_some.1 h1
    obtain ⟨r2, r3, b, h3, -, h5⟩ := separatedPair_some.1 h2
    obtain ⟨r4, b2, h6, -⟩ := terminated_some.1 h5
    obtain ⟨-, h7⟩ := nonEmpty_some.1 h6
    refine ⟨names_perm ?_ (at_shape (fun _ _ _ => tags3) h3),
      contents_shape (suff_ruleBlock n) (ruleBlock_shape n) h7⟩
    intro m hm
    simp only [List.mem_cons, List.not_mem_nil, or_false] at hm ⊢
    grind

theorem frame_shape {n : Nat} {i r : Str} {x : RuleP} (h : ruleBlockKeyframes n i = some (r, x)) :
    ∃ t content, RBC.rule x.1 x.2 = .rule [t] content ∧ Str.trim t = t ∧ ∀ y ∈ content, Item y := by
  obtain ⟨r1, h1, -⟩ := trimmed_some.1 h
  obtain ⟨-, h2⟩ := nonEmpty_some.1 h1
  obtain ⟨r2, r3, b, h3, -, h5⟩ := separatedPair_some.1 h2
  obtain ⟨r4, b2, h6, -⟩ := terminated_some.1 h5
  obtain ⟨-, h7⟩ := nonEmpty_some.1 h6
  obtain ⟨t, -, ht⟩ := map_some.1 h3
  exact ⟨Str.trim t, x.2, by rw [← ht], trim_idem t,
    contents_shape (suff_ruleBlock n) (ruleBlock_shape n) h7⟩

theorem selector_shape {i r : Str} {s : Selector} (h : selector i = some (r, s)) :
    ∃ t, s = [t] ∧ Str.trim t = t := by
  obtain ⟨r1, h1, -⟩ := trimmed_some.1 h
  obtain ⟨-, h2⟩ := nonEmpty_some.1 h1
  obtain ⟨t, -, rfl⟩ := map_some.1 h2
  exact ⟨_, rfl, trim_idem t⟩

theorem many1_forall {p : Parser α} (hp : Suff p) {P : α → Prop}
    (hP : ∀ i r a, p i = some (r, a) → P a) {i r : Str} {as : List α}
    (h : many1 p i = some (r, as)) : as ≠ [] ∧ ∀ a ∈ as, P a := by
  obtain ⟨r1, a, as', h1, h2, rfl⟩ := many1_some.1 h
  refine ⟨by simp, ?_⟩
  intro b hb
  rcases List.mem_cons.1 hb with rfl | hb
  · exact hP _ _ _ h1
  · exact many0_forall hp hP h2 b hb

theorem condition_shape {i r : Str} {l : List Selector} (h : condition i = some (r, l)) :
    l ≠ [] ∧ ∀ s ∈ l, ∃ t, s = [t] ∧ Str.trim t = t := by
  obtain ⟨r1, h1, -⟩ := trimmed_some.1 h
  obtain ⟨-, h2⟩ := nonEmpty_some.1 h1
  refine many1_forall suff_conditionPiece ?_ h2
  intro i r a ha
  obtain ⟨r', b, h3, -⟩ := terminated_some.1 ha
  exact selector_shape h3

theorem block_shape {n : Nat} {i r : Str} {x : ScopeContent} (h : block n i = some (r, x)) :
    ScopeItem x.toRBC := by
  obtain ⟨r1, h1, -⟩ := trimmed_some.1 h
  obtain ⟨-, h2⟩ := nonEmpty_some.1 h1
  obtain ⟨⟨sels, content⟩, h3, rfl⟩ := map_some.1 h2
  obtain ⟨r2, h4, h5⟩ := pair_some.1 h3
  obtain ⟨r3, _, r4, _, -, h6, -⟩ := delimited_some.1 h5
  obtain ⟨r5, h7, -⟩ := trimmed_some.1 h6
  obtain ⟨r6, h8, -⟩ := trimmed_some.1 h7
  obtain ⟨-, h9⟩ := nonEmpty_some.1 h8
  obtain ⟨h10, h11⟩ := condition_shape h4
  exact .block sels content h10 h11 (contents_shape (suff_ruleBlock n) (ruleBlock_shape n) h9)

theorem dangling_shape {i r : Str} {x : ScopeContent} (h : danglingBlock i = some (r, x)) :
    ScopeItem x.toRBC := by
  obtain ⟨r1, h1, -⟩ := trimmed_some.1 h
  obtain ⟨-, h2⟩ := nonEmpty_some.1 h1
  obtain ⟨l, h3, rfl⟩ := map_some.1 h2
  obtain ⟨h4, h5⟩ := attributes_shape h3
  exact .dangling _ (by simpa [attrsToRBC] using h4) (attrsToRBC_shape h5)

theorem keyframes_shape {n : Nat} {i r : Str} {x : ScopeContent} (h : keyframes n i = some (r, x)) :
    ScopeItem x.toRBC := by
  obtain ⟨⟨c, l⟩, h1, rfl⟩ := map_some.1 h
  obtain ⟨r1, h2, -⟩ := trimmed_some.1 h1
  obtain ⟨r2, r3, b, h3, -, h5⟩ := separatedPair_some.1 h2
  obtain ⟨r4, b2, h6, -⟩ := terminated_some.1 h5
  refine .keyframes c _ (at_shape ?_ h3) ?_
  · intro i r a ha
    rcases alt_some.1 ha with ha | ⟨-, ha⟩
    · exact ⟨_, by simp, (tag_some.1 ha).1⟩
    · simp [fail] at ha
  · have := many0_forall (suff_ruleBlockKeyframes n) (P := fun x : RuleP =>
      ∃ t content, RBC.rule x.1 x.2 = .rule [t] content ∧ Str.trim t = t ∧ ∀ y ∈ content, Item y)
      (fun _ _ _ => frame_shape) h6
    intro x hx
    obtain ⟨y, hy, rfl⟩ := List.mem_map.1 hx
    exact this y hy

theorem atRule_shape {sc : Parser (List ScopeContent)}
    (hsc : ∀ i r l, sc i = some (r, l) → ∀ x ∈ l, ScopeItem x.toRBC) {i r : Str} {x : ScopeContent}
    (h : atRuleWith sc i = some (r, x)) : ScopeItem x.toRBC := by
  obtain ⟨r1, h1, -⟩ := trimmed_some.1 h
  obtain ⟨-, h2⟩ := nonEmpty_some.1 h1
  obtain ⟨⟨c, l⟩, h3, rfl⟩ := map_some.1 h2
  obtain ⟨r2, r3, b, h4, -, h5⟩ := separatedPair_some.1 h3
  obtain ⟨r4, b2, h6, -⟩ := terminated_some.1 h5
  refine .rule c _ (names_perm ?_ (at_shape (fun _ _ _ => tags3) h4)) ?_
  · intro m hm
    simp only [List.mem_cons, List.not_mem_nil, or_false] at hm ⊢
    grind
  · intro x hx
    obtain ⟨y, hy, rfl⟩ := List.mem_map.1 hx
    exact hsc _ _ _ h6 y hy

theorem scopeContents_shape : ∀ (n : Nat) (i r : Str) (l : List ScopeContent),
    scopeContents n i = some (r, l) → ∀ x ∈ l, ScopeItem x.toRBC
  | 0, i, r, l, h => by simp [scopeContents, fail] at h
  | n + 1, i, r, l, h => by
    obtain ⟨r1, h1, -⟩ := trimmed_some.1 h
    obtain ⟨-, h2⟩ := nonEmpty_some.1 h1
    refine many0_forall (suff_scopeItemWith n (suff_scopeContents n)) ?_ h2
    intro i r x hx
    rcases alt_some.1 hx with hx | ⟨-, hx⟩
    · exact dangling_shape hx
    rcases alt_some.1 hx with hx | ⟨-, hx⟩
    · exact block_shape hx
    rcases alt_some.1 hx with hx | ⟨-, hx⟩
    · exact atRule_shape (scopeContents_shape n) hx
    · exact keyframes_shape hx

theorem sheet_shape {n : Nat} {i r : Str} {s : Sheet} (h : sheet n i = some (r, s)) :
    ∀ x ∈ s, ScopeItem x.toRBC := by
  obtain ⟨r1, h1, -⟩ := trimmed_some.1 h
  obtain ⟨ls, h2, rfl⟩ := map_some.1 h1
  have := many0_forall (suff_scope n) (P := fun l => ∀ x ∈ l, ScopeItem x.toRBC) (by
    intro i r l hl
    obtain ⟨r2, h3, -⟩ := trimmed_some.1 hl
    obtain ⟨-, h4⟩ := nonEmpty_some.1 h3
    exact scopeContents_shape _ _ _ _ h4) h2
  intro x hx
  obtain ⟨l, hl, hx⟩ := List.mem_flatten.1 hx
  exact this l hl x hx

theorem parse_shape {css : Str} {s : Sheet} (h : parse css = some s) :
    ∀ x ∈ s, ScopeItem x.toRBC := by
  unfold parse parseWith at h
  cases hs : sheet (css.length + 1) css with
  | none => rw [hs] at h; cases h
  | some y =>
    rw [hs] at h
    simp only [Option.map_some, Option.some.injEq] at h
    rw [← h]
    exact sheet_shape (show _ = some (y.1, y.2) from hs)

end ShapeP
