import Verif.Proofs.Checked

/-! # Ordinary tokens have texts that can be read again -/

namespace OrdinaryP
open Spec Output Inline Nom NomP Css ParserP LexP ShapeP DeclsP GroupsP ReparseP HeadersP CheckedP

/-! ## Ends -/

theorem solid_append {a w b : Str} (ha : Solid a) (hb : Solid b) : Solid (a ++ w ++ b) := by
  obtain ⟨ha, ha'⟩ := ha
  obtain ⟨hb, hb'⟩ := hb
  have h1 := ((trim_iff a).1 ha').1
  have h2 := ((trim_iff b).1 hb').2
  refine ⟨by simp [ha], (trim_iff _).2 ⟨?_, ?_⟩⟩
  · cases a with
    | nil => exact absurd rfl ha
    | cons c a => exact h1
  · intro c hc
    apply h2 c
    rw [Option.mem_def, List.getLast?_append] at hc
    cases hl : b.getLast? with
    | none => exact absurd (List.getLast?_eq_none_iff.1 hl) hb
    | some l => rw [hl] at hc; exact hc

theorem solid_append' {a b : Str} (ha : Solid a) (hb : Solid b) : Solid (a ++ b) := by
  have := solid_append (w := []) ha hb
  simpa using this

theorem solid_chars {s : Str} (hne : s ≠ []) (h : ∀ c ∈ s, Str.isWhitespace c = false) : Solid s :=
  ⟨hne, (trim_iff s).2 ⟨fun c hc => h c (List.mem_of_mem_head? hc), fun c hc => h c (List.mem_of_mem_getLast? hc)⟩⟩

theorem solid_name {i : CssIdent} (h : plainIdent i = true) : Solid (cssName i) :=
  solid_chars (WrittenP.ident_chars h).1 (fun c hc => ((WrittenP.ident_chars h).2 c hc).2)

theorem solid_around {o c : Char} {s : Str} (ho : Str.isWhitespace o = false) (hc : Str.isWhitespace c = false) :
    Solid ([o] ++ s ++ [c]) :=
  solid_append (solid_chars (by simp) (by simpa using ho)) (solid_chars (by simp) (by simpa using hc))

/-- Component values with texts that have no blanks at their ends. -/
theorem solid_cvs {ρ : Env} : ∀ {cs : List CV}, cs ≠ [] → (∀ c ∈ cs, Solid (cvText ρ c)) → Solid (cvsText ρ cs)
  | [], h, _ => absurd rfl h
  | [c], _, h => by rw [cvsText]; exact h c (by simp)
  | c :: d :: cs, _, h => by
    rw [cvsText]
    exact solid_append (h c (by simp)) (solid_cvs (by simp) (fun x hx => h x (by simp [hx])))

theorem solid_block {ρ : Env} {d : Delim} {cs : List CV} : Solid (cvText ρ (.block d cs)) := by
  cases d <;> simp only [cvText]
  · exact solid_around (by decide) (by decide)
  · exact solid_around (by decide) (by decide)
  · exact solid_around (by decide) (by decide)

theorem solid_func {ρ : Env} {i : CssIdent} {cs : List CV} (h : plainIdent i = true) : Solid (cvText ρ (.func i cs)) := by
  rw [cvText, List.append_assoc, List.append_assoc, ← List.append_assoc (c! "(")]
  exact solid_append' (solid_name h) (solid_around (by decide) (by decide))

/-! ## Values -/

theorem valueText_cat {a b : Str} (ha : ValueText a) (hb : ValueText b) : ValueText (a ++ b) := by
  induction ha with
  | nil => exact hb
  | char c s hc _ ih => exact .char c _ hc ih
  | str body s h _ ih =>
    have := ValueText.str body _ h ih
    simpa using this
  | slash c s hc _ ih => exact .slash c _ hc ih

theorem valueText_plain : ∀ {s : Str}, (∀ c ∈ s, c ∉ (c! "${;}/\"")) → ValueText s
  | [], _ => .nil
  | c :: s, h => .char c s (h c (by simp)) (valueText_plain (fun d hd => h d (by simp [hd])))

theorem name_plain {i : CssIdent} (h : plainIdent i = true) : ∀ c ∈ cssName i, isIdentChar c = true ∧ Str.isWhitespace c = false := by
  simp only [plainIdent, ne_eq, decide_eq_true_eq] at h
  obtain ⟨-, h⟩ := h
  rw [List.all_eq_true] at h
  induction i with
  | nil => simp [cssName]
  | cons p ps ih =>
    have hp := h p List.mem_cons_self
    have ih := ih (fun x hx => h x (List.mem_cons_of_mem _ hx))
    cases p with
    | dash j =>
      intro c hc
      rcases List.mem_cons.1 hc with rfl | hc
      · decide
      · exact ih c hc
    | ident n r =>
      intro c hc
      rcases List.mem_append.1 hc with hc | hc
      · exact (of_decide_eq_true hp).2 c hc
      · exact ih c hc

theorem ident_not {c : Char} (h : isIdentChar c = true) : c ∉ (c! "${;}/\",@") := by
  intro hc
  simp only [List.mem_cons, List.not_mem_nil, or_false] at hc
  rcases hc with rfl | rfl | rfl | rfl | rfl | rfl | rfl | rfl <;> exact absurd h (by decide)

theorem value_name {i : CssIdent} (h : plainIdent i = true) : ValueText (cssName i) :=
  valueText_plain (fun c hc hx => ident_not (name_plain h c hc).1 (by
    simp only [List.mem_cons, List.not_mem_nil, or_false] at hx ⊢; grind))

/-- A `/` in front of a value. -/
theorem value_slash {s : Str} {d : Char} (hh : s.head? = some d) (hd : d ∉ (c! "*/\"")) (h : ValueText s) : ValueText ('/' :: s) := by
  cases h with
  | nil => cases hh
  | char c s hc h =>
    cases hh
    refine .slash _ s ?_ h
    simp only [List.mem_cons, List.not_mem_nil, or_false, not_or] at hc hd ⊢
    grind
  | str body s hb h =>
    cases hh
    exact absurd (by decide) hd
  | slash c s hc h =>
    cases hh
    exact absurd (by decide) hd

theorem value_gap {ρ : Env} {c d : CV} {cs : List CV} (h : ValueText (cvsText ρ (d :: cs))) :
    ValueText ((if wordBefore c && wordAfter d then c! " " else []) ++ cvsText ρ (d :: cs)) := by
  split
  · exact .char ' ' _ (by decide) h
  · exact h

mutual
theorem value_cv {ρ : Env} : ∀ {c : CV}, ValueCV ρ c → punctOf c ≠ some '/' → ValueText (cvText ρ c)
  | .func i args, h, _ => by
    rw [ValueCV] at h
    rw [cvText]
    exact valueText_cat (valueText_cat (valueText_cat (value_name h.1) (valueText_plain (by decide))) (value_cvs h.2))
      (valueText_plain (by decide))
  | .tok (.ident i), h, _ => by
    rw [ValueCV] at h
    rw [cvText]
    exact value_name h
  | .tok (.punct c _), h, hs => by
    rw [ValueCV] at h
    rw [cvText]
    have hs : c ≠ '/' := fun e => hs (by rw [e]; rfl)
    refine valueText_plain (fun x hx => ?_)
    simp only [tokenText, List.mem_singleton] at hx
    subst hx
    simp only [List.mem_cons, List.not_mem_nil, or_false] at h
    rcases h with rfl | rfl | rfl | rfl | rfl | rfl | rfl | rfl | rfl | rfl | rfl | rfl | rfl | rfl | rfl | rfl | rfl | rfl | rfl <;>
      first | decide | exact absurd rfl hs
  | .tok (.lit t _), h, _ => by
    rw [ValueCV] at h
    rw [cvText]
    exact h.2
  | .block d cs, h, _ => by
    rw [ValueCV] at h
    have := value_cvs h.2
    cases d with
    | brace => exact absurd rfl h.1
    | paren =>
      rw [cvText]
      exact valueText_cat (valueText_cat (valueText_plain (by decide)) this) (valueText_plain (by decide))
    | bracket =>
      rw [cvText]
      exact valueText_cat (valueText_cat (valueText_plain (by decide)) this) (valueText_plain (by decide))
  | .expr _ e, h, _ => by
    rw [ValueCV] at h
    rw [cvText]
    exact h.2
theorem value_cvs {ρ : Env} : ∀ {cs : List CV}, ValueCVs ρ cs → ValueText (cvsText ρ cs)
  | [], _ => .nil
  | [c], h => by
    rw [ValueCVs] at h
    rw [cvsText]
    refine value_cv h.1 (fun hp => ?_)
    obtain ⟨d, hd, -⟩ := h.2.1 hp
    cases hd
  | c :: d :: cs, h => by
    rw [ValueCVs] at h
    obtain ⟨h1, h2, h3⟩ := h
    have h3 := value_cvs h3
    rw [cvsText, List.append_assoc]
    by_cases hp : punctOf c = some '/'
    · obtain ⟨x, hx, hx'⟩ := h2 hp
      rcases c with _ | ⟨_ | _ | _⟩ | _ | _ <;> try cases hp
      show ValueText ('/' :: ((if _ then _ else []) ++ _))
      rw [if_neg (by simp [wordBefore])]
      exact value_slash hx hx' h3
    · exact valueText_cat (value_cv h1 hp) (value_gap h3)
end

theorem value_solid {ρ : Env} {c : CV} (h : ValueCV ρ c) : Solid (cvText ρ c) := by
  rcases c with ⟨i, args⟩ | ⟨_ | _ | _⟩ | ⟨d, cs⟩ | ⟨_, e⟩ <;> rw [ValueCV] at h
  all_goals first
    | exact solid_func h.1
    | exact solid_block
    | (rw [cvText]; exact h.1)
    | (rw [cvText]; exact solid_name h)
    | skip
  rw [cvText]
  refine solid_chars (by simp [tokenText]) (fun x hx => ?_)
  simp only [tokenText, List.mem_singleton] at hx
  subst hx
  revert h
  revert x
  decide

theorem valueCVs_mem {ρ : Env} : ∀ {cs : List CV}, ValueCVs ρ cs → ∀ c ∈ cs, ValueCV ρ c
  | c :: cs, h, x, hx => by
    rw [ValueCVs] at h
    rcases List.mem_cons.1 hx with rfl | hx
    · exact h.1
    · exact valueCVs_mem h.2.2 x hx

/-! ## Conditions -/

theorem conditionCVs_mem {ρ : Env} : ∀ {cs : List CV}, ConditionCVs ρ cs → ∀ c ∈ cs, ConditionCV ρ c
  | c :: cs, h, x, hx => by
    rw [ConditionCVs] at h
    rcases List.mem_cons.1 hx with rfl | hx
    · exact h.1
    · exact conditionCVs_mem h.2 x hx

theorem condition_solid {ρ : Env} {c : CV} (h : ConditionCV ρ c) : Solid (cvText ρ c) := by
  rcases c with ⟨i, args⟩ | ⟨_ | _ | _⟩ | ⟨d, cs⟩ | ⟨_, e⟩ <;> rw [ConditionCV] at h
  all_goals first
    | exact solid_func h.1
    | exact solid_block
    | (rw [cvText]; exact h.1)
    | (rw [cvText]; exact solid_name h)
    | skip
  rw [cvText]
  refine solid_chars (by simp [tokenText]) (fun x hx => ?_)
  simp only [tokenText, List.mem_singleton] at hx
  subst hx
  revert h
  revert x
  decide

def NoOpen (s : Str) : Prop := ∀ c ∈ s, c ≠ '$' ∧ c ≠ '{'

theorem noOpen_append {a b : Str} (ha : NoOpen a) (hb : NoOpen b) : NoOpen (a ++ b) := by
  intro c hc
  rcases List.mem_append.1 hc with hc | hc
  · exact ha c hc
  · exact hb c hc

theorem noOpen_name {i : CssIdent} (h : plainIdent i = true) : NoOpen (cssName i) := by
  intro c hc
  have := ident_not (name_plain h c hc).1
  simp only [List.mem_cons, List.not_mem_nil, or_false, not_or] at this
  exact ⟨this.1, this.2.1⟩

mutual
theorem condition_cv {ρ : Env} : ∀ {c : CV}, ConditionCV ρ c → NoOpen (cvText ρ c)
  | .func i args, h => by
    rw [ConditionCV] at h
    rw [cvText]
    exact noOpen_append (noOpen_append (noOpen_append (noOpen_name h.1) (by unfold NoOpen; decide)) (condition_cvs h.2)) (by unfold NoOpen; decide)
  | .tok (.ident i), h => by
    rw [ConditionCV] at h
    rw [cvText]
    exact noOpen_name h
  | .tok (.punct c _), h => by
    rw [ConditionCV] at h
    rw [cvText]
    intro x hx
    simp only [tokenText, List.mem_singleton] at hx
    subst hx
    revert h
    revert x
    decide
  | .tok (.lit t _), h => by
    rw [ConditionCV] at h
    rw [cvText]
    exact fun c hc => ⟨fun e => h.2.1 (e ▸ hc), fun e => h.2.2 (e ▸ hc)⟩
  | .block d cs, h => by
    rw [ConditionCV] at h
    have := condition_cvs h.2
    cases d with
    | brace => exact absurd rfl h.1
    | paren =>
      rw [cvText]
      exact noOpen_append (noOpen_append (by unfold NoOpen; decide) this) (by unfold NoOpen; decide)
    | bracket =>
      rw [cvText]
      exact noOpen_append (noOpen_append (by unfold NoOpen; decide) this) (by unfold NoOpen; decide)
  | .expr _ e, h => by
    rw [ConditionCV] at h
    rw [cvText]
    exact fun c hc => ⟨fun e => h.2.1 (e ▸ hc), fun e => h.2.2 (e ▸ hc)⟩
theorem condition_cvs {ρ : Env} : ∀ {cs : List CV}, ConditionCVs ρ cs → NoOpen (cvsText ρ cs)
  | [], _ => by intro c hc; cases hc
  | [c], h => by
    rw [ConditionCVs] at h
    rw [cvsText]
    exact condition_cv h.1
  | c :: d :: cs, h => by
    rw [ConditionCVs] at h
    rw [cvsText]
    refine noOpen_append (noOpen_append (condition_cv h.1) ?_) (condition_cvs h.2)
    split <;> (unfold NoOpen; decide)
end

/-! ## Selectors -/

/-- Texts with something between the commas. -/
def Pieces (t : Str) : Prop :=
  ∃ ps : List Str, ps ≠ [] ∧ (∀ p ∈ ps, SelText p ∧ NonBlank p) ∧ t = Str.join (c! ",") ps

theorem Pieces.single {t : Str} (h : SelText t) (hb : NonBlank t) : Pieces t := ⟨[t], by simp, by simp [h, hb], rfl⟩

theorem Pieces.prepend {a t : Str} (ha : SelText a) (h : Pieces t) : Pieces (a ++ t) := by
  obtain ⟨ps, h1, h2, rfl⟩ := h
  exact frame_prepend ha h1 h2

theorem Pieces.comma {a b : Str} (ha : Pieces a) (hb : Pieces b) : Pieces (a ++ c! "," ++ b) := by
  obtain ⟨ps, h1, h2, rfl⟩ := ha
  obtain ⟨qs, h3, h4, rfl⟩ := hb
  refine ⟨ps ++ qs, by simp [h1], fun p hp => ?_, join_append h1 h3⟩
  rcases List.mem_append.1 hp with hp | hp
  · exact h2 p hp
  · exact h4 p hp

theorem Pieces.cat {a b : Str} (ha : Pieces a) (hb : Pieces b) : Pieces (a ++ b) := by
  obtain ⟨ps, h1, h2, rfl⟩ := ha
  induction ps with
  | nil => exact absurd rfl h1
  | cons p ps ih =>
    cases ps with
    | nil => exact hb.prepend (h2 p (by simp)).1
    | cons q ps =>
      have := (Pieces.single (h2 p (by simp)).1 (h2 p (by simp)).2).comma (ih (by simp) (fun x hx => h2 x (by simp [hx])))
      simpa [Str.join] using this

theorem nonBlank_solid {s : Str} (h : Solid s) : NonBlank s := nonBlank_of_trim h.1 h.2

theorem selText_plain : ∀ {s : Str}, (∀ c ∈ s, c ∉ (c! "$,{};@/\"")) → SelText s
  | [], _ => rfl
  | c :: s, h => by
    have h1 := h c (by simp)
    have ih := selText_plain (s := s) (fun d hd => h d (by simp [hd]))
    unfold SelText at ih ⊢
    rw [lexRun, if_neg (by rintro rfl; exact h1 (by decide)), if_neg (fun hc => h1 ?_), ih]
    simp only [List.mem_cons, List.not_mem_nil, or_false] at hc ⊢
    grind

theorem sel_name {i : CssIdent} (h : plainIdent i = true) : SelText (cssName i) :=
  selText_plain (fun c hc hx => ident_not (name_plain h c hc).1 (by
    simp only [List.mem_cons, List.not_mem_nil, or_false] at hx ⊢; grind))

theorem nonBlank_char {c : Char} (h : c ∉ (c! " \t\r\n")) : NonBlank [c] := ⟨c, by simp, h⟩

theorem selectorCVs_mem {ρ : Env} : ∀ {cs : List CV}, SelectorCVs ρ cs → ∀ c ∈ cs, SelectorCV ρ c
  | c :: cs, h, x, hx => by
    rw [SelectorCVs] at h
    rcases List.mem_cons.1 hx with rfl | hx
    · exact h.1
    · exact selectorCVs_mem h.2 x hx

theorem comma_text {ρ : Env} {c : CV} (h : punctOf c = some ',') : cvText ρ c = c! "," := by
  rcases c with _ | ⟨_ | _ | _⟩ | _ | _ <;> try cases h
  rfl

theorem comma_words {c : CV} (h : punctOf c = some ',') : wordBefore c = false ∧ wordAfter c = false := by
  rcases c with _ | ⟨_ | _ | _⟩ | _ | _ <;> try cases h
  exact ⟨by simp [wordBefore], by simp [wordAfter]⟩

theorem selector_around {o c : Char} {ρ : Env} {cs : List CV} (ho : o ∉ (c! "$,{};@/\" \t\r\n")) (hc : c ∉ (c! "$,{};@/\" \t\r\n"))
    (h : cs = [] ∨ Pieces (cvsText ρ cs)) : Pieces ([o] ++ cvsText ρ cs ++ [c]) := by
  have w : ∀ x : Char, x ∉ (c! "$,{};@/\" \t\r\n") → SelText [x] ∧ NonBlank [x] := by
    intro x hx
    constructor
    · refine selText_plain (fun y hy => ?_)
      rw [List.mem_singleton.1 hy]
      intro hy'
      apply hx
      simp only [List.mem_cons, List.not_mem_nil, or_false] at hy' ⊢
      grind
    · refine nonBlank_char (fun hy' => hx ?_)
      simp only [List.mem_cons, List.not_mem_nil, or_false] at hy' ⊢
      grind
  have p1 := Pieces.single (w o ho).1 (w o ho).2
  have p2 := Pieces.single (w c hc).1 (w c hc).2
  rcases h with rfl | h
  · simpa [cvsText] using p1.cat p2
  · exact (p1.cat h).cat p2

mutual
theorem selector_cv {ρ : Env} : ∀ {c : CV}, SelectorCV ρ c → punctOf c ≠ some ',' → Pieces (cvText ρ c)
  | .func i args, h, _ => by
    rw [SelectorCV] at h
    rw [cvText, List.append_assoc, List.append_assoc, ← List.append_assoc (c! "(")]
    refine (selector_around (by decide) (by decide) ?_).prepend (sel_name h.1)
    rcases h.2.1 with h' | h'
    · exact .inl h'
    · exact .inr (selector_cvs h.2.2 h')
  | .tok (.ident i), h, _ => by
    rw [SelectorCV] at h
    rw [cvText]
    exact .single (sel_name h) (nonBlank_solid (solid_name h))
  | .tok (.punct c _), h, hs => by
    rw [SelectorCV] at h
    rw [cvText]
    have hs : c ≠ ',' := fun e => hs (by rw [e]; rfl)
    refine .single (selText_plain (fun x hx => ?_)) (nonBlank_char ?_)
    · simp only [tokenText, List.mem_singleton] at hx
      subst hx
      simp only [List.mem_cons, List.not_mem_nil, or_false] at h
      rcases h with rfl | rfl | rfl | rfl | rfl | rfl | rfl | rfl | rfl | rfl | rfl | rfl | rfl | rfl | rfl | rfl | rfl <;>
        first | decide | exact absurd rfl hs
    · revert h
      generalize c = c
      revert c
      decide
  | .tok (.lit t _), h, _ => by
    rw [SelectorCV] at h
    rw [cvText]
    exact .single h.2 (nonBlank_solid h.1)
  | .block d cs, h, _ => by
    rw [SelectorCV] at h
    have h3 : cs = [] ∨ Pieces (cvsText ρ cs) := by
      rcases h.2.1 with h' | h'
      · exact .inl h'
      · exact .inr (selector_cvs h.2.2 h')
    cases d with
    | brace => exact absurd rfl h.1
    | paren => rw [cvText]; exact selector_around (by decide) (by decide) h3
    | bracket => rw [cvText]; exact selector_around (by decide) (by decide) h3
  | .expr _ e, h, _ => by
    rw [SelectorCV] at h
    rw [cvText]
    exact .single h.2 (nonBlank_solid h.1)
theorem selector_cvs {ρ : Env} : ∀ {cs : List CV}, SelectorCVs ρ cs → CommasBetween cs → Pieces (cvsText ρ cs)
  | [], _, h => by rw [CommasBetween] at h; exact h.elim
  | [c], h, hc => by
    rw [SelectorCVs] at h
    rw [CommasBetween] at hc
    rw [cvsText]
    exact selector_cv h.1 hc
  | [c, d], h, hc => by
    rw [SelectorCVs, SelectorCVs] at h
    rw [CommasBetween] at hc
    rw [cvsText, cvsText]
    have h1 := selector_cv h.1 hc.1
    rcases hc.2 with ⟨-, h'⟩ | ⟨h', -⟩
    · rw [CommasBetween] at h'
      exact h'.elim
    · have h2 := selector_cv h.2.1 h'
      split
      · rw [List.append_assoc]
        exact h1.cat (h2.prepend (selText_plain (by decide)))
      · simpa using h1.cat h2
  | c :: d :: e :: cs, h, hc => by
    rw [SelectorCVs] at h
    rw [CommasBetween] at hc
    have h1 := selector_cv h.1 hc.1
    rcases hc.2 with ⟨hd, h'⟩ | ⟨hd, h'⟩
    · rw [SelectorCVs] at h
      have h2 := selector_cvs h.2.2 h'
      rw [cvsText, cvsText, comma_text hd, (comma_words hd).1, (comma_words hd).2]
      simpa using h1.comma h2
    · have h2 := selector_cvs h.2 h'
      rw [cvsText]
      split
      · rw [List.append_assoc]
        exact h1.cat (h2.prepend (selText_plain (by decide)))
      · simpa using h1.cat h2
end

theorem selector_solid {ρ : Env} {c : CV} (h : SelectorCV ρ c) : Solid (cvText ρ c) := by
  rcases c with ⟨i, args⟩ | ⟨_ | _ | _⟩ | ⟨d, cs⟩ | ⟨_, e⟩ <;> rw [SelectorCV] at h
  all_goals first
    | exact solid_func h.1
    | exact solid_block
    | (rw [cvText]; exact h.1)
    | (rw [cvText]; exact solid_name h)
    | skip
  rw [cvText]
  refine solid_chars (by simp [tokenText]) (fun x hx => ?_)
  simp only [tokenText, List.mem_singleton] at hx
  subst hx
  revert h
  revert x
  decide

theorem isComma_punct {c : CV} (h : isComma c = false) : punctOf c ≠ some ',' := by
  intro hp
  rcases c with _ | ⟨_ | _ | _⟩ | _ | _ <;> try cases hp
  simp [isComma] at h

theorem splitCommas_mem : ∀ {cs p : List CV}, p ∈ splitCommas cs → ∀ c ∈ p, c ∈ cs ∧ punctOf c ≠ some ','
  | [], p, hp, c, hc => by
    simp [splitCommas] at hp
    subst hp
    cases hc
  | d :: cs, p, hp, c, hc => by
    by_cases h : isComma d = true
    · have : splitCommas (d :: cs) = [] :: splitCommas cs := by
        rcases d with _ | ⟨_ | _ | _⟩ | _ | _ <;> simp [isComma] at h
        subst h
        exact splitCommas_comma _ _
      rw [this] at hp
      rcases List.mem_cons.1 hp with rfl | hp
      · cases hc
      · have := splitCommas_mem hp c hc
        exact ⟨by simp [this.1], this.2⟩
    · have h : isComma d = false := by simpa using h
      rw [splitCommas_other h] at hp
      cases hs : splitCommas cs with
      | nil => exact absurd hs (splitCommas_ne cs)
      | cons q qs =>
        rw [hs] at hp
        have hq := fun p hp c hc => splitCommas_mem (cs := cs) (p := p) (by rw [hs]; exact hp) c hc
        rcases List.mem_cons.1 hp with rfl | hp
        · rcases List.mem_cons.1 hc with rfl | hc
          · exact ⟨by simp, isComma_punct h⟩
          · have := hq q (by simp) c hc
            exact ⟨by simp [this.1], this.2⟩
        · have := hq p (by simp [hp]) c hc
          exact ⟨by simp [this.1], this.2⟩

theorem commasBetween_of : ∀ {cs : List CV}, cs ≠ [] → (∀ c ∈ cs, punctOf c ≠ some ',') → CommasBetween cs
  | [], h, _ => absurd rfl h
  | [c], _, h => by rw [CommasBetween]; exact h c (by simp)
  | c :: d :: cs, _, h => by
    rw [CommasBetween]
    exact ⟨h c (by simp), .inr ⟨h d (by simp), commasBetween_of (by simp) (fun x hx => h x (by simp [hx]))⟩⟩

theorem selectorCVs_of {ρ : Env} : ∀ {cs : List CV}, (∀ c ∈ cs, SelectorCV ρ c) → SelectorCVs ρ cs
  | [], _ => by rw [SelectorCVs]; trivial
  | c :: cs, h => by rw [SelectorCVs]; exact ⟨h c (by simp), selectorCVs_of (fun x hx => h x (by simp [hx]))⟩

/-! ## Items -/

mutual
theorem ordinary {ρ : Env} : ∀ {i : SItem}, Ordinary ρ i → Checked ρ i
  | .decl name vs, h => by
    rw [Ordinary] at h
    obtain ⟨h1, h2, h3, h4⟩ := h
    have := solid_cvs h3 (fun c hc => value_solid (valueCVs_mem h4 c hc))
    rw [Checked]
    exact ⟨h1, h2, value_cvs h4, this.1, this.2⟩
  | .rule name ps body, h => by
    rw [Ordinary] at h
    have h1 := condition_cvs h.1
    rw [Checked]
    refine ⟨?_, fun hc => (h1 _ hc).1 rfl, fun hc => (h1 _ hc).2 rfl, ordinaryL h.2⟩
    by_cases hp : ps = []
    · subst hp; rfl
    · exact (solid_cvs hp (fun c hc => condition_solid (conditionCVs_mem h.1 c hc))).2
  | .block qs body, h => by
    rw [Ordinary] at h
    rw [Checked]
    refine ⟨fun s hs => ?_, ordinaryL h.2.2⟩
    obtain ⟨p, hp, rfl⟩ := List.mem_map.1 hs
    have hm := splitCommas_mem (WrittenP.dropEmpty_mem hp)
    have hc := fun c hc => selectorCVs_mem h.2.1 c (hm c hc).1
    obtain ⟨ps, h1, h2, h3⟩ := selector_cvs (selectorCVs_of hc) (commasBetween_of (h.1 p hp) (fun c hc => (hm c hc).2))
    exact ⟨ps, h1, h2, h3, (solid_cvs (h.1 p hp) (fun c h => selector_solid (hc c h))).2⟩
theorem ordinaryL {ρ : Env} : ∀ {is : List SItem}, OrdinaryL ρ is → CheckedL ρ is
  | [], _ => by rw [CheckedL]; trivial
  | i :: is, h => by
    rw [OrdinaryL] at h
    rw [CheckedL]
    exact ⟨ordinary h.1, ordinaryL h.2⟩
end

end OrdinaryP
