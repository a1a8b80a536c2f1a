import Verif.Proofs.Printed

/-! # Reading groups back -/

namespace ReparseP
open Nom NomP Css ParserP LexP ShapeP DeclsP HeadersP Spec GroupsP

/-! ## A selector header is not a declaration -/

/-- Header texts: like selector texts, but with commas and comments. -/
inductive HI : Str → Prop
  | nil : HI []
  | char (c : Char) (s : Str) : c ≠ '"' → c ∉ (c! "${};@/") → HI s → HI (c :: s)
  | str (body s : Str) : StrBody body → HI s → HI ('"' :: body ++ '"' :: s)
  | comment (body s : Str) : ¬ (c! "*/") <:+: body → HI s → HI (c! "/*" ++ body ++ c! "*/" ++ s)

theorem HI.append {a b : Str} (ha : HI a) (hb : HI b) : HI (a ++ b) := by
  induction ha with
  | nil => exact hb
  | char c s hq hc _ ih => exact .char c _ hq hc ih
  | str body s hbody _ ih => simpa using HI.str body _ hbody ih
  | comment body s hbody _ ih => simpa using HI.comment body _ hbody ih

theorem hi_of_selI {s : Str} (h : SelI s) : HI s := by
  induction h with
  | nil => exact .nil
  | char c s hq hc _ ih =>
    refine .char c _ hq ?_ ih
    simp only [List.mem_cons, List.not_mem_nil, or_false] at hc ⊢; grind
  | str body s hbody _ ih => exact .str body _ hbody ih

theorem hi_of_blank {w : Str} (h : Blank w) : HI w := by
  induction h with
  | nil => exact .nil
  | ws c w hc _ ih =>
    simp only [List.mem_cons, List.not_mem_nil, or_false] at hc
    refine .char c w ?_ ?_ ih
    · rcases hc with rfl | rfl | rfl | rfl <;> decide
    · rcases hc with rfl | rfl | rfl | rfl <;> decide
  | comment body w hb _ ih => exact .comment body w hb ih

/-- Somewhere in a selector header. -/
def H (r i : Str) : Prop := ∃ h, HI h ∧ i = h ++ '{' :: r

def Pres {α : Type} (r : Str) (p : Parser α) : Prop := ∀ i r' a, H r i → p i = some (r', a) → H r r'

theorem H.head {r i : Str} (h : H r i) :
    ∃ c t, i = c :: t ∧ c ∉ (c! "$;@}") ∧ (c = '/' → ∃ u, t = '*' :: u) := by
  obtain ⟨h, hs, rfl⟩ := h
  cases hs with
  | nil => exact ⟨_, _, rfl, by decide, fun h => absurd h (by decide)⟩
  | char c s hq hc _ =>
    refine ⟨c, _, rfl, ?_, ?_⟩
    · simp only [List.mem_cons, List.not_mem_nil, or_false] at hc ⊢; grind
    · rintro rfl; simp at hc
  | str body s hb _ => exact ⟨_, _, rfl, by decide, fun h => absurd h (by decide)⟩
  | comment body s hb _ => exact ⟨_, _, rfl, by decide, fun _ => ⟨_, rfl⟩⟩

theorem H.tail {r : Str} {c : Char} {t : Str} (h : H r (c :: t)) (h1 : c ≠ '"') (h2 : c ≠ '{')
    (h3 : c ≠ '/') : H r t := by
  obtain ⟨h, hs, e⟩ := h
  cases hs with
  | nil => cases e; exact absurd rfl h2
  | char d s hq hc hs => cases e; exact ⟨s, hs, rfl⟩
  | str body s hb _ => cases e; exact absurd rfl h1
  | comment body s hb _ => cases e; exact absurd rfl h3

theorem H.drop {r : Str} {f : Char → Bool} (hq : f '"' = false) (hb : f '{' = false)
    (hs : f '/' = false) : ∀ {i : Str}, H r i → H r (i.dropWhile f)
  | [], h => h
  | c :: t, h => by
    rw [List.dropWhile_cons]
    split
    · rename_i hc
      exact H.drop hq hb hs (h.tail (by rintro rfl; rw [hq] at hc; cases hc)
        (by rintro rfl; rw [hb] at hc; cases hc) (by rintro rfl; rw [hs] at hc; cases hc))
    · exact h

theorem H.sp {r i : Str} (h : H r i) : H r (spRest i) := by
  obtain ⟨h, hs, rfl⟩ := h
  induction hs with
  | nil =>
    rw [List.nil_append, spRest_nonblank (by simp) (by simp)]
    exact ⟨[], .nil, rfl⟩
  | char c s hq hc hs ih =>
    rw [List.cons_append]
    by_cases hw : c ∈ (c! " \t\r\n")
    · rw [spRest_ws (by simpa using hw)]
      exact ih
    · rw [spRest_nonblank hw (by rintro rfl; simp at hc)]
      exact ⟨_, .char c s hq hc hs, rfl⟩
  | str body s hb hs _ =>
    rw [List.cons_append, List.cons_append, spRest_nonblank (by simp) (by simp)]
    exact ⟨_, .str body s hb hs, rfl⟩
  | comment body s hb _ ih =>
    have : Blank (c! "/*" ++ body ++ c! "*/" ++ []) := .comment body [] hb .nil
    have e : spRest (c! "/*" ++ body ++ c! "*/" ++ s ++ '{' :: r) = spRest (s ++ '{' :: r) := by
      rw [← spRest_blank this (s ++ '{' :: r)]; simp
    rw [e]
    exact ih

section
variable {α β γ : Type} {r : Str}

theorem pres_tag {c : Char} (h1 : c ≠ '"') (h2 : c ≠ '{') (h3 : c ≠ '/') : Pres r (tag [c]) := by
  intro i r' a hi h
  obtain ⟨c', t, rfl, -⟩ := hi.head
  obtain ⟨h5, h4⟩ := tag_some.1 h
  simp only [List.cons_append, List.nil_append, List.cons.injEq] at h5
  obtain ⟨rfl, rfl⟩ := h5
  exact hi.tail h1 h2 h3

theorem pres_takeWhile1 {f : Char → Bool} (hq : f '"' = false) (hb : f '{' = false)
    (hs : f '/' = false) : Pres r (takeWhile1 f) := by
  intro i r' a hi h
  rw [(takeWhile1_some.1 h).2.1]
  exact hi.drop hq hb hs

theorem pres_alt {p q : Parser α} (hp : Pres r p) (hq : Pres r q) : Pres r (alt p q) := by
  intro i r' a hi h
  rcases alt_some.1 h with h | ⟨-, h⟩
  · exact hp _ _ _ hi h
  · exact hq _ _ _ hi h

theorem pres_map {p : Parser α} {f : α → β} (hp : Pres r p) : Pres r (map p f) := by
  intro i r' a hi h
  obtain ⟨b, h1, -⟩ := map_some.1 h
  exact hp _ _ _ hi h1

theorem pres_recognize {p : Parser α} (hp : Pres r p) : Pres r (recognize p) := by
  intro i r' a hi h
  obtain ⟨b, h1, -⟩ := recognize_some.1 h
  exact hp _ _ _ hi h1

theorem pres_preceded {p : Parser α} {q : Parser β} (hp : Pres r p) (hq : Pres r q) :
    Pres r (preceded p q) := by
  intro i r' a hi h
  obtain ⟨r1, b, h1, h2⟩ := preceded_some.1 h
  exact hq _ _ _ (hp _ _ _ hi h1) h2

theorem pres_separatedPair {p : Parser α} {s : Parser β} {q : Parser γ} (hp : Pres r p) (hs : Pres r s)
    (hq : Pres r q) : Pres r (separatedPair p s q) := by
  intro i r' a hi h
  obtain ⟨r1, r2, b, h1, h2, h3⟩ := separatedPair_some.1 h
  exact hq _ _ _ (hs _ _ _ (hp _ _ _ hi h1) h2) h3

theorem pres_nonEmpty {p : Parser α} (hp : Pres r p) : Pres r (nonEmpty p) := by
  intro i r' a hi h
  exact hp _ _ _ hi (nonEmpty_some.1 h).2

theorem pres_trimmed {p : Parser α} (hp : Pres r p) : Pres r (trimmed p) := by
  intro i r' a hi h
  obtain ⟨r1, h1, rfl⟩ := trimmed_some.1 h
  exact (hp _ _ _ hi.sp h1).sp

theorem pres_many0 {p : Parser α} (hs : Suff p) (hp : Pres r p) : Pres r (many0 p) := by
  intro i
  generalize hn : i.length = n
  induction n using Nat.strongRecOn generalizing i with
  | ind n ih =>
    intro r' a hi h
    rw [many0_unfold hs] at h
    cases h1 : p i with
    | none =>
      rw [h1] at h
      simp only [Option.some.injEq, Prod.mk.injEq] at h
      rw [← h.1]; exact hi
    | some x =>
      obtain ⟨r1, b⟩ := x
      rw [h1] at h
      simp only at h
      split at h
      · cases h
      · rename_i hne
        have hle := (hs _ _ _ h1).length_le
        cases h2 : many0 p r1 with
        | none => rw [h2] at h; cases h
        | some y =>
          rw [h2] at h
          simp only [Option.some.injEq, Prod.mk.injEq] at h
          have := ih r1.length (by omega) r1 rfl y.1 y.2 (hp _ _ _ hi h1) h2
          rw [← h.1]; exact this

theorem pres_many1 {p : Parser α} (hs : Suff p) (hp : Pres r p) : Pres r (many1 p) := by
  intro i r' a hi h
  obtain ⟨r1, b, as, h1, h2, -⟩ := many1_some.1 h
  exact pres_many0 hs hp _ _ _ (hp _ _ _ hi h1) h2

theorem pres_fail {p : Parser α} (h : ∀ i, H r i → p i = none) : Pres r p := by
  intro i r' a hi h'
  rw [h i hi] at h'
  cases h'

theorem pres_ident : Pres r ident := by
  refine pres_recognize (pres_preceded ?_ (pres_many0 suff_identPiece ?_))
  · exact pres_alt (pres_tag (by decide) (by decide) (by decide)) (pres_alt (pres_tag (by decide) (by decide) (by decide))
      (pres_alt (pres_takeWhile1 (by decide) (by decide) (by decide)) (pres_takeWhile1 (by decide) (by decide) (by decide))))
  · exact pres_alt (pres_tag (by decide) (by decide) (by decide)) (pres_alt (pres_tag (by decide) (by decide) (by decide))
      (pres_alt (pres_takeWhile1 (by decide) (by decide) (by decide)) (pres_takeWhile1 (by decide) (by decide) (by decide))))

theorem pres_string : Pres r string := by
  intro i r' a hi h
  obtain ⟨hd, hs, e⟩ := hi.sp
  have hsp : string i = string (spRest i) := (trimmed_eq_of_spRest (spRest_idem _)).symm
  rw [hsp, e] at h
  cases hs with
  | nil => rw [string_fail (by rw [List.nil_append, spRest_nonblank (by simp) (by simp)]; simp)] at h; cases h
  | char c s hq hc hs =>
    have h2 : spRest (c :: s ++ '{' :: r) = c :: s ++ '{' :: r := by rw [← e, spRest_idem]
    rw [string_fail (by rw [h2]; simpa using hq)] at h
    cases h
  | str body s hb hs =>
    obtain ⟨t, ht⟩ := string_read hb (s ++ '{' :: r)
    have e2 : '"' :: body ++ '"' :: s ++ '{' :: r = '"' :: body ++ '"' :: (s ++ '{' :: r) := by simp
    rw [e2, ht] at h
    cases h
    exact H.sp ⟨s, hs, rfl⟩
  | comment body s hb hs =>
    have : Blank (c! "/*" ++ body ++ c! "*/" ++ []) := .comment body [] hb .nil
    have e2 : spRest (c! "/*" ++ body ++ c! "*/" ++ s ++ '{' :: r) = spRest (s ++ '{' :: r) := by
      rw [← spRest_blank this (s ++ '{' :: r)]; simp
    have h3 := congrArg List.length e
    rw [← spRest_idem i, e, e2] at h3
    have h4 := (spRest_suffix (s ++ '{' :: r)).length_le
    simp at h3 h4
    omega

theorem pres_value : Pres r styleAttrValue := by
  refine pres_trimmed (pres_map (pres_recognize (pres_many1 suff_valuePiece ?_)))
  refine pres_alt (pres_takeWhile1 (by decide) (by decide) (by decide)) (pres_alt (pres_recognize (pres_fail ?_))
    (pres_alt pres_string (pres_recognize (pres_fail ?_))))
  · intro i hi
    refine interpolation_fail ?_
    obtain ⟨c, t, e, hc, -⟩ := hi.sp.head
    rw [e]
    intro d hd
    simp only [List.head?_cons, Option.mem_def, Option.some.injEq] at hd
    subst hd
    rintro rfl
    revert hc; decide
  · intro i hi
    obtain ⟨c, t, rfl, hc, hs⟩ := hi.head
    cases hx : preceded _ _ (c :: t) with
    | none => rfl
    | some x =>
      obtain ⟨_, _, h1, h2⟩ := preceded_some.1 (show _ = some (x.1, x.2) from hx)
      by_cases h3 : c = '/'
      · obtain ⟨u, rfl⟩ := hs h3
        obtain ⟨h4, -⟩ := tag_some.1 h1
        simp at h4
        rw [← h4.2] at h2
        simp [noneOf] at h2
      · rw [tag_fail h3] at h1
        cases h1

theorem pres_attribute : Pres r styleAttribute :=
  pres_trimmed (pres_nonEmpty (pres_map (pres_separatedPair (pres_trimmed pres_ident)
    (pres_tag (by decide) (by decide) (by decide)) pres_value)))

end

theorem H.no_semi {r i : Str} (h : H r i) : tag (c! ";") i = none := by
  obtain ⟨c, t, rfl, hc, -⟩ := h.head
  exact tag_fail (by rintro rfl; revert hc; decide) t

/-- A selector header is not read as declarations that end in a semicolon. -/
theorem attributes_header {r i : Str} (h : H r i) : attributes true i = none := by
  refine trimmed_none.2 ?_
  cases hx : nonEmpty _ (spRest i) with
  | none => rfl
  | some x =>
    exfalso
    obtain ⟨-, h1⟩ := nonEmpty_some.1 (show _ = some (x.1, x.2) from hx)
    obtain ⟨r1, b, h2, h3⟩ := terminated_some.1 h1
    have hr1 : H r r1 := by
      simp only [separatedList1] at h2
      cases ha : styleAttribute (spRest i) with
      | none => rw [ha] at h2; cases h2
      | some y =>
        rw [ha] at h2
        simp only at h2
        have hy := pres_attribute _ _ _ h.sp ha
        rw [sepLoop, hy.no_semi] at h2
        simp only [Option.some.injEq, Prod.mk.injEq] at h2
        rw [← h2.1]
        exact hy
    obtain ⟨r2, o, h4, h5⟩ := preceded_some.1 h3
    have hr2 : H r r2 := by
      rcases opt_some.1 h4 with ⟨-, rfl, -⟩ | ⟨u, hu, -⟩
      · exact hr1
      · obtain ⟨v, hv⟩ := sp_total r1
        rw [hv] at hu
        cases hu
        exact hr1.sp
    simp only [finalSemicolon, if_true] at h5
    obtain ⟨_, h6, -⟩ := map_some.1 h5
    rw [hr2.no_semi] at h6
    cases h6

/-! ## Declarations -/

theorem blank_ws {w : Str} (h : ∀ c ∈ w, c ∈ (c! " \t\r\n")) : Blank w := by
  induction w with
  | nil => exact .nil
  | cons c w ih => exact .ws c w (h c (by simp)) (ih (fun d hd => h d (by simp [hd])))

theorem indent_ascii (d : Nat) : ∀ c ∈ indent d, c ∈ (c! " \t\r\n") := by
  intro c hc
  rw [indent, List.mem_replicate] at hc
  rw [hc.2]; decide

theorem spRest_indent (d : Nat) (s : Str) : spRest (indent d ++ s) = spRest s :=
  spRest_blank (blank_ws (indent_ascii d)) s

theorem spRest_nl (s : Str) : spRest ('\n' :: s) = spRest s := spRest_ws (c := '\n') (by decide) s

def src (d : Nat) (p : Str × Str) : DeclSrc :=
  { before := '\n' :: indent d, key := p.1, afterKey := [], beforeValue := c! " ", value := p.2, after := [] }

theorem src_ok {d : Nat} {p : Str × Str} (h : CleanDecl p.1 p.2) : (src d p).Ok :=
  ⟨blank_ws (by
      intro c hc
      rcases List.mem_cons.1 hc with rfl | hc
      · decide
      · exact indent_ascii d c hc),
    h.1, h.2.1, .nil, blank_ws (by simp [src]), h.2.2.1, h.2.2.2.1, h.2.2.2.2, .nil, by simp [src]⟩

theorem body_src (d : Nat) (D : List (Str × Str)) (r : Str) :
    '\n' :: (body d D ++ r) = ((D.map (src d)).map DeclSrc.text).flatten ++ '\n' :: r := by
  induction D with
  | nil => rfl
  | cons p D ih =>
    have : body d (p :: D) = indent d ++ p.1 ++ c! ": " ++ p.2 ++ c! ";\n" ++ body d D := rfl
    rw [this]
    simp only [List.map_cons, List.flatten_cons, List.append_assoc, ← ih]
    simp [DeclSrc.text, DeclSrc.bare, src]

/-- The contents a group of declarations reads as. -/
def attrs (D : List (Str × Str)) : List RBC := D.map (fun p => .attr p.1 [p.2])

/-- The text of a body with its braces, after the opening one. -/
def bodyText (d e : Nat) (D : List (Str × Str)) (r : Str) : Str :=
  '\n' :: (body d D ++ (indent e ++ '}' :: r))

theorem attributes_body {d e : Nat} {D : List (Str × Str)} (hne : D ≠ [])
    (hD : ∀ p ∈ D, CleanDecl p.1 p.2) (r : Str) (i : Str) (hi : spRest i = spRest (bodyText d e D r)) :
    attributes false i = some ('}' :: r, D.map (fun p => (p.1, [p.2]))) := by
  have := attributes_read false (ds := D.map (src d)) (by simpa using hne)
    (by
      intro x hx
      obtain ⟨p, hp, rfl⟩ := List.mem_map.1 hx
      exact src_ok (hD p hp))
    (w := '\n' :: indent e) (r := '}' :: r)
    (blank_ws (by
      intro c hc
      rcases List.mem_cons.1 hc with rfl | hc
      · decide
      · exact indent_ascii e c hc)) (Or.inr ⟨r, Or.inl rfl⟩)
  rw [show ('\n' :: indent e) ++ '}' :: r = '\n' :: (indent e ++ '}' :: r) from rfl, ← body_src] at this
  rw [List.map_map] at this
  refine Eq.trans (trimmed_eq_of_spRest hi) ?_
  exact this

theorem spRest_brace (r : Str) : spRest ('}' :: r) = '}' :: r := spRest_nonblank (by simp) (by simp) r

theorem attributes_brace (d : Bool) (r : Str) : attributes d ('}' :: r) = none := by
  refine attributes_fail d ?_
  rw [spRest_brace]
  exact endsDecls_noIdent (Or.inr ⟨r, Or.inl rfl⟩)

theorem otherCondition_brace (r : Str) : otherCondition ('}' :: r) = none :=
  atRuleCondition_fail (spRest_brace r) rfl

theorem ruleBlockWith_fail {c : Parser (List Str)} {rb : Parser RuleP} {x : Char} {r : Str}
    (hsp : spRest (x :: r) = x :: r) (h : c (x :: r) = none) : ruleBlockWith c rb (x :: r) = none := by
  refine trimmed_none.2 ?_
  rw [hsp, nonEmpty_cons _ (by simp)]
  cases hx : separatedPair _ _ _ (x :: r) with
  | none => rfl
  | some y =>
    obtain ⟨_, _, _, h1, -⟩ := separatedPair_some.1 (show _ = some (y.1, y.2) from hx)
    rw [h] at h1
    cases h1

theorem ruleBlock_brace (n : Nat) (r : Str) : ruleBlock n ('}' :: r) = none := by
  cases n with
  | zero => rfl
  | succ n => exact ruleBlockWith_fail (spRest_brace r) (otherCondition_brace r)

theorem suff_contentPiece {rb : Parser RuleP} (h : Suff rb) :
    Suff (alt (map (attributes false) attrsToRBC) (map rb (fun r => [RBC.rule r.1 r.2]))) :=
  suff_alt (suff_map (suff_attributes _)) (suff_map h)

theorem prog_contentPiece {rb : Parser RuleP} (h : Prog rb) :
    Prog (alt (map (attributes false) attrsToRBC) (map rb (fun r => [RBC.rule r.1 r.2]))) :=
  prog_alt (prog_map (prog_attributes _)) (prog_map h)

theorem contents_body {d e : Nat} {D : List (Str × Str)} (hne : D ≠ [])
    (hD : ∀ p ∈ D, CleanDecl p.1 p.2) (r : Str) (i : Str) (hi : spRest i = spRest (bodyText d e D r))
    (n : Nat) : contentsWith (ruleBlock n) i = some ('}' :: r, attrs D) := by
  refine map_some.2 ⟨[attrs D], ?_, by simp⟩
  refine Eq.trans (many0_step (suff_contentPiece (suff_ruleBlock n)) (prog_contentPiece (prog_ruleBlock n))
    (alt_some.2 (Or.inl (map_some.2 ⟨_, attributes_body hne hD r i hi, rfl⟩)))) ?_
  rw [many0_stop (suff_contentPiece (suff_ruleBlock n)) (alt_none.2
    ⟨map_none.2 (attributes_brace false r), map_none.2 (ruleBlock_brace n r)⟩)]
  simp [attrs, attrsToRBC]

/-! ## Blocks -/

theorem nonBlank_of_trim {s : Str} (hne : s ≠ []) (h : Str.trim s = s) : NonBlank s := by
  cases s with
  | nil => exact absurd rfl hne
  | cons c t =>
    refine ⟨c, by simp, fun hm => ?_⟩
    have := trim_head h c (by simp)
    rw [ascii_ws hm] at this
    cases this

theorem pieces : ∀ (σs : List Str) (w : Str), σs ≠ [] → (∀ c ∈ w, c ∈ (c! " \t\r\n")) →
    (∀ x ∈ σs, PrintedSel x) →
    ∃ ps : List Str, ps ≠ [] ∧ w ++ header σs ++ c! " " = Str.join (c! ",") ps ∧
      ps.map Str.trim = σs ∧ ∀ p ∈ ps, SelI p ∧ NonBlank p
  | [], _, h, _, _ => absurd rfl h
  | [s], w, _, hw, hs => by
    obtain ⟨h1, h2, h3, -⟩ := hs s (by simp)
    refine ⟨[w ++ s ++ c! " "], by simp, rfl, ?_, ?_⟩
    · simp only [List.map_cons, List.map_nil, List.cons.injEq, and_true]
      rw [Text.trim_append_ws _ (by intro c hc; simp at hc; subst hc; decide),
        Text.trim_ws_append _ (fun c hc => ascii_ws (hw c hc)), h3]
    · intro p hp
      simp only [List.mem_singleton] at hp
      subst hp
      refine ⟨selI_of_selText (SelText.append (SelText.append (selText_ws hw) h1) (by decide)), ?_⟩
      obtain ⟨c, hc, hc2⟩ := nonBlank_of_trim h2 h3
      exact ⟨c, by simp [hc], hc2⟩
  | s :: s' :: t, w, _, hw, hs => by
    obtain ⟨ps, e0, e1, e2, e3⟩ := pieces (s' :: t) (c! " ") (by simp) (by decide)
      (fun x hx => hs x (by simp [List.mem_cons.1 hx]))
    obtain ⟨h1, h2, h3, -⟩ := hs s (by simp)
    refine ⟨(w ++ s) :: ps, by simp, ?_, ?_, ?_⟩
    · cases ps with
      | nil => exact absurd rfl e0
      | cons p ps =>
        simp only [Str.join, header] at e1 ⊢
        rw [← e1]
        simp
    · rw [List.map_cons, e2, Text.trim_ws_append _ (fun c hc => ascii_ws (hw c hc)), h3]
    · intro p hp
      rcases List.mem_cons.1 hp with rfl | hp
      · refine ⟨selI_of_selText (SelText.append (selText_ws hw) h1), ?_⟩
        obtain ⟨c, hc, hc2⟩ := nonBlank_of_trim h2 h3
        exact ⟨c, by simp [hc], hc2⟩
      · exact e3 p hp

theorem join_hi : ∀ (ps : List Str), (∀ p ∈ ps, SelI p) → HI (Str.join (c! ",") ps)
  | [], _ => .nil
  | [p], h => hi_of_selI (h p (by simp))
  | p :: q :: ps, h => by
    have ih := join_hi (q :: ps) (fun x hx => h x (by simp [List.mem_cons.1 hx]))
    simp only [Str.join]
    exact ((hi_of_selI (h p (by simp))).append (.char ',' [] (by decide) (by decide) .nil)).append ih

theorem block_read_pieces {t : Str} {ps : List Str} (p0 : ps ≠ []) (p1 : t ++ c! " " = Str.join (c! ",") ps)
    (p3 : ∀ p ∈ ps, SelI p ∧ NonBlank p)
    {d e : Nat} {D : List (Str × Str)} (hD0 : D ≠ []) (hD : ∀ p ∈ D, CleanDecl p.1 p.2) (r : Str)
    (n : Nat) (i : Str) (hi : spRest i = spRest (t ++ ' ' :: '{' :: bodyText d e D r)) :
    danglingBlock i = none ∧
      block n i = some (spRest r, .block (ps.map (fun p => [Str.trim p])) (attrs D)) := by
  have e1 : t ++ ' ' :: '{' :: bodyText d e D r = Str.join (c! ",") ps ++ '{' :: bodyText d e D r := by
    rw [← p1]; simp
  have hH : H (bodyText d e D r) (t ++ ' ' :: '{' :: bodyText d e D r) := by
    rw [e1]
    refine ⟨Str.join (c! ",") ps, ?_, rfl⟩
    exact join_hi ps (fun p hp => (p3 p hp).1)
  have hH' : H (bodyText d e D r) (spRest i) := by rw [hi]; exact hH.sp
  have hne' : spRest i ≠ [] := by
    obtain ⟨c, t, e, -⟩ := hH'.head
    rw [e]; simp
  constructor
  · refine trimmed_none.2 ?_
    rw [nonEmpty_cons _ hne', map_none]
    exact attributes_header hH'
  · have hcond : condition (spRest i) = some ('{' :: bodyText d e D r, ps.map (fun p => [Str.trim p])) := by
      have := condition_read p0 p3 (bodyText d e D r)
      rw [← e1] at this
      rw [← this]
      exact trimmed_eq_of_spRest (by rw [spRest_idem, hi])
    refine trimmed_some.2 ⟨r, nonEmpty_some.2 ⟨hne', map_some.2 ⟨(_, attrs D), pair_some.2
      ⟨'{' :: bodyText d e D r, hcond, ?_⟩, rfl⟩⟩, rfl⟩
    refine delimited_some.2 ⟨bodyText d e D r, c! "{", '}' :: r, c! "}", tag_append (c! "{") _, ?_, tag_append (c! "}") _⟩
    have hb : blockContents n (spRest (bodyText d e D r)) = some ('}' :: r, attrs D) := by
      refine trimmed_some.2 ⟨'}' :: r, nonEmpty_some.2 ⟨?_, contents_body (d := d) (e := e) hD0 hD r _ (by simp [spRest_idem]) n⟩,
        (spRest_brace r).symm⟩
      intro h0
      have := attributes_body (d := d) (e := e) hD0 hD r (spRest (bodyText d e D r)) (by rw [spRest_idem])
      rw [spRest_idem] at h0
      rw [h0, prog_nil (prog_attributes false)] at this
      cases this
    exact trimmed_some.2 ⟨'}' :: r, hb, (spRest_brace r).symm⟩

theorem block_read {σs : List Str} (hne : σs ≠ []) (hs : ∀ x ∈ σs, PrintedSel x)
    {d e : Nat} {D : List (Str × Str)} (hD0 : D ≠ []) (hD : ∀ p ∈ D, CleanDecl p.1 p.2) (r : Str)
    (n : Nat) (i : Str) (hi : spRest i = spRest (header σs ++ ' ' :: '{' :: bodyText d e D r)) :
    danglingBlock i = none ∧ block n i = some (spRest r, .block (σs.map (fun s => [s])) (attrs D)) := by
  obtain ⟨ps, p0, p1, p2, p3⟩ := pieces σs [] hne (by simp) hs
  have := block_read_pieces p0 p1 p3 hD0 hD r n i hi
  rwa [show ps.map (fun p => [Str.trim p]) = σs.map (fun s => [s]) by rw [← p2, List.map_map]; rfl] at this

/-! ## Frames -/

theorem frame_pieces {t : Str} (h : CleanFrame t) :
    ∃ ps : List Str, ps ≠ [] ∧ t ++ c! " " = Str.join (c! ",") ps ∧ ∀ p ∈ ps, SelI p ∧ NonBlank p := by
  obtain ⟨ps, hne, hp, rfl, htrim⟩ := h
  clear htrim
  induction ps with
  | nil => exact absurd rfl hne
  | cons p ps ih =>
    obtain ⟨h1, h2⟩ := hp p (by simp)
    cases ps with
    | nil =>
      refine ⟨[p ++ c! " "], by simp, rfl, ?_⟩
      intro q hq
      simp only [List.mem_singleton] at hq
      subst hq
      obtain ⟨c, hc, hc2⟩ := h2
      exact ⟨selI_of_selText (SelText.append h1 (by decide)), c, by simp [hc], hc2⟩
    | cons q ps =>
      obtain ⟨qs, e0, e1, e2⟩ := ih (by simp) (fun x hx => hp x (by simp [List.mem_cons.1 hx]))
      refine ⟨p :: qs, by simp, ?_, ?_⟩
      · cases qs with
        | nil => exact absurd rfl e0
        | cons a qs =>
          simp only [Str.join] at e1 ⊢
          rw [← e1]; simp
      · intro x hx
        rcases List.mem_cons.1 hx with rfl | hx
        · exact ⟨selI_of_selText h1, h2⟩
        · exact e2 x hx

/-- The first character of a printed header is not blank and does not start a comment. -/
theorem header_sp {t : Str} (hne : t ≠ []) (ht : Str.trim t = t) (hs : ∀ u, t ≠ '/' :: u) (r : Str) :
    spRest (t ++ r) = t ++ r := by
  cases t with
  | nil => exact absurd rfl hne
  | cons c t =>
    refine spRest_nonblank ?_ (fun h => hs t (by rw [h])) _
    intro hm
    have := trim_head ht c (by simp)
    rw [ascii_ws hm] at this
    cases this

theorem frame_ne {t : Str} (h : CleanFrame t) : t ≠ [] ∧ ∀ u, t ≠ '/' :: u := by
  obtain ⟨ps, hne, hp, rfl, -⟩ := h
  cases ps with
  | nil => exact absurd rfl hne
  | cons p ps =>
    obtain ⟨h1, c, hc, -⟩ := hp p (by simp)
    have hp0 : p ≠ [] := by rintro rfl; cases hc
    have hh := join_head (sep := c! ",") (ps := ps) hp0
    constructor
    · intro h0; rw [h0] at hh; cases p with
      | nil => exact hp0 rfl
      | cons a b => cases hh
    · intro u hu
      rw [hu] at hh
      cases p with
      | nil => exact hp0 rfl
      | cons a b =>
        simp only [List.head?_cons, Option.some.injEq] at hh
        subst hh
        simp [SelText, lexRun] at h1

/-- The text of a frame after the frames read so far. -/
def frameTail (d : Nat) (f : Frame) (r : Str) : Str :=
  indent d ++ (f.1 ++ ' ' :: '{' :: bodyText (d + 1) d f.2 ('\n' :: r))

theorem frameText_eq (d : Nat) (f : Frame) (r : Str) : frameText d f ++ r = frameTail d f r := by
  simp [frameText, opens, closes, layout, frameTail, bodyText]

theorem frame_read {f : Frame} (h1 : CleanFrame f.1) (h2 : f.2 ≠ []) (h3 : ∀ p ∈ f.2, CleanDecl p.1 p.2)
    (d n : Nat) (r : Str) (i : Str) (hi : spRest i = spRest (frameTail d f r)) :
    ruleBlockKeyframes n i = some (spRest r, ([f.1], attrs f.2)) := by
  obtain ⟨hf0, hf1⟩ := frame_ne h1
  obtain ⟨ps, p0, p1, p2⟩ := frame_pieces h1
  have htrim : Str.trim f.1 = f.1 := by obtain ⟨_, _, _, _, h⟩ := h1; exact h
  have e : spRest i = f.1 ++ ' ' :: '{' :: bodyText (d + 1) d f.2 ('\n' :: r) := by
    rw [hi, frameTail, spRest_indent, header_sp hf0 htrim hf1]
  have hcond : (map (recognize condition) (fun m => [Str.trim m])) (spRest i) =
      some ('{' :: bodyText (d + 1) d f.2 ('\n' :: r), [f.1]) := by
    have := condition_read p0 p2 (bodyText (d + 1) d f.2 ('\n' :: r))
    rw [← p1] at this
    refine map_some.2 ⟨f.1 ++ c! " ", ?_, ?_⟩
    · rw [e, show f.1 ++ ' ' :: '{' :: bodyText (d + 1) d f.2 ('\n' :: r) =
        (f.1 ++ c! " ") ++ '{' :: bodyText (d + 1) d f.2 ('\n' :: r) by simp]
      exact recognize_append this
    · rw [Text.trim_append_ws _ (by intro c hc; simp at hc; subst hc; decide), htrim]
  refine trimmed_some.2 ⟨'\n' :: r, nonEmpty_some.2 ⟨by rw [e]; simp, separatedPair_some.2
    ⟨'{' :: bodyText (d + 1) d f.2 ('\n' :: r), bodyText (d + 1) d f.2 ('\n' :: r), c! "{", hcond,
      tag_append (c! "{") _, terminated_some.2 ⟨'}' :: '\n' :: r, c! "}", ?_, tag_append (c! "}") _⟩⟩⟩,
    (spRest_nl r).symm⟩
  exact nonEmpty_some.2 ⟨by simp [bodyText], contents_body h2 h3 _ _ rfl n⟩

theorem frame_brace (n : Nat) (r : Str) : ruleBlockKeyframes n ('}' :: r) = none :=
  ruleBlockWith_fail (spRest_brace r)
    (map_none.2 (recognize_none.2 (condition_fail (by simp) (by simp) r)))

theorem frames_read {F : List Frame}
    (h : ∀ f ∈ F, CleanFrame f.1 ∧ f.2 ≠ [] ∧ ∀ p ∈ f.2, CleanDecl p.1 p.2) (d n : Nat) (r w : Str)
    (hw : spRest w = '}' :: r) :
    ∀ i, spRest i = spRest (F.flatMap (frameText d) ++ w) → (F = [] → i = '}' :: r) →
    many0 (ruleBlockKeyframes n) i = some ('}' :: r, F.map (fun f => ([f.1], attrs f.2))) := by
  induction F with
  | nil =>
    intro i _ h0
    rw [h0 rfl, many0_stop (suff_ruleBlockKeyframes n) (frame_brace n r)]
    rfl
  | cons f F ih =>
    intro i hi _
    obtain ⟨h1, h2, h3⟩ := h f (by simp)
    rw [List.flatMap_cons, List.append_assoc, frameText_eq] at hi
    rw [many0_step (suff_ruleBlockKeyframes n) (prog_ruleBlockKeyframes n) (frame_read h1 h2 h3 d n _ i hi),
      ih (fun g hg => h g (by simp [hg])) _ (by rw [spRest_idem]) (by rintro rfl; simp [hw])]
    rfl

/-! ## At-rules -/

theorem dangling_at (i : Str) : danglingBlock ('@' :: i) = none := by
  have hsp : spRest ('@' :: i) = '@' :: i := spRest_nonblank (by simp) (by simp) i
  refine trimmed_none.2 ?_
  rw [hsp, nonEmpty_cons _ (by simp), map_none]
  refine attributes_fail true ?_
  rw [hsp]
  intro c hc
  simp only [List.head?_cons, Option.mem_def, Option.some.injEq] at hc
  subst hc; decide

theorem block_at (n : Nat) (i : Str) : block n ('@' :: i) = none := by
  have hsp : spRest ('@' :: i) = '@' :: i := spRest_nonblank (by simp) (by simp) i
  refine trimmed_none.2 ?_
  rw [hsp, nonEmpty_cons _ (by simp), map_none]
  cases hx : pair _ _ ('@' :: i) with
  | none => rfl
  | some y =>
    obtain ⟨_, h1, -⟩ := pair_some.1 (show _ = some (y.1, y.2) from hx)
    rw [condition_fail (by simp) (by simp)] at h1
    cases h1

theorem item_brace (n : Nat) (sc : Parser (List ScopeContent)) (r : Str) :
    scopeItemWith n sc ('}' :: r) = none := by
  have hsp := spRest_brace r
  refine alt_none.2 ⟨?_, alt_none.2 ⟨?_, alt_none.2 ⟨?_, ?_⟩⟩⟩
  · refine trimmed_none.2 ?_
    rw [hsp, nonEmpty_cons _ (by simp), map_none]
    exact attributes_brace true r
  · refine trimmed_none.2 ?_
    rw [hsp, nonEmpty_cons _ (by simp), map_none]
    cases hx : pair _ _ ('}' :: r) with
    | none => rfl
    | some y =>
      obtain ⟨_, h1, -⟩ := pair_some.1 (show _ = some (y.1, y.2) from hx)
      rw [condition_fail (by simp) (by simp)] at h1
      cases h1
  · refine trimmed_none.2 ?_
    rw [hsp, nonEmpty_cons _ (by simp), map_none]
    cases hx : separatedPair _ _ _ ('}' :: r) with
    | none => rfl
    | some y =>
      obtain ⟨_, _, _, h1, -⟩ := separatedPair_some.1 (show _ = some (y.1, y.2) from hx)
      rw [atRuleCondition_fail hsp rfl] at h1
      cases h1
  · refine map_none.2 (trimmed_none.2 ?_)
    rw [hsp]
    cases hx : separatedPair _ _ _ ('}' :: r) with
    | none => rfl
    | some y =>
      obtain ⟨_, _, _, h1, -⟩ := separatedPair_some.1 (show _ = some (y.1, y.2) from hx)
      rw [atRuleCondition_fail hsp rfl] at h1
      cases h1

/-- The text `X` is read as the item `t`, with recursion depth `m`. -/
def Reads (m : Nat) (X : Str) (t : ScopeContent) : Prop :=
  ∀ n i r, m ≤ n → spRest i = spRest (X ++ r) →
    scopeItemWith n (scopeContents n) i = some (spRest r, t)

theorem spRest_at (i : Str) : spRest ('@' :: i) = '@' :: i := spRest_nonblank (by simp) (by simp) i

theorem item_sp {n : Nat} {sc : Parser (List ScopeContent)} {i j : Str} (h : spRest i = spRest j) :
    scopeItemWith n sc i = scopeItemWith n sc j := by
  have h1 : danglingBlock i = danglingBlock j := trimmed_eq_of_spRest h
  have h2 : block n i = block n j := trimmed_eq_of_spRest h
  have h3 : atRuleWith sc i = atRuleWith sc j := trimmed_eq_of_spRest h
  have h4 : Css.keyframes n i = Css.keyframes n j := by
    unfold Css.keyframes Nom.map
    rw [trimmed_eq_of_spRest h]
  unfold scopeItemWith alt
  rw [h1, h2, h3, h4]

theorem reads_rule {m : Nat} {X : Str} {t : ScopeContent} (h : Reads m X t) {a : Str}
    (ha : CleanAt conditionalNames a) (d : Nat) :
    ∃ cond : List Str, cond.flatten = a ∧
      Reads (m + 1) (indent d ++ a ++ c! " {\n" ++ X ++ indent d ++ c! "}\n") (.rule cond [t.toRBC]) := by
  obtain ⟨nm, hn, x, rfl, hx, h1, h2⟩ := ha
  refine ⟨[nm ++ c! " ", x], by simp, ?_⟩
  intro n i r hmn hi
  obtain ⟨n, rfl⟩ : ∃ k, n = k + 1 := ⟨n - 1, by omega⟩
  have hm : m ≤ n := by omega
  obtain ⟨nm', rfl⟩ : ∃ nm', nm = '@' :: nm' := by
    simp only [conditionalNames, List.mem_cons, List.not_mem_nil, or_false] at hn
    rcases hn with rfl | rfl | rfl <;> exact ⟨_, rfl⟩
  let B := '\n' :: (X ++ (indent d ++ '}' :: '\n' :: r))
  have e : spRest i = '@' :: nm' ++ ' ' :: (x ++ ' ' :: '{' :: B) := by
    rw [hi]
    simp only [List.append_assoc, spRest_indent]
    rw [List.cons_append, spRest_at]
    simp [B]
  rw [item_sp (j := spRest i) (by rw [spRest_idem]), e]
  refine alt_some.2 (Or.inr ⟨dangling_at _, alt_some.2 (Or.inr ⟨block_at _ _, alt_some.2 (Or.inl ?_)⟩)⟩)
  have hcond := atRuleCondition_read
    (t := alt (tag (c! "@container")) (alt (tag (c! "@supports")) (tag (c! "@media"))))
    (n := '@' :: nm') (x := x) (r := B) ('@' :: nm')
    (by
      simp only [conditionalNames, List.mem_cons, List.not_mem_nil, or_false, List.cons.injEq, true_and] at hn
      rcases hn with rfl | rfl | rfl
      · exact alt_some.2 (Or.inr ⟨rfl, alt_some.2 (Or.inr ⟨rfl, tag_append (c! "@media") _⟩)⟩)
      · exact alt_some.2 (Or.inr ⟨rfl, alt_some.2 (Or.inl (tag_append (c! "@supports") _))⟩)
      · exact alt_some.2 (Or.inl (tag_append (c! "@container") _)))
    ⟨nm', rfl⟩ hx h1 h2
  refine trimmed_some.2 ⟨'\n' :: r, ?_, (spRest_nl r).symm⟩
  rw [List.cons_append, spRest_at, ← List.cons_append]
  refine nonEmpty_some.2 ⟨by simp, map_some.2 ⟨(['@' :: nm' ++ c! " ", x], [t]), separatedPair_some.2
    ⟨'{' :: B, B, c! "{", hcond, tag_append (c! "{") _, terminated_some.2
      ⟨'}' :: '\n' :: r, c! "}", ?_, tag_append (c! "}") _⟩⟩, by simp⟩⟩
  -- the contents
  have hitem : scopeItemWith n (scopeContents n) (spRest B) = some ('}' :: '\n' :: r, t) := by
    have := h n (spRest B) (indent d ++ '}' :: '\n' :: r) hm (by rw [spRest_idem]; exact spRest_nl _)
    rw [spRest_indent, spRest_brace] at this
    exact this
  refine trimmed_some.2 ⟨'}' :: '\n' :: r, nonEmpty_some.2 ⟨?_, ?_⟩, (spRest_brace _).symm⟩
  · intro h0
    rw [h0, prog_nil (prog_scopeItemWith n (suff_scopeContents n))] at hitem
    cases hitem
  · refine Eq.trans (many0_step (suff_scopeItemWith _ (suff_scopeContents _))
      (prog_scopeItemWith _ (suff_scopeContents _)) hitem) ?_
    rw [many0_stop (suff_scopeItemWith _ (suff_scopeContents _)) (item_brace n _ _)]

/-! ## Groups -/

/-- `X` under the conditions `R`. -/
def nest : Nat → List Str → Str → Str
  | _, [], X => X
  | d, a :: R, X => indent d ++ a ++ c! " {\n" ++ nest (d + 1) R X ++ indent d ++ c! "}\n"

theorem closes_snoc (n k : Nat) : closes (n + k + 1) (k + 1) = closes (n + k + 1) k ++ (indent n ++ c! "}\n") := by
  induction k with
  | zero => simp [closes, layout]
  | succ k ih =>
    have : ∀ m j, closes (m + 1) (j + 1) = indent m ++ c! "}\n" ++ closes m j := fun _ _ => rfl
    rw [show n + (k + 1) + 1 = (n + k + 1) + 1 by omega, this, ih, this (n + k + 1) k]
    simp

theorem nest_eq : ∀ (R : List Str) (d : Nat) (X : Str),
    opens d R ++ X ++ closes (d + R.length) R.length = nest d R X
  | [], d, X => by simp [opens, closes, layout, nest]
  | a :: R, d, X => by
    rw [nest, ← nest_eq R (d + 1) X]
    have h1 : opens d (a :: R) = indent d ++ a ++ c! " {\n" ++ opens (d + 1) R := rfl
    rw [h1, List.length_cons, show d + (R.length + 1) = d + R.length + 1 by omega, closes_snoc,
      show d + 1 + R.length = d + R.length + 1 by omega]
    simp

theorem opens_append : ∀ (R hs : List Str) (d : Nat),
    opens d (R ++ hs) = opens d R ++ opens (d + R.length) hs
  | [], hs, d => rfl
  | a :: R, hs, d => by
    have h1 : ∀ S, opens d (a :: S) = indent d ++ a ++ c! " {\n" ++ opens (d + 1) S := fun _ => rfl
    rw [List.cons_append, h1, h1, opens_append R hs (d + 1), List.length_cons,
      show d + (R.length + 1) = d + 1 + R.length by omega]
    simp

theorem closes_one (n k : Nat) : closes (n + 1) (k + 1) = indent n ++ c! "}\n" ++ closes n k := rfl

theorem decls_text (R σs : List Str) (D : List (Str × Str)) :
    (Group.decls R σs D).text = nest 0 R (indent R.length ++ (header σs ++ c! " {" ++
      bodyText (R.length + 1) R.length D (c! "\n"))) := by
  rw [← nest_eq, Group.text, opens_append, closes_one]
  simp [opens, layout, bodyText]

theorem frames_text (R : List Str) (k : Str) (F : List Frame) :
    (Group.frames R k F).text = nest 0 R (indent R.length ++ (k ++ c! " {\n" ++
      F.flatMap (frameText (R.length + 1)) ++ indent R.length ++ c! "}\n")) := by
  rw [← nest_eq, Group.text, opens_append, closes_one]
  simp [opens, layout]

/-- Under the conditions `S`, with nothing open, the global text of `x` is `X`. -/
def Prints (S : List Str) (x : RBC) (X : Str) : Prop :=
  ∀ (c : Ctx) (ps : List Ctx), AllClosed (c :: ps) → c.selector = none → c.className = none → c.rules = S →
    RBC.write x (c :: ps) = (c :: ps, X)

theorem prints_rule {S : List Str} {a : Str} {x : RBC} {X : Str} {cond : List Str}
    (h : Prints (S ++ [a]) x X) (ha : CleanAt conditionalNames a) (hc : cond.flatten = a) :
    Prints S (.rule cond [x]) X := by
  intro c ps hcl hs hn hr
  have hk' : ¬ Str.startsWith (c! "@keyframes") cond.flatten = true := by
    rw [hc]
    exact fun h => not_at ha (List.isPrefixOf_iff_prefix.1 h)
  have := h (c.withRuleCondition cond.flatten) (c :: ps)
    (by
      intro m hm
      rcases List.mem_cons.1 hm with rfl | hm
      · rfl
      · exact hcl m hm) hs hn (by simp [Ctx.withRuleCondition, hr, hc])
  simp only [RBC.write, if_neg hk', RBC.writes, this]
  simp [Ctx.finishChain, Ctx.finish, Ctx.withRuleCondition]

theorem attrsOf_attrs (D : List (Str × Str)) : attrsOf (attrs D) = D := by
  induction D with
  | nil => rfl
  | cons p D ih =>
    have : attrsOf (attrs (p :: D)) = (p.1, ([p.2] : List Str).flatten) :: attrsOf (attrs D) := rfl
    rw [this, ih]; simp

theorem framesOf_frames (F : List Frame) (h : ∀ f ∈ F, f.2 ≠ []) :
    framesOf (F.map (fun f => .rule [f.1] (attrs f.2))) = F := by
  induction F with
  | nil => rfl
  | cons f F ih =>
    obtain ⟨t, D⟩ := f
    cases D with
    | nil => exact absurd rfl (h (t, []) (by simp))
    | cons p D =>
      have : framesOf (((t, p :: D) :: F).map (fun f => .rule [f.1] (attrs f.2))) =
          (([t] : List Str).flatten, attrsOf (attrs (p :: D))) ::
            framesOf (F.map (fun f => .rule [f.1] (attrs f.2))) := rfl
      rw [this, ih (fun g hg => h g (by simp [hg])), attrsOf_attrs]
      simp

theorem attrs_clean {D : List (Str × Str)} (h : ∀ p ∈ D, CleanDecl p.1 p.2) :
    ∀ y ∈ attrs D, ∃ k v, y = .attr k v ∧ CleanDecl k v.flatten := by
  intro y hy
  obtain ⟨p, hp, rfl⟩ := List.mem_map.1 hy
  exact ⟨_, _, rfl, by simpa using h p hp⟩

theorem header_none {σs : List Str} (h : ∀ x ∈ σs, PrintedSel x) (hne : σs ≠ []) (cu : Str) (o : Option Str) :
    blockSelector (scopeSelector none) cu o (σs.map (fun s => [s])) = header σs := by
  have : (σs.map (fun s => [s])).map (fun s : Selector => scopeSelector none s.flatten) = σs := by
    rw [List.map_map]
    conv => rhs; rw [← List.map_id σs]
    refine List.map_congr_left ?_
    intro x hx
    simp [scopeSelector, SelectorP.expandAmp_none _ _ (h x hx).2.2.2]
  cases σs with
  | nil => exact absurd rfl hne
  | cons s t =>
    unfold blockSelector header
    rw [this]
    rfl

theorem header_write {σs : List Str} (h : ∀ x ∈ σs, PrintedSel x) (hne : σs ≠ []) {c : Ctx}
    (hn : c.className = none) (hs : c.selector = none) :
    (c.withBlockCondition (condStr c.className (σs.map (fun s => [s])))).selector = some (header σs) := by
  have := Render.blockSelector_eq c (σs.map (fun s => [s]))
  rw [hn, hs, Text.sel_eq none (by simp), header_none h hne] at this
  rw [hn]
  exact this

theorem prints_block {S σs : List Str} {D : List (Str × Str)} (h : ∀ x ∈ σs, PrintedSel x) (hne : σs ≠ [])
    (hD : D ≠ []) (hd : ∀ p ∈ D, CleanDecl p.1 p.2) :
    Prints S (.block (σs.map (fun s => [s])) (attrs D)) (Group.text (.decls S σs D)) := by
  intro c ps hcl hs hn hr
  have hsel := header_write h hne hn hs
  generalize hb : c.withBlockCondition (condStr c.className (σs.map (fun s => [s]))) = b at hsel
  have hbr : b.rules = S := by rw [← hb, ← hr]; rfl
  have hbo : b.isOpen = false := by rw [← hb]; rfl
  have hbc : b.conditions = S ++ [header σs] := by rw [Ctx.conditions, hsel, hbr]; rfl
  have hstart := start_closed (c := b) (ps := c :: ps) hbo (close_closed b (c :: ps) hcl) hcl
  obtain ⟨D', d1, -, -, d5⟩ := attrs_open (c := { b with isOpen := true }) (ps := c :: ps) rfl id [] (attrs D)
    (attrs_clean hd)
  rw [attrsOf_attrs] at d5
  subst d5
  have hw : RBC.writes (attrs D') (b :: c :: ps) = ({ b with isOpen := true } :: c :: ps,
      opens 0 b.conditions ++ body b.conditions.length D') := by
    cases D' with
    | nil => exact absurd rfl hD
    | cons p D =>
      simp only [attrs, List.map_cons, RBC.writes, RBC.write] at d1 ⊢
      rw [hstart]
      have hs2 : Ctx.start ({ b with isOpen := true } :: c :: ps) =
          ({ b with isOpen := true } :: c :: ps, []) := by simp [Ctx.start]
      rw [hs2] at d1
      simp only at d1 ⊢
      have h1 := congrArg Prod.fst d1
      have h2 := congrArg Prod.snd d1
      simp only at h1 h2
      rw [h1]
      rw [show ({ b with isOpen := true } : Ctx).conditions = b.conditions from rfl] at h2
      rw [← h2]
      simp
  simp only [RBC.write, hb, hw, Ctx.finishChain, List.tail_cons]
  rw [finish_open rfl hcl, show ({ b with isOpen := true } : Ctx).conditions = b.conditions from rfl, hbc]
  simp [Group.text]

theorem prints_frames {S : List Str} {k : Str} {cond : List Str} {F : List Frame} (hc : cond.flatten = k)
    (hk : CleanAt [c! "@keyframes"] k)
    (h : ∀ f ∈ F, CleanFrame f.1 ∧ f.2 ≠ [] ∧ ∀ p ∈ f.2, CleanDecl p.1 p.2) :
    Prints S (.rule cond (F.map (fun f => .rule [f.1] (attrs f.2)))) (Group.text (.frames S k F)) := by
  intro c ps hcl hs hn hr
  have hk' : Str.startsWith (c! "@keyframes") cond.flatten = true := by
    rw [hc]; exact List.isPrefixOf_iff_prefix.2 (kf_prefix hk)
  let b := c.withRuleCondition cond.flatten
  have hbc : b.conditions = S ++ [k] := by
    simp [b, Ctx.withRuleCondition, Ctx.conditions, hs, hr, hc]
  have hstart := start_closed (c := b) (ps := c :: ps) rfl (close_closed b (c :: ps) hcl) hcl
  obtain ⟨F', f1, -, -, -, f5⟩ := frames_wrote (c := { b with isOpen := true }) (ps := c :: ps) rfl hcl hs
    id [] (F.map (fun f => .rule [f.1] (attrs f.2)))
    (by
      intro y hy
      obtain ⟨f, hf, rfl⟩ := List.mem_map.1 hy
      exact ⟨_, _, rfl, by simpa using (h f hf).1, attrs_clean (h f hf).2.2⟩)
  rw [framesOf_frames F (fun f hf => (h f hf).2.1)] at f5
  subst f5
  rw [RBC.write]
  simp only [if_pos hk']
  rw [show c.withRuleCondition cond.flatten = b from rfl, hstart]
  simp only [f1, Ctx.finishChain, List.tail_cons]
  rw [finish_open rfl hcl, show ({ b with isOpen := true } : Ctx).conditions = b.conditions from rfl, hbc]
  simp [Group.text]

theorem reads_nest {m : Nat} {X : Str} {t : ScopeContent} (h : Reads m X t)
    (sel : Str → Str) (cu : Str) : ∀ (R : List Str) (d : Nat), (∀ r ∈ R, CleanAt conditionalNames r) →
    ∃ t', Reads (m + R.length) (nest d R X) t' ∧
      (∀ S, declsIn sel cu S none t'.toRBC = declsIn sel cu (S ++ R) none t.toRBC) ∧
      (∀ S, keyframesIn sel cu S none t'.toRBC = keyframesIn sel cu (S ++ R) none t.toRBC) ∧
      (∀ S X, Prints (S ++ R) t.toRBC X → Prints S t'.toRBC X)
  | [], d, _ => ⟨t, h, by simp, by simp, by simp⟩
  | a :: R, d, hR => by
    obtain ⟨t', h1, h2, h3, h5⟩ := reads_nest h sel cu R (d + 1) (fun r hr => hR r (by simp [hr]))
    obtain ⟨cond, hc, h4⟩ := reads_rule h1 (hR a (by simp)) d
    refine ⟨.rule cond [t'.toRBC], ?_, ?_, ?_, ?_⟩
    · rw [nest, List.length_cons, ← Nat.add_assoc]; exact h4
    · intro S
      show declsInAll sel cu (S ++ [cond.flatten]) none [t'.toRBC] = _
      simp only [declsInAll, List.append_nil, hc, h2]
      simp
    · intro S
      have hk := not_at (hR a (by simp))
      show keyframesIn sel cu S none (.rule cond [t'.toRBC]) = _
      simp only [keyframesIn, keyframesInAll, List.append_nil, hc, h3, if_neg hk]
      simp
    · intro S X hX
      exact prints_rule (h5 (S ++ [a]) X (by simpa using hX)) (hR a (by simp)) hc

theorem attrs_decls (sel : Str → Str) (cu : Str) (R : List Str) (o : Option Str) (D : List (Str × Str)) :
    declsInAll sel cu R o (attrs D) = D.map (fun p => ⟨R ++ o.toList, p.1, p.2⟩) := by
  induction D with
  | nil => rfl
  | cons p D ih =>
    simp only [attrs, List.map_cons, declsInAll, declsIn] at ih ⊢
    rw [ih]; simp

theorem attrs_kfs (sel : Str → Str) (cu : Str) (R : List Str) (o : Option Str) (D : List (Str × Str)) :
    keyframesInAll sel cu R o (attrs D) = [] := by
  induction D with
  | nil => rfl
  | cons p D ih =>
    simp only [attrs, List.map_cons, keyframesInAll, keyframesIn] at ih ⊢
    rw [ih]; simp

theorem group_reads {g : Group} (hg : g.Ok) (cu : Str) :
    ∃ t m, Reads m g.text t ∧ m ≤ g.text.length ∧
      declsIn (scopeSelector none) cu [] none t.toRBC = g.sem ∧
      keyframesIn (scopeSelector none) cu [] none t.toRBC = g.kfs ∧ Prints [] t.toRBC g.text := by
  have hlen : ∀ (R : List Str) (X : Str) (d : Nat), R.length ≤ (nest d R X).length := by
    intro R X
    induction R with
    | nil => simp
    | cons a R ih => intro d; have := ih (d + 1); simp [nest]; omega
  cases g with
  | decls R σs D =>
    obtain ⟨h1, h2, h3, h4, h5⟩ := hg
    rw [decls_text]
    have hr : Reads 0 (indent R.length ++ (header σs ++ c! " {" ++ bodyText (R.length + 1) R.length D (c! "\n")))
        (.block (σs.map (fun s => [s])) (attrs D)) := by
      intro n i r _ hi
      have hi' : spRest i = spRest (header σs ++ ' ' :: '{' :: bodyText (R.length + 1) R.length D ('\n' :: r)) := by
        rw [hi]
        simp only [List.append_assoc, spRest_indent]
        simp [bodyText]
      obtain ⟨e1, e2⟩ := block_read h2 h3 h4 h5 ('\n' :: r) n i hi'
      rw [spRest_nl] at e2
      exact alt_some.2 (Or.inr ⟨e1, alt_some.2 (Or.inl e2)⟩)
    obtain ⟨t, e1, e2, e3, e4⟩ := reads_nest hr (scopeSelector none) cu R 0 h1
    refine ⟨t, 0 + R.length, e1, by rw [Nat.zero_add]; exact hlen _ _ _, ?_, ?_,
      by rw [← decls_text]; exact e4 [] _ (prints_block h3 h2 h4 h5)⟩
    · rw [e2]
      simp [ScopeContent.toRBC, declsIn, attrs_decls, header_none h3 h2, Group.sem]
    · rw [e3]
      simp [ScopeContent.toRBC, keyframesIn, attrs_kfs, Group.kfs]
  | frames R k F =>
    obtain ⟨h1, ⟨nm, hn, x, rfl, hx, h2, h3⟩, h4, h5⟩ := hg
    simp only [List.mem_singleton] at hn
    subst hn
    rw [frames_text]
    have hr : Reads 0 (indent R.length ++ (c! "@keyframes" ++ c! " " ++ x ++ c! " {\n" ++
        F.flatMap (frameText (R.length + 1)) ++ indent R.length ++ c! "}\n"))
        (.rule [c! "@keyframes ", x] (F.map (fun f => .rule [f.1] (attrs f.2)))) := by
      intro n i r _ hi
      let B := '\n' :: (F.flatMap (frameText (R.length + 1)) ++ (indent R.length ++ '}' :: '\n' :: r))
      have e : spRest i = c! "@keyframes" ++ ' ' :: (x ++ ' ' :: '{' :: B) := by
        rw [hi]
        simp only [List.append_assoc, spRest_indent]
        rw [List.cons_append, spRest_at]
        simp [B]
      rw [item_sp (j := spRest i) (by rw [spRest_idem]), e]
      have hcond := atRuleCondition_read (t := alt (tag (c! "@keyframes")) Nom.fail)
        (n := c! "@keyframes") (x := x) (r := B) (c! "@keyframes")
        (alt_some.2 (Or.inl (tag_append (c! "@keyframes") _))) ⟨_, rfl⟩ hx h2 h3
      have hnot : atRuleWith (scopeContents n) (c! "@keyframes" ++ ' ' :: (x ++ ' ' :: '{' :: B)) = none := by
        refine trimmed_none.2 ?_
        rw [List.cons_append, spRest_at, nonEmpty_cons _ (by simp), map_none]
        cases hx : separatedPair _ _ _ _ with
        | none => rfl
        | some y =>
          obtain ⟨_, _, _, h1, -⟩ := separatedPair_some.1 (show _ = some (y.1, y.2) from hx)
          rw [atRuleCondition_fail (spRest_at _) rfl] at h1
          cases h1
      refine alt_some.2 (Or.inr ⟨dangling_at _, alt_some.2 (Or.inr ⟨block_at _ _, alt_some.2 (Or.inr ⟨hnot, ?_⟩)⟩)⟩)
      refine map_some.2 ⟨([c! "@keyframes ", x], F.map (fun f => ([f.1], attrs f.2))), ?_, by simp⟩
      refine trimmed_some.2 ⟨'\n' :: r, ?_, (spRest_nl r).symm⟩
      rw [List.cons_append, spRest_at, ← List.cons_append]
      refine separatedPair_some.2 ⟨'{' :: B, B, c! "{", hcond, tag_append (c! "{") _, terminated_some.2
        ⟨'}' :: '\n' :: r, c! "}", ?_, tag_append (c! "}") _⟩⟩
      exact frames_read h5 (R.length + 1) n ('\n' :: r) (indent R.length ++ '}' :: '\n' :: r)
        (by rw [spRest_indent, spRest_brace]) B (spRest_nl _) (fun h0 => absurd h0 h4)
    obtain ⟨t, e1, e2, e3, e4⟩ := reads_nest hr (scopeSelector none) cu R 0 h1
    refine ⟨t, 0 + R.length, e1, by rw [Nat.zero_add]; exact hlen _ _ _, ?_, ?_, ?_⟩
    · rw [e2]
      show declsInAll _ _ _ _ _ = _
      have hfl : ([c! "@keyframes ", x] : List Str).flatten = c! "@keyframes" ++ c! " " ++ x := by simp
      simp only [Group.sem, List.nil_append, hfl]
      clear e2 e3 e1 hr h5 h4 e4
      induction F with
      | nil => rfl
      | cons f F ih =>
        simp only [List.map_cons, declsInAll, declsIn, attrs_decls, List.flatMap_cons, ih]
        simp
    · rw [e3]
      show keyframesIn _ _ _ _ (.rule _ _) = _
      have hfl : ([c! "@keyframes ", x] : List Str).flatten = c! "@keyframes" ++ c! " " ++ x := by simp
      have hpre : c! "@keyframes" <+: c! "@keyframes" ++ c! " " ++ x := ⟨c! " " ++ x, by simp⟩
      simp only [keyframesIn, hfl, if_pos hpre, Group.kfs, List.nil_append]
      have : ∀ S, keyframesInAll (scopeSelector none) cu S none (F.map (fun f => RBC.rule [f.1] (attrs f.2))) = [] := by
        intro S
        clear e2 e3 e1 hr h4 e4
        induction F with
        | nil => rfl
        | cons f F ih =>
          have hf : ¬ c! "@keyframes" <+: ([f.1] : List Str).flatten := by
            rintro ⟨u, hu⟩
            refine frame_head (h5 f (by simp)).1 ?_
            simp only [List.flatten_cons, List.flatten_nil, List.append_nil] at hu
            rw [← hu]; rfl
          simp only [List.map_cons, keyframesInAll, keyframesIn, attrs_kfs, if_neg hf,
            ih (fun g hg => h5 g (by simp [hg]))]
          rfl
      rw [this]
      simp
    · rw [← frames_text]
      exact e4 [] _ (prints_frames (by simp)
        ⟨c! "@keyframes", by simp, x, rfl, hx, h2, h3⟩ h5)

/-! ## Sheets -/

theorem groups_read (cu : Str) (n : Nat) : ∀ gs : List Group, (∀ g ∈ gs, g.Ok) →
    (∀ g ∈ gs, g.text.length ≤ n) →
    ∃ ts : List ScopeContent,
      many0 (scopeItemWith n (scopeContents n)) (spRest (gs.flatMap Group.text)) = some ([], ts) ∧
      declsInAll (scopeSelector none) cu [] none (ts.map ScopeContent.toRBC) = gs.flatMap Group.sem ∧
      keyframesInAll (scopeSelector none) cu [] none (ts.map ScopeContent.toRBC) = gs.flatMap Group.kfs ∧
      Sheet.write ts [Ctx.new none] = ([Ctx.new none], gs.flatMap Group.text)
  | [], _, _ => by
    refine ⟨[], ?_, rfl, rfl, rfl⟩
    rw [List.flatMap_nil, spRest_nil]
    exact many0_stop (suff_scopeItemWith _ (suff_scopeContents _))
      (prog_nil (prog_scopeItemWith _ (suff_scopeContents _)))
  | g :: gs, hg, hn => by
    obtain ⟨ts, h1, h2, h3, h4⟩ := groups_read cu n gs (fun x hx => hg x (by simp [hx])) (fun x hx => hn x (by simp [hx]))
    obtain ⟨t, m, e1, e2, e3, e4, e5⟩ := group_reads (hg g (by simp)) cu
    have hle := hn g (by simp)
    have hitem := e1 n (spRest (g.text ++ gs.flatMap Group.text)) (gs.flatMap Group.text) (by omega)
      (by rw [spRest_idem])
    refine ⟨t :: ts, ?_, ?_, ?_, ?_⟩
    · rw [List.flatMap_cons, many0_step (suff_scopeItemWith _ (suff_scopeContents _))
        (prog_scopeItemWith _ (suff_scopeContents _)) hitem, h1]
    · simp only [List.map_cons, declsInAll, List.flatMap_cons, e3, h2]
    · simp only [List.map_cons, keyframesInAll, List.flatMap_cons, e4, h3]
    · have := e5 (Ctx.new none) [] (by intro m hm; simp at hm; subst hm; rfl) rfl rfl rfl
      simp only [Sheet.write, this, h4, List.flatMap_cons]

theorem parse_nil : parse [] = some [] := by decide

theorem groups_parse {gs : List Group} (hg : ∀ g ∈ gs, g.Ok) :
    ∃ s', parse (gs.flatMap Group.text) = some s' ∧ decls none s' = gs.flatMap Group.sem ∧
      Spec.keyframes none s' = gs.flatMap Group.kfs ∧ s'.toStyleStr none = gs.flatMap Group.text := by
  cases gs with
  | nil => exact ⟨[], parse_nil, rfl, rfl, rfl⟩
  | cons g gs =>
    obtain ⟨ts, h1, h2, h3, h4⟩ := groups_read (current none) ((g :: gs).flatMap Group.text).length (g :: gs) hg
      (by
        intro x hx
        obtain ⟨a, b, e⟩ := List.append_of_mem hx
        rw [e]
        simp; omega)
    refine ⟨ts, parse_intro ?_ h1, h2, h3, by rw [Sheet.toStyleStr, h4]⟩
    intro h0
    obtain ⟨t, m, e1, e2, -⟩ := group_reads (hg g (by simp)) (current none)
    have hitem := e1 m (spRest (g.text ++ gs.flatMap Group.text)) (gs.flatMap Group.text) (Nat.le_refl _)
      (by rw [spRest_idem])
    rw [List.flatMap_cons] at h0
    rw [h0, prog_nil (prog_scopeItemWith _ (suff_scopeContents _))] at hitem
    cases hitem

/-! ## One block, with any layout -/

theorem block_parse {ps : List Str} (hne : ps ≠ []) (hp : ∀ p ∈ ps, SelI p ∧ NonBlank p)
    {ds : List DeclSrc} (hd0 : ds ≠ []) (hd : ∀ d ∈ ds, d.Ok) {w : Str} (hw : Blank w) :
    parse (Str.join (c! ",") ps ++ c! "{" ++ (ds.map DeclSrc.text).flatten ++ w ++ c! "}") =
      some [.block (ps.map (fun p => [Str.trim p])) (ds.map (fun d => .attr d.key [d.value]))] := by
  let T := (ds.map DeclSrc.text).flatten ++ (w ++ c! "}")
  have e : Str.join (c! ",") ps ++ c! "{" ++ (ds.map DeclSrc.text).flatten ++ w ++ c! "}" =
      Str.join (c! ",") ps ++ '{' :: T := by simp [T]
  rw [e]
  have hattr : ∀ i, spRest i = spRest T → attributes false i = some (c! "}", ds.map (fun d => (d.key, [d.value]))) := by
    intro i hi
    exact Eq.trans (trimmed_eq_of_spRest hi) (attributes_read false hd0 hd hw (Or.inr ⟨[], Or.inl rfl⟩))
  have hH : H T (spRest (Str.join (c! ",") ps ++ '{' :: T)) :=
    H.sp ⟨_, join_hi ps (fun p h => (hp p h).1), rfl⟩
  have hne' : spRest (Str.join (c! ",") ps ++ '{' :: T) ≠ [] := by
    obtain ⟨c, t, e, -⟩ := hH.head
    rw [e]; simp
  have hdang : danglingBlock (spRest (Str.join (c! ",") ps ++ '{' :: T)) = none := by
    refine trimmed_none.2 ?_
    rw [spRest_idem, nonEmpty_cons _ hne', map_none]
    exact attributes_header hH
  have hcont : ∀ n i, spRest i = spRest T →
      contentsWith (ruleBlock n) i = some (c! "}", ds.map (fun d => .attr d.key [d.value])) := by
    intro n i hi
    refine map_some.2 ⟨[ds.map (fun d => .attr d.key [d.value])], ?_, by simp⟩
    refine Eq.trans (many0_step (suff_contentPiece (suff_ruleBlock n)) (prog_contentPiece (prog_ruleBlock n))
      (alt_some.2 (Or.inl (map_some.2 ⟨_, hattr i hi, rfl⟩)))) ?_
    rw [many0_stop (suff_contentPiece (suff_ruleBlock n)) (alt_none.2
      ⟨map_none.2 (attributes_brace false []), map_none.2 (ruleBlock_brace n [])⟩)]
    simp [attrsToRBC]
  have hT0 : spRest T ≠ [] := by
    intro h0
    have := hattr (spRest T) (by rw [spRest_idem])
    rw [h0, prog_nil (prog_attributes false)] at this
    cases this
  have hblock : ∀ n, block n (spRest (Str.join (c! ",") ps ++ '{' :: T)) =
      some ([], .block (ps.map (fun p => [Str.trim p])) (ds.map (fun d => .attr d.key [d.value]))) := by
    intro n
    refine trimmed_some.2 ⟨[], nonEmpty_some.2 ⟨by rw [spRest_idem]; exact hne', map_some.2
      ⟨(_, _), pair_some.2 ⟨'{' :: T, Eq.trans (trimmed_eq_of_spRest (by simp only [spRest_idem])) (condition_read hne hp T),
        delimited_some.2 ⟨T, c! "{", c! "}", c! "}", tag_append (c! "{") _, ?_, tag_append (c! "}") []⟩⟩, rfl⟩⟩,
      spRest_nil.symm⟩
    have hb : blockContents n (spRest T) = some (c! "}", ds.map (fun d => .attr d.key [d.value])) :=
      trimmed_some.2 ⟨c! "}", nonEmpty_some.2 ⟨by rw [spRest_idem]; exact hT0,
        hcont n _ (by simp only [spRest_idem])⟩, (spRest_brace []).symm⟩
    exact trimmed_some.2 ⟨c! "}", hb, (spRest_brace []).symm⟩
  refine parse_intro hne' ?_
  refine Eq.trans (many0_step (suff_scopeItemWith _ (suff_scopeContents _))
    (prog_scopeItemWith _ (suff_scopeContents _)) (alt_some.2 (Or.inr ⟨hdang, alt_some.2 (Or.inl (hblock _))⟩))) ?_
  rw [many0_stop (suff_scopeItemWith _ (suff_scopeContents _))
    (prog_nil (prog_scopeItemWith _ (suff_scopeContents _)))]

end ReparseP
