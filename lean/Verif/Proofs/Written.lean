import Verif.Spec.Written
import Verif.Proofs.Value
import Verif.Proofs.Emit

/-!
# Lemmas about inline css as it is written
-/

namespace WrittenP

open Spec Output BrowserP GroupsP ValueP Inline

/-! ## Texts -/

open Classical in
/-- What is put between two fragments. -/
noncomputable def gap (l r : OFrag) : Str := if NeedsBlank l r then c! " " else []

/-- The text of fragments with blanks. -/
noncomputable def sp (ρ : Env) : List OFrag → Str
  | [] => []
  | [x] => fragText ρ x
  | x :: y :: xs => fragText ρ x ++ gap x y ++ sp ρ (y :: xs)

open Classical in
theorem sp_eq (ρ : Env) : ∀ fs : List OFrag,
    fragsText ρ (between (fun (s : Unit) l r => (if NeedsBlank l r then some (.str (c! " ")) else none, s)) () fs) = sp ρ fs
  | [] => rfl
  | [x] => by simp [between, fragsText, sp]
  | x :: y :: xs => by
    have ih := sp_eq ρ (y :: xs)
    simp only [between, sp, gap]
    rw [← ih]
    by_cases h : NeedsBlank x y <;> simp [h, fragsText, fragText]

theorem sp_append (ρ : Env) : ∀ (xs : List OFrag) (l r : OFrag) (ys : List OFrag), xs.getLast? = some l →
    sp ρ (xs ++ r :: ys) = sp ρ xs ++ gap l r ++ sp ρ (r :: ys)
  | [], _, _, _, h => by simp at h
  | [x], l, r, ys, h => by
    have : x = l := by simpa using h
    subst this
    simp [sp]
  | x :: y :: xs, l, r, ys, h => by
    have ih := sp_append ρ (y :: xs) l r ys (by simpa using h)
    simp only [List.cons_append, sp] at ih ⊢
    rw [ih]
    simp

/-- The first fragment of a component value. -/
def firstF : CV → OFrag
  | .func i _ => .token (.ident i)
  | .tok t => .token t
  | .block d _ => .delimiter d true
  | .expr _ e => .expr e

/-- The last fragment of a component value. -/
def lastF : CV → OFrag
  | .func _ _ => .delimiter .paren false
  | .tok t => .token t
  | .block d _ => .delimiter d false
  | .expr _ e => .expr e

theorem fragsCV_head (c : CV) : ∃ t, fragsCV c = firstF c :: t := by
  cases c <;> exact ⟨_, rfl⟩

theorem fragsCV_last (c : CV) : (fragsCV c).getLast? = some (lastF c) := by
  cases c with
  | func i args =>
    show (.token (.ident i) :: .delimiter .paren true :: (frags args ++ [.delimiter .paren false]) : List OFrag).getLast? = _
    rw [← List.cons_append, ← List.cons_append, List.getLast?_append]; rfl
  | block d cs =>
    show (.delimiter d true :: (frags cs ++ [.delimiter d false]) : List OFrag).getLast? = _
    rw [← List.cons_append, List.getLast?_append]; rfl
  | _ => rfl

theorem gap_cv (c d : CV) : gap (lastF c) (firstF d) = if wordBefore c && wordAfter d then c! " " else [] := by
  have hb : (NeedsBlank (lastF c) (firstF d)) ↔ (wordBefore c && wordAfter d) = true := by
    have h1 : ((∃ x, lastF c = .delimiter x false) ∨ (∃ i, lastF c = .token (.ident i)) ∨ (∃ t s, lastF c = .token (.lit t s)) ∨
        ∃ e j, lastF c = .token (.punct e j) ∧ e ∈ c! "&*") ↔ wordBefore c = true := by
      rcases c with _ | ⟨_ | _ | _⟩ | _ | _ <;> simp [lastF, wordBefore]
    have h2 : ((∃ i, firstF d = .token (.ident i)) ∨ (∃ t s, firstF d = .token (.lit t s)) ∨
        ∃ e j, firstF d = .token (.punct e j) ∧ e ∈ c! "*#") ↔ wordAfter d = true := by
      rcases d with _ | ⟨_ | _ | _⟩ | _ | _ <;> simp [firstF, wordAfter]
    rw [NeedsBlank, h1, h2, Bool.and_eq_true]
  unfold gap
  by_cases h : NeedsBlank (lastF c) (firstF d)
  · rw [if_pos h, if_pos (hb.1 h)]
  · rw [if_neg h, if_neg (fun e => h (hb.2 e))]

theorem gap_open (l : OFrag) (d : Delim) (b : Bool) : gap l (.delimiter d b) = [] := by
  unfold gap
  rw [if_neg]
  simp [NeedsBlank]

theorem gap_opened (r : OFrag) (d : Delim) : gap (.delimiter d true) r = [] := by
  unfold gap
  rw [if_neg]
  simp [NeedsBlank]

theorem frags_last : ∀ (cs : List CV), cs ≠ [] → ∃ l, (frags cs).getLast? = some l
  | [], h => absurd rfl h
  | c :: cs, _ => by
    rw [frags]
    cases h : (fragsCV c ++ frags cs).getLast? with
    | none =>
      have := List.getLast?_eq_none_iff.1 h
      obtain ⟨t, ht⟩ := fragsCV_head c
      rw [ht] at this
      cases this
    | some l => exact ⟨l, rfl⟩

/-- A group of fragments between delimiters. -/
theorem sp_group (ρ : Env) (d : Delim) (cs : List CV) (h : sp ρ (frags cs) = cvsText ρ cs) :
    sp ρ (.delimiter d true :: (frags cs ++ [.delimiter d false])) =
      fragText ρ (.delimiter d true) ++ cvsText ρ cs ++ fragText ρ (.delimiter d false) := by
  cases hf : frags cs with
  | nil =>
    rw [hf] at h
    rw [← h]
    simp [sp, gap_open]
  | cons x xs =>
    have hl : ∃ l, (x :: xs).getLast? = some l := by
      cases h : (x :: xs).getLast? with
      | none => exact absurd (List.getLast?_eq_none_iff.1 h) (by simp)
      | some l => exact ⟨l, rfl⟩
    obtain ⟨l, hl⟩ := hl
    have := sp_append ρ (x :: xs) l (.delimiter d false) [] hl
    rw [List.cons_append] at this ⊢
    rw [sp, this, ← hf, h, gap_opened, gap_open]
    simp [sp]

mutual
theorem sp_cv (ρ : Env) : ∀ c : CV, sp ρ (fragsCV c) = cvText ρ c
  | .func i args => by
    have h := sp_group ρ .paren args (sp_cvs ρ args)
    show sp ρ (.token (.ident i) :: .delimiter .paren true :: (frags args ++ [.delimiter .paren false])) = _
    rw [sp, gap_open, h, cvText]
    simp [fragText, tokenText]
  | .tok t => by simp [fragsCV, sp, cvText, fragText]
  | .block d cs => by
    have h := sp_group ρ d cs (sp_cvs ρ cs)
    show sp ρ (.delimiter d true :: (frags cs ++ [.delimiter d false])) = _
    rw [h]
    cases d <;> simp [cvText, fragText]
  | .expr j e => by
    show fragText ρ (.expr e) = exprText ρ e
    unfold fragText exprText
    split <;> simp_all
theorem sp_cvs (ρ : Env) : ∀ cs : List CV, sp ρ (frags cs) = cvsText ρ cs
  | [] => rfl
  | [c] => by simp [frags, cvsText, sp_cv ρ c]
  | c :: d :: cs => by
    have h1 := sp_cv ρ c
    have h2 := sp_cvs ρ (d :: cs)
    obtain ⟨t, ht⟩ := fragsCV_head d
    have hd : frags (d :: cs) = firstF d :: (t ++ frags cs) := by rw [frags, ht]; rfl
    rw [frags, hd, sp_append ρ _ _ _ _ (fragsCV_last c), gap_cv, h1, ← hd, h2, cvsText]
end

/-- The text of component values that are printed with blanks. -/
theorem spaced_text (ρ : Env) (cs : List CV) : fragsText ρ (spacedFrags cs) = cvsText ρ cs := by
  rw [← sp_cvs]
  exact sp_eq ρ (frags cs)

theorem key_text (ρ : Env) {name : CV} (h : IsName name) : keyText ρ (keyOf name) = declName ρ name := by
  rcases name with _ | ⟨_ | _ | _⟩ | _ | ⟨_, e⟩
  all_goals first | exact h.elim | rfl | skip
  show keyText ρ (keyOf _) = exprText ρ e
  unfold keyOf exprText
  split <;> simp_all [keyText]

/-! ## Texts that are whole -/

theorem ident_chars {i : CssIdent} (h : plainIdent i = true) : cssName i ≠ [] ∧ ∀ d ∈ cssName i, Dull d ∧ Str.isWhitespace d = false := by
  simp only [plainIdent, ne_eq, decide_eq_true_eq] at h
  obtain ⟨h0, h⟩ := h
  rw [List.all_eq_true] at h
  constructor
  · cases i with
    | nil => exact absurd rfl h0
    | cons p ps =>
      have := h p List.mem_cons_self
      cases p with
      | dash j => simp [cssName]
      | ident n r => simp [cssName, (of_decide_eq_true this).1]
  · clear h0
    induction i with
    | nil => simp [cssName]
    | cons p ps ih =>
      have hp := h p List.mem_cons_self
      have ih := ih (fun x hx => h x (List.mem_cons_of_mem _ hx))
      cases p with
      | dash j =>
        intro d hd
        rcases List.mem_cons.1 hd with rfl | hd
        · exact ⟨by decide, by decide⟩
        · exact ih d hd
      | ident n r =>
        intro d hd
        rcases List.mem_append.1 hd with hd | hd
        · have := (of_decide_eq_true hp).2 d hd
          exact ⟨dull_ident this.1, this.2⟩
        · exact ih d hd

theorem run_dull (n : Nat) (t : Str) : ∀ r : Str, (∀ d ∈ r, Dull d) → runText (.out n) (r ++ t) = runText (.out n) t
  | [], _ => rfl
  | d :: r, h => by
    have hd := h d List.mem_cons_self
    rw [List.cons_append, runText_dull hd]
    have : At.next (.out n) d = some (.out n) := by
      obtain ⟨a1, a2, a3, a4, a5, a6, a7, -⟩ := hd
      simp [At.next, a1, a2, a3, a4, a5, a6, a7]
    rw [this]
    exact run_dull n t r (fun x hx => h x (List.mem_cons_of_mem _ hx))

theorem run_open {n : Nat} {c : Char} (hc : c = '(' ∨ c = '[') (t : Str) : runText (.out n) (c :: t) = runText (.out (n + 1)) t := by
  rcases hc with rfl | rfl <;> simp [runText, At.next]

theorem run_close {n : Nat} {c : Char} (hc : c = ')' ∨ c = ']') (t : Str) : runText (.out (n + 1)) (c :: t) = runText (.out n) t := by
  rcases hc with rfl | rfl <;> simp [runText, At.next]

theorem cvText_head {ρ : Env} {c : CV} (h : plainCV ρ c = true) : cvText ρ c ≠ [] ∧ HeadOk (cvText ρ c) ∧
    (punctOf c ≠ some '*' → (cvText ρ c).head? ≠ some '*') := by
  have hid : ∀ (i : CssIdent) (t : Str), plainIdent i = true → cssName i ++ t ≠ [] ∧ HeadOk (cssName i ++ t) ∧
      (cssName i ++ t).head? ≠ some '*' := by
    intro i t hi
    obtain ⟨h1, h2⟩ := ident_chars hi
    cases hn : cssName i with
    | nil => exact absurd hn h1
    | cons d r =>
      rw [hn] at h2
      have hd := h2 d List.mem_cons_self
      refine ⟨by simp, ?_, ?_⟩
      · intro x hx
        simp only [List.cons_append, List.head?_cons, Option.mem_def, Option.some.injEq] at hx
        subst hx
        exact hd.2
      · intro e
        simp only [List.cons_append, List.head?_cons, Option.some.injEq] at e
        subst e
        exact absurd hd.1 (by decide)
  have hcl : ∀ v : Str, ClosedValue v → v ≠ [] ∧ HeadOk v ∧ v.head? ≠ some '*' :=
    fun v hv => ⟨hv.2.1, ((trim_iff v).1 hv.1.2).1, hv.2.2.1⟩
  rcases c with ⟨i, args⟩ | ⟨_ | _ | _⟩ | ⟨_ | _ | _, cs⟩ | ⟨_, e⟩ <;>
    simp only [plainCV, cvText, tokenText, Bool.and_eq_true, decide_eq_true_eq] at h ⊢
  case func =>
    obtain ⟨h1, h2, h3⟩ := hid i (c! "(" ++ (cvsText ρ args ++ c! ")")) h.1
    simp only [List.append_assoc]
    exact ⟨h1, h2, fun _ => h3⟩
  all_goals try (simp at h; done)
  all_goals try (refine ⟨by simp, ?_, by simp⟩; intro x hx; simp at hx; subst hx; decide)
  · rename_i c j
    refine ⟨by simp, ?_, ?_⟩
    · intro x hx
      simp only [List.head?_cons, Option.mem_def, Option.some.injEq] at hx
      subst hx
      revert h
      exact (by decide : ∀ c ∈ c! "=<>!~?+-*/%^&|@.,;:#$", Str.isWhitespace c = false) c
    · simp [punctOf]
  · exact ⟨(hcl _ h).1, (hcl _ h).2.1, fun _ => (hcl _ h).2.2⟩
  · rename_i i
    have := hid i [] h
    simp only [List.append_nil] at this
    exact ⟨this.1, this.2.1, fun _ => this.2.2⟩
  · exact ⟨(hcl _ h).1, (hcl _ h).2.1, fun _ => (hcl _ h).2.2⟩

theorem all_last {s : Str} (h : ∀ d ∈ s, Str.isWhitespace d = false) : LastOk s :=
  fun c hc => h c (List.mem_of_getLast? hc)

theorem cvText_last {ρ : Env} {c : CV} (h : plainCV ρ c = true) : LastOk (cvText ρ c) := by
  have hend : ∀ (a : Str) (d : Char), Str.isWhitespace d = false → LastOk (a ++ [d]) := by
    intro a d hd x hx
    rw [List.getLast?_append] at hx
    simp at hx
    subst hx; exact hd
  rcases c with ⟨i, args⟩ | ⟨_ | _ | _⟩ | ⟨_ | _ | _, cs⟩ | ⟨_, e⟩ <;>
    simp only [plainCV, cvText, tokenText, Bool.and_eq_true, decide_eq_true_eq] at h ⊢
  all_goals try (simp at h; done)
  all_goals try (exact hend _ _ (by decide))
  · refine hend [] _ ?_
    revert h
    rename_i c j
    exact (by decide : ∀ c ∈ c! "=<>!~?+-*/%^&|@.,;:#$", Str.isWhitespace c = false) c
  · exact ((trim_iff _).1 h.1.2).2
  · exact all_last (fun d hd => ((ident_chars h).2 d hd).2)
  · exact ((trim_iff _).1 h.1.2).2

theorem cvsText_head {ρ : Env} {c : CV} {cs : List CV} (h : plainCV ρ c = true) (t : Str) :
    cvsText ρ (c :: cs) ≠ [] ∧ HeadOk (cvsText ρ (c :: cs)) ∧
      (punctOf c ≠ some '*' → (cvsText ρ (c :: cs) ++ t).head? ≠ some '*') := by
  obtain ⟨h1, h2, h3⟩ := cvText_head h
  have : ∃ u, cvsText ρ (c :: cs) = cvText ρ c ++ u := by
    cases cs with
    | nil => exact ⟨[], by simp [cvsText]⟩
    | cons d cs => exact ⟨_, by rw [cvsText, List.append_assoc]⟩
  obtain ⟨u, hu⟩ := this
  rw [hu]
  cases hx : cvText ρ c with
  | nil => exact absurd hx h1
  | cons d r =>
    rw [hx] at h2 h3
    exact ⟨by simp, h2, h3⟩

mutual
theorem run_cv (ρ : Env) : ∀ (c : CV) (n : Nat) (t : Str), plainCV ρ c = true → (n = 0 → punctOf c ≠ some ';') →
    (punctOf c = some '/' → t.head? ≠ some '*') → runText (.out n) (cvText ρ c ++ t) = runText (.out n) t
  | .func i args, n, t, h, _, _ => by
    simp only [plainCV, Bool.and_eq_true] at h
    have ih := run_cvs ρ args (n + 1) (')' :: t) h.2 (fun e => by simp at e) (by simp)
    simp only [cvText, List.append_assoc, List.cons_append, List.nil_append]
    rw [run_dull _ _ _ (fun d hd => ((ident_chars h.1).2 d hd).1), run_open (Or.inl rfl), ih, run_close (Or.inl rfl)]
  | .tok (.ident i), n, t, h, _, _ => by
    simp only [plainCV] at h
    exact run_dull _ _ _ (fun d hd => ((ident_chars h).2 d hd).1)
  | .tok (.punct c j), n, t, h, h1, h2 => by
    simp only [plainCV, decide_eq_true_eq] at h
    simp only [punctOf, Option.some.injEq, ne_eq] at h1 h2
    simp only [cvText, tokenText, List.cons_append, List.nil_append]
    have hc : c ≠ '{' ∧ c ≠ '}' ∧ ∀ n, At.next (.out n) c = some (.out n) := by
      clear h1 h2
      have : ∀ c ∈ c! "=<>!~?+-*/%^&|@.,;:#$", c ≠ '{' ∧ c ≠ '}' ∧ c ≠ '"' ∧ c ≠ '\'' ∧ c ≠ '\\' ∧ c ≠ '(' ∧ c ≠ '[' ∧ c ≠ ')' ∧ c ≠ ']' := by decide
      obtain ⟨a, b, a1, a2, a3, a4, a5, a6, a7⟩ := this c h
      exact ⟨a, b, fun n => by simp [At.next, a1, a2, a3, a4, a5, a6, a7]⟩
    rw [runText, if_neg, if_neg, hc.2.2]
    · rintro ⟨-, rfl, e⟩
      exact h2 rfl e
    · rintro ⟨e, e'⟩
      simp only [At.out.injEq] at e
      rcases e' with e' | e' | e'
      · exact hc.1 e'
      · exact hc.2.1 e'
      · exact h1 e e'
  | .tok (.lit s v), n, t, h, _, _ => by
    simp only [plainCV, decide_eq_true_eq] at h
    exact runText_append' _ h.2.2.2 (closed_run h rfl)
  | .block .paren cs, n, t, h, _, _ => by
    simp only [plainCV, Bool.and_eq_true] at h
    have ih := run_cvs ρ cs (n + 1) (')' :: t) h.2 (fun e => by simp at e) (by simp)
    simp only [cvText, List.append_assoc, List.cons_append, List.nil_append]
    rw [run_open (Or.inl rfl), ih, run_close (Or.inl rfl)]
  | .block .bracket cs, n, t, h, _, _ => by
    simp only [plainCV, Bool.and_eq_true] at h
    have ih := run_cvs ρ cs (n + 1) (']' :: t) h.2 (fun e => by simp at e) (by simp)
    simp only [cvText, List.append_assoc, List.cons_append, List.nil_append]
    rw [run_open (Or.inr rfl), ih, run_close (Or.inr rfl)]
  | .block .brace cs, n, t, h, _, _ => by simp [plainCV] at h
  | .expr j e, n, t, h, _, _ => by
    simp only [plainCV, decide_eq_true_eq] at h
    exact runText_append' _ h.2.2.2 (closed_run h rfl)
theorem run_cvs (ρ : Env) : ∀ (cs : List CV) (n : Nat) (t : Str), plainCVs ρ cs = true →
    (n = 0 → ∀ c ∈ cs, punctOf c ≠ some ';') → t.head? ≠ some '*' →
    runText (.out n) (cvsText ρ cs ++ t) = runText (.out n) t
  | [], _, _, _, _, _ => rfl
  | [c], n, t, h, h1, h2 => by
    simp only [plainCVs, Bool.and_eq_true] at h
    exact run_cv ρ c n t h.1.1 (fun e => h1 e c (by simp)) (fun _ => h2)
  | c :: d :: cs, n, t, h, h1, h2 => by
    have h' := h
    rw [plainCVs] at h'
    simp only [Bool.and_eq_true, decide_eq_true_eq] at h'
    obtain ⟨⟨g1, g2⟩, g3⟩ := h'
    have hd : plainCV ρ d = true := by
      rw [plainCVs] at g3
      simp only [Bool.and_eq_true] at g3
      exact g3.1.1
    have ih := run_cvs ρ (d :: cs) n t g3 (fun e x hx => h1 e x (List.mem_cons_of_mem _ hx)) h2
    simp only [cvsText, List.append_assoc]
    rw [run_cv ρ c n _ g1 (fun e => h1 e c (by simp)) ?_]
    · split
      · rw [run_dull n _ (c! " ") (by decide), ih]
      · exact ih
    · intro e
      have hb : wordBefore c = false := by
        rcases c with _ | ⟨_ | _ | _⟩ | _ | _ <;> simp_all [punctOf, wordBefore]
      simp only [hb, Bool.false_and, Bool.false_eq_true, if_false, List.nil_append]
      exact (cvsText_head hd t).2.2 (fun e' => g2 ⟨e, by simpa using e'⟩)
end

theorem plainCVs_mem {ρ : Env} : ∀ {cs : List CV}, plainCVs ρ cs = true → ∀ c ∈ cs, plainCV ρ c = true
  | [], _, c, hc => by simp at hc
  | d :: cs, h, c, hc => by
    rw [plainCVs] at h
    simp only [Bool.and_eq_true] at h
    rcases List.mem_cons.1 hc with rfl | hc
    · exact h.1.1
    · exact plainCVs_mem h.2 c hc

theorem cvsText_last {ρ : Env} : ∀ {cs : List CV}, plainCVs ρ cs = true → LastOk (cvsText ρ cs)
  | [], _ => by intro c hc; simp [cvsText] at hc
  | [c], h => by
    simp only [plainCVs, Bool.and_eq_true] at h
    exact cvText_last h.1.1
  | c :: d :: cs, h => by
    rw [plainCVs] at h
    simp only [Bool.and_eq_true] at h
    rw [cvsText, lastOk_append (cvsText_head (plainCVs_mem h.2 d (by simp)) []).1]
    exact cvsText_last h.2

theorem whole_cvs {ρ : Env} {cs : List CV} (h : plainCVs ρ cs = true) (hs : ∀ c ∈ cs, punctOf c ≠ some ';') :
    Whole (cvsText ρ cs) ∧ (cs ≠ [] → cvsText ρ cs ≠ []) := by
  have h1 := run_cvs ρ cs 0 [] h (fun _ => hs) (by simp)
  refine ⟨⟨by simpa [runText] using h1, (trim_iff _).2 ⟨?_, cvsText_last h⟩⟩, ?_⟩
  · cases cs with
    | nil => intro c hc; simp [cvsText] at hc
    | cons c cs => exact (cvsText_head (plainCVs_mem h c (by simp)) []).2.1
  · intro hne
    cases cs with
    | nil => exact absurd rfl hne
    | cons c cs => exact (cvsText_head (plainCVs_mem h c (by simp)) []).1

theorem splitCommas_plain {ρ : Env} : ∀ {qs : List CV}, plainCVs ρ qs = true → ∀ p ∈ splitCommas qs,
    plainCVs ρ p = true ∧ ∀ c ∈ p, c ∈ qs
  | [], _, p, hp => by
    simp only [splitCommas, List.mem_cons, List.not_mem_nil, or_false] at hp
    subst hp
    exact ⟨rfl, fun _ h => h⟩
  | c :: cs, h, p, hp => by
    have h' := h
    rw [plainCVs] at h'
    simp only [Bool.and_eq_true, decide_eq_true_eq] at h'
    have ih := splitCommas_plain h'.2
    rw [splitCommas.eq_def] at hp
    split at hp
    · rename_i e; cases e
    · rename_i j cs' e
      cases e
      rcases List.mem_cons.1 hp with rfl | hp
      · exact ⟨rfl, by simp⟩
      · exact ⟨(ih p hp).1, fun x hx => List.mem_cons_of_mem _ ((ih p hp).2 x hx)⟩
    · rename_i c' cs' hc' e
      cases e
      split at hp
      · rename_i e
        simp only [List.mem_cons, List.not_mem_nil, or_false] at hp
        subst hp
        exact ⟨by simp [plainCVs, h'.1.1], by simp⟩
      · rename_i p0 ps e
        rcases List.mem_cons.1 hp with rfl | hp
        · have h0 := ih p0 (by rw [e]; simp)
          refine ⟨?_, ?_⟩
          · rw [plainCVs]
            simp only [Bool.and_eq_true, decide_eq_true_eq]
            refine ⟨⟨h'.1.1, ?_⟩, h0.1⟩
            rintro ⟨e1, e2⟩
            refine h'.1.2 ⟨e1, ?_⟩
            -- the head of the first part is the head of the list
            cases cs with
            | nil =>
              simp only [splitCommas, List.cons.injEq] at e
              rw [← e.1] at e2
              simp at e2
            | cons d ds =>
              rw [splitCommas.eq_def] at e
              split at e
              · rename_i e'; cases e'
              · simp only [List.cons.injEq] at e
                rw [← e.1] at e2
                simp at e2
              · rename_i d' ds' hd' e'
                cases e'
                split at e
                · simp only [List.cons.injEq] at e
                  rw [← e.1] at e2
                  exact e2
                · simp only [List.cons.injEq] at e
                  rw [← e.1] at e2
                  exact e2
          · intro x hx
            rcases List.mem_cons.1 hx with rfl | hx
            · simp
            · exact List.mem_cons_of_mem _ (h0.2 x hx)
        · have h0 := ih p (by rw [e]; exact List.mem_cons_of_mem _ hp)
          exact ⟨h0.1, fun x hx => List.mem_cons_of_mem _ (h0.2 x hx)⟩

theorem dropEmpty_mem : ∀ {ps : List (List CV)} {p : List CV}, p ∈ dropEmpty ps → p ∈ ps
  | [], p, h => h
  | [[]], p, h => by simp [dropEmpty] at h
  | [c :: cs], p, h => by simpa [dropEmpty] using h
  | q :: r :: ps, p, h => by
    have : dropEmpty (q :: r :: ps) = q :: dropEmpty (r :: ps) := by
      cases q <;> rfl
    rw [this] at h
    rcases List.mem_cons.1 h with rfl | h
    · exact List.mem_cons_self
    · exact List.mem_cons_of_mem _ (dropEmpty_mem h)

/-! ## Sheets -/

/-- No semicolon on the outside. -/
def NoSemi (cs : List CV) : Prop := ∀ c ∈ cs, punctOf c ≠ some ';'

mutual
/-- What the macros check of an item. -/
def Lawful : SItem → Prop
  | .decl name vs => IsName name ∧ NoSemi vs
  | .rule name ps body => cssName name ∈ [c! "media", c! "supports"] ∧ NoSemi ps ∧ LawfulL body
  | .block qs body => NoSemi qs ∧ LawfulL body
/-- For a list. -/
def LawfulL : List SItem → Prop
  | [] => True
  | i :: is => Lawful i ∧ LawfulL is
end

theorem noSemi_values : ∀ {vs : List CV}, ValidValues vs → NoSemi vs
  | [], _ => by intro c hc; simp at hc
  | v :: vs, h => by
    intro c hc
    rcases List.mem_cons.1 hc with rfl | hc
    · rcases c with _ | ⟨_ | _ | _⟩ | _ | _ <;> simp [punctOf]
      rintro rfl
      have := h.1
      simp [ValidValue] at this
    · exact noSemi_values h.2 c hc

theorem noSemi_selectors : ∀ {vs : List CV}, ValidSelectors vs → NoSemi vs
  | [], _ => by intro c hc; simp at hc
  | v :: vs, h => by
    intro c hc
    rcases List.mem_cons.1 hc with rfl | hc
    · rcases c with _ | ⟨_ | _ | _⟩ | _ | _ <;> simp [punctOf]
      rintro rfl
      have := h.1
      simp [ValidSelector] at this
    · exact noSemi_selectors h.2 c hc

theorem noSemi_prelude {vs : List CV} (h : ∀ p ∈ vs, InPrelude p) : NoSemi vs := by
  intro c hc
  have := h c hc
  rcases c with _ | ⟨_ | _ | _⟩ | _ | _ <;> simp [punctOf]
  rintro rfl
  exact this rfl

theorem sheets_lawful {isExpr : RExpr → Bool} {b : Bool} {ts : List Tree} {is : List SItem}
    (h : Sheets isExpr b ts is) : LawfulL is := by
  induction h with
  | nil => exact trivial
  | decl b j j' name vs rest is hn h1 h2 h3 h4 h5 ih => exact ⟨⟨hn, noSemi_values h4⟩, ih⟩
  | rule b j name ps inner body rest is hm h1 h2 h3 h4 h5 h6 ih1 ih2 => exact ⟨⟨hm, noSemi_prelude h4, ih1⟩, ih2⟩
  | block qs inner body rest is h1 h2 h3 h4 h5 ih1 ih2 => exact ⟨⟨noSemi_selectors h2, ih1⟩, ih2⟩

theorem whole_name {ρ : Env} {name : CV} (h : plainName ρ name = true) :
    Whole (declName ρ name) ∧ ':' ∉ declName ρ name := by
  rcases name with _ | ⟨_ | _ | i⟩ | _ | ⟨_, e⟩ <;> simp only [plainName, decide_eq_true_eq] at h
  all_goals first | exact h | (exact absurd h (by decide)) | skip
  obtain ⟨h1, h2⟩ := ident_chars h
  have h3 := run_dull 0 [] (cssName i) (fun d hd => (h2 d hd).1)
  refine ⟨⟨?_, (trim_iff _).2 ⟨fun d hd => (h2 d (List.mem_of_head? hd)).2, fun d hd => (h2 d (List.mem_of_getLast? hd)).2⟩⟩, ?_⟩
  · rw [List.append_nil] at h3
    exact h3
  · intro hc
    simp only [plainIdent, ne_eq, decide_eq_true_eq] at h
    obtain ⟨-, h⟩ := h
    rw [List.all_eq_true] at h
    change ':' ∈ cssName i at hc
    clear h1 h2 h3
    induction i with
    | nil => simp [cssName] at hc
    | cons p ps ih =>
      have hp := h p List.mem_cons_self
      have ih := ih (fun x hx => h x (List.mem_cons_of_mem _ hx))
      cases p with
      | dash j =>
        rcases List.mem_cons.1 hc with hc | hc
        · exact absurd hc (by decide)
        · exact ih hc
      | ident n r =>
        rcases List.mem_append.1 hc with hc | hc
        · exact absurd ((of_decide_eq_true hp).2 _ hc).1 (by decide)
        · exact ih hc

theorem cond_text (ρ : Env) (name : CssIdent) (ps : List CV) :
    fragsText ρ (condition name ps) = c! "@" ++ cssName name ++ c! " " ++ cvsText ρ ps := by
  rw [← spaced_text]
  simp [condition, fragsText, fragText]

theorem whole_cond {ρ : Env} {name : CssIdent} {ps : List CV} (hn : cssName name ∈ [c! "media", c! "supports"])
    (hs : NoSemi ps) (hne : ps ≠ []) (h : plainCVs ρ ps = true) : Whole (fragsText ρ (condition name ps)) := by
  rw [cond_text]
  obtain ⟨h1, h2⟩ := whole_cvs h hs
  have hd : ∀ d ∈ c! "@" ++ cssName name ++ c! " ", Dull d := by
    simp only [List.mem_cons, List.not_mem_nil, or_false] at hn
    rcases hn with hn | hn <;> rw [hn] <;> decide
  refine ⟨?_, (trim_iff _).2 ⟨?_, ?_⟩⟩
  · rw [run_dull 0 _ _ hd]
    exact h1.1
  · intro c hc
    simp only [List.cons_append, List.nil_append, List.head?_cons, Option.mem_def, Option.some.injEq] at hc
    subst hc; decide
  · rw [lastOk_append (h2 hne)]
    exact ((trim_iff _).1 h1.2).2

theorem sels_text (ρ : Env) (qs : List CV) :
    (selectors qs).map (fun s => [fragsText ρ s]) = (writtenSelectors ρ qs).map (fun s => [s]) := by
  simp [selectors, writtenSelectors, spaced_text]

theorem whole_sels' {ρ : Env} {qs : List CV} (hs : NoSemi qs) (hp : plainCVs ρ qs = true)
    (hne : (dropEmpty (splitCommas qs)).all (fun p => !p.isEmpty) = true) :
    ∀ s ∈ writtenSelectors ρ qs, Whole s ∧ s ≠ [] := by
  intro s hs'
  obtain ⟨p, hp', rfl⟩ := List.mem_map.1 hs'
  obtain ⟨h1, h2⟩ := splitCommas_plain hp p (dropEmpty_mem hp')
  obtain ⟨h3, h4⟩ := whole_cvs h1 (fun c hc => hs c (h2 c hc))
  rw [List.all_eq_true] at hne
  refine ⟨h3, h4 ?_⟩
  have := hne p hp'
  simpa using this

/-- What is to be shown of an output. -/
def Reads (cls : Option Str) (ρ : Env) (outer : Option Str) (sel : Str) (is : List SItem) (out : List ORBC) : Prop :=
  (∀ rules, declsInAll (scopeSelector cls) (current cls) rules outer (meaningRBCs ρ out) = rowsInAll cls ρ rules sel is) ∧
    WholeAll (meaningRBCs ρ out)

theorem reads_in {cls : Option Str} {ρ : Env} {sel : Str} {is : List SItem} {out : List ORBC} (h : EmitsIn is out)
    (hl : LawfulL is) (hp : plainItems ρ is = true) : Reads cls ρ (some sel) sel is out := by
  induction h with
  | nil => exact ⟨fun _ => rfl, trivial⟩
  | decl name vs is out h ih =>
    simp only [plainItems, plainItem, Bool.and_eq_true] at hp
    obtain ⟨i1, i2⟩ := ih hl.2 hp.2
    refine ⟨fun rules => ?_, ⟨?_, ?_⟩, i2⟩
    · simp only [meaningRBCs, declOut, meaningRBC, declsInAll, declsIn, rowsInAll, rowsIn, i1, key_text ρ hl.1.1,
        spaced_text, Option.toList, List.flatten_cons, List.flatten_nil, List.append_nil]
    · rw [key_text ρ hl.1.1]; exact whole_name hp.1.1
    · simp only [List.flatten_cons, List.flatten_nil, List.append_nil, spaced_text]
      exact (whole_cvs hp.1.2 hl.1.2).1
  | rule name ps body a is out h1 h2 ih1 ih2 =>
    simp only [plainItems, plainItem, Bool.and_eq_true, Bool.not_eq_true', List.isEmpty_eq_false_iff] at hp
    obtain ⟨⟨⟨p1, p2⟩, p3⟩, p4⟩ := hp
    obtain ⟨i1, i2⟩ := ih1 hl.1.2.2 p3
    obtain ⟨i3, i4⟩ := ih2 hl.2 p4
    refine ⟨fun rules => ?_, ⟨?_, i2⟩, i4⟩
    · simp only [meaningRBCs, meaningRBC, declsInAll, declsIn, rowsInAll, rowsIn, i1, i3, cond_text,
        List.flatten_cons, List.flatten_nil, List.append_nil]
    · simp only [List.flatten_cons, List.flatten_nil, List.append_nil]
      exact whole_cond hl.1.1 hl.1.2.1 p1 p2

theorem rowsInAll_append (cls : Option Str) (ρ : Env) (rules : List Str) (sel : Str) : ∀ x y : List SItem,
    rowsInAll cls ρ rules sel (x ++ y) = rowsInAll cls ρ rules sel x ++ rowsInAll cls ρ rules sel y
  | [], y => rfl
  | i :: x, y => by simp [rowsInAll, rowsInAll_append cls ρ rules sel x y]

theorem lawfulL_append : ∀ x y : List SItem, LawfulL (x ++ y) ↔ LawfulL x ∧ LawfulL y
  | [], y => by simp [LawfulL]
  | i :: x, y => by simp [LawfulL, lawfulL_append x y, and_assoc]

theorem plainItems_append {ρ : Env} : ∀ x y : List SItem, plainItems ρ (x ++ y) = true ↔ plainItems ρ x = true ∧ plainItems ρ y = true
  | [], y => by simp [plainItems]
  | i :: x, y => by simp [plainItems, plainItems_append x y, and_assoc]

theorem emitsIn_decls : ∀ ds : List SItem, (∀ d ∈ ds, IsDecl d) → EmitsIn ds (ds.map declOut)
  | [], _ => .nil
  | d :: ds, h => by
    have hd := h d List.mem_cons_self
    cases d with
    | decl name vs => exact .decl name vs ds _ (emitsIn_decls ds (fun x hx => h x (List.mem_cons_of_mem _ hx)))
    | _ => exact hd.elim

theorem reads {cls : Option Str} {ρ : Env} {is : List SItem} {out : List ORBC} (h : Emits is out)
    (hl : LawfulL is) (hp : plainItems ρ is = true) : Reads cls ρ none (current cls) is out := by
  induction h with
  | nil => exact ⟨fun _ => rfl, trivial⟩
  | decls ds is out hne hds hhd h ih =>
    obtain ⟨l1, l2⟩ := (lawfulL_append ds is).1 hl
    obtain ⟨p1, p2⟩ := (plainItems_append ds is).1 hp
    obtain ⟨i1, i2⟩ := ih l2 p2
    obtain ⟨j1, j2⟩ := reads_in (cls := cls) (sel := current cls) (emitsIn_decls ds hds) l1 p1
    refine ⟨fun rules => ?_, ⟨by simp, j2⟩, i2⟩
    rw [rowsInAll_append, ← j1, ← i1]
    simp [meaningRBCs, meaningRBC, declsInAll, declsIn, blockSelector]
  | rule name ps body a is out h1 h2 ih1 ih2 =>
    simp only [plainItems, plainItem, Bool.and_eq_true, Bool.not_eq_true', List.isEmpty_eq_false_iff] at hp
    obtain ⟨⟨⟨p1, p2⟩, p3⟩, p4⟩ := hp
    obtain ⟨i1, i2⟩ := ih1 hl.1.2.2 p3
    obtain ⟨i3, i4⟩ := ih2 hl.2 p4
    refine ⟨fun rules => ?_, ⟨?_, i2⟩, i4⟩
    · simp only [meaningRBCs, meaningRBC, declsInAll, declsIn, rowsInAll, rowsIn, i1, i3, cond_text,
        List.flatten_cons, List.flatten_nil, List.append_nil]
    · simp only [List.flatten_cons, List.flatten_nil, List.append_nil]
      exact whole_cond hl.1.1 hl.1.2.1 p1 p2
  | block qs body a is out h1 h2 ih =>
    simp only [plainItems, plainItem, Bool.and_eq_true] at hp
    obtain ⟨⟨⟨p1, p2⟩, p3⟩, p4⟩ := hp
    obtain ⟨i3, i4⟩ := ih hl.2 p4
    have hw := whole_sels' hl.1.1 p2 p1
    obtain ⟨j1, j2⟩ := reads_in (cls := cls) (sel := if writtenSelectors ρ qs = [] then current cls
       else Str.join (c! ", ") ((writtenSelectors ρ qs).map (scopeSelector cls))) h1 hl.1.2 p3
    refine ⟨fun rules => ?_, ⟨?_, j2⟩, i4⟩
    · simp only [meaningRBCs, meaningRBC, declsInAll, declsIn, rowsInAll, rowsIn, i3, sels_text, ← j1]
      congr 3
      cases hs : writtenSelectors ρ qs with
      | nil => simp [blockSelector]
      | cons s ss => simp [blockSelector, Function.comp_def]
    · rw [sels_text]
      intro s hs
      obtain ⟨s', hs', rfl⟩ := List.mem_map.1 hs
      simpa using hw s' hs'

/-! ## In one piece -/

mutual
theorem declsIn_joined (sel : Str → Str) (cur : Str) : ∀ (x : RBC) (rules : List Str) (outer : Option Str),
    declsIn sel cur rules outer (joinedRBC x) = declsIn sel cur rules outer x
  | .attr k v, rules, outer => by simp [joinedRBC, declsIn]
  | .rule c b, rules, outer => by
    simp only [joinedRBC, declsIn, declsInAll_joined sel cur b]
    simp
  | .block c b, rules, outer => by
    simp only [joinedRBC, declsIn, declsInAll_joined sel cur b]
    congr 2
    cases c with
    | nil => rfl
    | cons s ss => simp [blockSelector, Function.comp_def]
theorem declsInAll_joined (sel : Str → Str) (cur : Str) : ∀ (xs : List RBC) (rules : List Str) (outer : Option Str),
    declsInAll sel cur rules outer (joinedRBCs xs) = declsInAll sel cur rules outer xs
  | [], _, _ => rfl
  | x :: xs, rules, outer => by
    simp only [joinedRBCs, declsInAll, declsIn_joined sel cur x, declsInAll_joined sel cur xs]
end

mutual
theorem wholeIn_joined : ∀ x : RBC, WholeIn (joinedRBC x) ↔ WholeIn x
  | .attr k v => by simp [joinedRBC, WholeIn]
  | .rule c b => by simp [joinedRBC, WholeIn, wholeAll_joined b]
  | .block c b => by simp [joinedRBC, WholeIn, wholeAll_joined b]
theorem wholeAll_joined : ∀ xs : List RBC, WholeAll (joinedRBCs xs) ↔ WholeAll xs
  | [] => Iff.rfl
  | x :: xs => by simp only [joinedRBCs, WholeAll, wholeIn_joined x, wholeAll_joined xs]
end

theorem joined_toRBC : ∀ s : Sheet, (joined s).map ScopeContent.toRBC = joinedRBCs (s.map ScopeContent.toRBC)
  | [] => rfl
  | .rule c b :: xs => by
    have := joined_toRBC xs
    simp only [joined, List.map_cons, joinedRBCs, this]; rfl
  | .block c b :: xs => by
    have := joined_toRBC xs
    simp only [joined, List.map_cons, joinedRBCs, this]; rfl

theorem meaning_toRBC (ρ : Env) : ∀ s : OSheet, (meaning ρ s).map ScopeContent.toRBC = meaningRBCs ρ (s.map scopeRBC)
  | [] => rfl
  | .rule c b :: xs => by
    have := meaning_toRBC ρ xs
    simp only [meaning, List.map_cons, meaningRBCs, this]; rfl
  | .block c b :: xs => by
    have := meaning_toRBC ρ xs
    simp only [meaning, List.map_cons, meaningRBCs, this]; rfl

/-- A sheet that is the meaning of an output tree when it is put in one piece. -/
theorem reads_sheet {ρ : Env} {is : List SItem} {out : OSheet} (h : Emits is (out.map scopeRBC)) (hl : LawfulL is)
    (hp : plainItems ρ is = true) {s : Sheet} (hs : joined s = meaning ρ out) (cls : Option Str) :
    decls cls s = rows cls ρ is ∧ WholeSheet s := by
  obtain ⟨h1, h2⟩ := reads (cls := cls) h hl hp
  have e := congrArg (List.map ScopeContent.toRBC) hs
  rw [joined_toRBC, meaning_toRBC] at e
  constructor
  · rw [decls, ← declsInAll_joined, e]
    exact h1 []
  · rw [WholeSheet, ← wholeAll_joined, e]
    exact h2

/-! ## The same css in a string -/

theorem at_value {ρ : Env} {a : AtSrc} {name : CssIdent} {ps : List CV} (h : a.Writes ρ name ps) :
    a.value.flatten = fragsText ρ (condition name ps) := by
  rw [cond_text]
  simp [AtSrc.value, h.2.1, h.2.2]

theorem body_written {ρ : Env} {css : Str} {is : List SItem} (h : BodyWritten ρ css is) (hl : LawfulL is) :
    ∃ c out, BodyLayout css c ∧ EmitsIn is out ∧ joinedRBCs c = meaningRBCs ρ out ∧ (is ≠ [] → c ≠ []) := by
  induction h with
  | nil w hw => exact ⟨[], [], .nil w hw, .nil, rfl, fun h => absurd rfl h⟩
  | decl d u name vs is hd h ih =>
    obtain ⟨c, out, h1, h2, h3, -⟩ := ih hl.2
    refine ⟨_, _, .decl d u c hd.1 h1, .decl name vs is out h2, ?_, by simp⟩
    simp only [joinedRBCs, joinedRBC, declOut, meaningRBCs, meaningRBC, h3, key_text ρ hl.1.1, spaced_text, hd.2.1, hd.2.2]
    simp
  | rule a body u name ps inner is ha h1 hb h2 ih1 ih2 =>
    obtain ⟨c, out, i1, i2, i3, i4⟩ := ih1 hl.1.2.2
    obtain ⟨c', out', j1, j2, j3, -⟩ := ih2 hl.2
    refine ⟨_, _, .rule a body u c c' ha.1 i1 (hb.imp id i4) j1, .rule name ps inner out is out' i2 j2, ?_, by simp⟩
    simp only [joinedRBCs, joinedRBC, meaningRBCs, meaningRBC, i3, j3, at_value ha]

theorem decls_written {ρ : Env} : ∀ {ds : List DeclSrc} {ns : List SItem}, DeclsWritten ρ ds ns → LawfulL ns →
    (∀ d ∈ ds, d.Ok) ∧ (∀ n ∈ ns, IsDecl n) ∧ ds.length = ns.length ∧
      joinedRBCs (ds.map (fun d => .attr d.key [d.value])) = meaningRBCs ρ (ns.map declOut)
  | [], [], _, _ => ⟨by simp, by simp, rfl, rfl⟩
  | d :: ds, .decl name vs :: is, h, hl => by
    obtain ⟨h1, h2, h3, h4⟩ := decls_written h.2 hl.2
    refine ⟨?_, ?_, by simp [h3], ?_⟩
    · intro x hx
      rcases List.mem_cons.1 hx with rfl | hx
      · exact h.1.1
      · exact h1 x hx
    · intro x hx
      rcases List.mem_cons.1 hx with rfl | hx
      · trivial
      · exact h2 x hx
    · simp only [List.map_cons, joinedRBCs, joinedRBC, declOut, meaningRBCs, meaningRBC, h4, key_text ρ hl.1.1, spaced_text,
        h.1.2.1, h.1.2.2]
      simp
  | [], _ :: _, h, _ => h.elim
  | _ :: _, [], h, _ => h.elim
  | _ :: _, .rule _ _ _ :: _, h, _ => h.elim
  | _ :: _, .block _ _ :: _, h, _ => h.elim

theorem written {ρ : Env} {css : Str} {is : List SItem} (h : WrittenAs ρ css is) (hl : LawfulL is) :
    ∃ (c : Sheet) (out : OSheet), Layout css c ∧ Emits is (out.map scopeRBC) ∧ joined c = meaning ρ out := by
  induction h with
  | nil w hw => exact ⟨[], [], .nil w hw, .nil, rfl⟩
  | decls ds ns is u hne hd hu hhd h ih =>
    obtain ⟨l1, l2⟩ := (lawfulL_append ns is).1 hl
    obtain ⟨c, out, h1, h2, h3⟩ := ih l2
    obtain ⟨g1, g2, g3, g4⟩ := decls_written hd l1
    have hn : ns ≠ [] := by
      rintro rfl
      exact hne (List.length_eq_zero_iff.1 g3)
    refine ⟨_, .block [] (ns.map declOut) :: out, .decls ds u c hne g1 hu h1, .decls ns is _ hn g2 hhd h2, ?_⟩
    simp only [joined, meaning, h3, g4, List.map_nil]
  | block l body u qs inner is hne hok hsel hb h ih =>
    obtain ⟨c, out, h1, h2, h3⟩ := ih hl.2
    obtain ⟨cb, ob, i1, i2, i3, -⟩ := body_written hb hl.1.2
    refine ⟨_, .block (selectors qs) ob :: out, .block l body u cb c hne hok i1 h1, .block qs inner ob is _ i2 h2, ?_⟩
    simp only [joined, meaning, h3, i3, sels_text, ← hsel, List.map_map]
    congr 2
    simp
  | rule a body u name ps inner is ha h1 h2 ih1 ih2 =>
    obtain ⟨c, out, i1, i2, i3⟩ := ih1 hl.1.2.2
    obtain ⟨c', out', j1, j2, j3⟩ := ih2 hl.2
    refine ⟨_, .rule (condition name ps) (out.map scopeRBC) :: out', .rule a body u c c' ha.1 i1 j1,
      .rule name ps inner _ is _ i2 j2, ?_⟩
    simp only [joined, meaning, j3, at_value ha, ← joined_toRBC, i3, meaning_toRBC]

end WrittenP
