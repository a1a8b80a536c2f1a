import Verif.Spec.Documented
import Verif.Proofs.Written

/-!
# Lemmas for C78
-/

namespace DocumentedP

open Spec Output

mutual
/-- The rule is that of the code. -/
def okWord (amp : Bool) : CV → Bool
  | .func _ args => okWords amp args
  | .block _ cs => okWords amp cs
  | .tok _ | .expr _ _ => true
def okWords (amp : Bool) : List CV → Bool
  | [] => true
  | c :: cs => okWord amp c && (amp || !(decide (punctOf c = some '&') && cs.head?.any wordAfter)) && okWords amp cs
end

mutual
def okItem (amp : Bool) : SItem → Bool
  | .decl _ vs => okWords amp vs
  | .rule _ ps body => okWords amp ps && okItems amp body
  | .block qs body => okWords amp qs && okItems amp body
def okItems (amp : Bool) : List SItem → Bool
  | [] => true
  | i :: is => okItem amp i && okItems amp is
end

mutual
theorem okWord_true : ∀ c : CV, okWord true c = true
  | .func _ args => by rw [okWord, okWords_true args]
  | .block _ cs => by rw [okWord, okWords_true cs]
  | .tok _ => rfl
  | .expr _ _ => rfl
theorem okWords_true : ∀ cs : List CV, okWords true cs = true
  | [] => rfl
  | c :: cs => by simp [okWords, okWord_true c, okWords_true cs]
end

mutual
theorem okItem_true : ∀ i : SItem, okItem true i = true
  | .decl _ vs => by rw [okItem, okWords_true]
  | .rule _ ps body => by rw [okItem, okWords_true, okItems_true body]; rfl
  | .block qs body => by rw [okItem, okWords_true, okItems_true body]; rfl
theorem okItems_true : ∀ is : List SItem, okItems true is = true
  | [] => rfl
  | i :: is => by rw [okItems, okItem_true i, okItems_true is]; rfl
end

mutual
theorem okWord_false : ∀ c : CV, okWord false c = noAmpWord c
  | .func _ args => by rw [okWord, okWords_false args, noAmpWord]
  | .block _ cs => by rw [okWord, okWords_false cs, noAmpWord]
  | .tok _ => rfl
  | .expr _ _ => rfl
theorem okWords_false : ∀ cs : List CV, okWords false cs = noAmpWords cs
  | [] => rfl
  | c :: cs => by simp [okWords, noAmpWords, okWord_false c, okWords_false cs]
end

mutual
theorem okItem_false : ∀ i : SItem, okItem false i = noAmpItem i
  | .decl _ vs => by rw [okItem, okWords_false, noAmpItem]
  | .rule _ ps body => by rw [okItem, okWords_false, okItems_false body, noAmpItem]
  | .block qs body => by rw [okItem, okWords_false, okItems_false body, noAmpItem]
theorem okItems_false : ∀ is : List SItem, okItems false is = noAmpItems is
  | [] => rfl
  | i :: is => by rw [okItems, okItem_false i, okItems_false is, noAmpItems]
end

/-- The kind of the first token. -/
def firstW : CV → Word
  | .func _ _ | .tok (.ident _) | .tok (.lit _ _) => .word
  | .tok (.punct c _) => wordOfChar c
  | .block _ _ | .expr _ _ => .other

/-- The kind of the last token. -/
def lastW : CV → Word
  | .func _ _ | .block _ _ => .closing
  | .tok (.ident _) | .tok (.lit _ _) => .word
  | .tok (.punct c _) => wordOfChar c
  | .expr _ _ => .other

theorem wordsCV_head (ρ : Env) (c : CV) : ∃ t ws, wordsCV ρ c = (firstW c, t) :: ws := by
  cases c with
  | func i args => exact ⟨_, _, rfl⟩
  | tok t => cases t <;> exact ⟨_, _, rfl⟩
  | block d cs => cases d <;> exact ⟨_, _, rfl⟩
  | expr j e => exact ⟨_, _, rfl⟩

theorem right_first (c : CV) : (firstW c).right = wordAfter c := by
  cases c with
  | tok t =>
    cases t with
    | punct c j =>
      by_cases h1 : c = '*'
      · subst h1; rfl
      by_cases h2 : c = '#'
      · subst h2; rfl
      by_cases h3 : c = '&'
      · subst h3; rfl
      simp [firstW, wordOfChar, h1, h2, h3, wordAfter, Word.right]
    | _ => rfl
  | _ => rfl

theorem left_last (amp : Bool) (c : CV) (h : amp = true ∨ punctOf c ≠ some '&') : (lastW c).left amp = wordBefore c := by
  cases c with
  | tok t =>
    cases t with
    | punct c j =>
      by_cases h1 : c = '*'
      · subst h1; rfl
      by_cases h2 : c = '#'
      · subst h2; rfl
      by_cases h3 : c = '&'
      · subst h3
        rcases h with rfl | h
        · rfl
        · simp [punctOf] at h
      simp [lastW, wordOfChar, h1, h2, h3, wordBefore, Word.left]
    | _ => rfl
  | _ => rfl

theorem withBlanks_append (amp : Bool) : ∀ (ws : List (Word × Str)) (l r : Word × Str) (vs : List (Word × Str)),
    withBlanks amp (ws ++ [l] ++ r :: vs) =
      withBlanks amp (ws ++ [l]) ++ (if l.1.left amp && r.1.right then c! " " else []) ++ withBlanks amp (r :: vs)
  | [], l, r, vs => by simp [withBlanks]
  | [w], l, r, vs => by simp [withBlanks]
  | w :: w' :: ws, l, r, vs => by
    have := withBlanks_append amp (w' :: ws) l r vs
    simp only [List.cons_append, List.append_assoc, List.nil_append] at this ⊢
    simp only [withBlanks, this, List.append_assoc]

/-- The last token of a component value. -/
theorem wordsCV_last (ρ : Env) (c : CV) : ∃ ws t, wordsCV ρ c = ws ++ [(lastW c, t)] := by
  cases c with
  | func i args => exact ⟨(.word, cssName i) :: (.other, c! "(") :: words ρ args, c! ")", rfl⟩
  | tok t => cases t <;> exact ⟨[], _, rfl⟩
  | block d cs =>
    cases d
    · exact ⟨(.other, c! "{") :: words ρ cs, c! "}", rfl⟩
    · exact ⟨(.other, c! "[") :: words ρ cs, c! "]", rfl⟩
    · exact ⟨(.other, c! "(") :: words ρ cs, c! ")", rfl⟩
  | expr j e => exact ⟨[], _, rfl⟩

theorem withBlanks_cv (amp : Bool) (ρ : Env) (c d : CV) (vs : List (Word × Str)) (h : okWords amp [c, d] = true) :
    withBlanks amp (wordsCV ρ c ++ (wordsCV ρ d ++ vs)) =
      withBlanks amp (wordsCV ρ c) ++ (if wordBefore c && wordAfter d then c! " " else []) ++ withBlanks amp (wordsCV ρ d ++ vs) := by
  obtain ⟨ws, t, e1⟩ := wordsCV_last ρ c
  obtain ⟨t', ws', e2⟩ := wordsCV_head ρ d
  rw [e1, e2, List.cons_append, withBlanks_append]
  congr 2
  simp only [okWords, List.head?_cons, Option.any_some, Bool.and_eq_true] at h
  rw [right_first]
  cases hd : wordAfter d
  · simp
  · rw [left_last]
    have := h.1.2
    cases amp
    · right
      intro hc
      simp [hc, hd] at this
    · exact .inl rfl

/-- Around the tokens inside of brackets there are no blanks. -/
theorem withBlanks_group (amp : Bool) (o : Str) (x : Str) (l : List (Word × Str)) :
    withBlanks amp ((.other, o) :: (l ++ [(.closing, x)])) = o ++ withBlanks amp l ++ x := by
  cases l with
  | nil => simp [withBlanks, Word.left]
  | cons w ws =>
    have h1 : withBlanks amp ((w :: ws) ++ [(.closing, x)]) = withBlanks amp (w :: ws) ++ x := by
      have e : w :: ws = (w :: ws).dropLast ++ [(w :: ws).getLast (by simp)] := (List.dropLast_concat_getLast _).symm
      rw [e, withBlanks_append]
      simp [withBlanks, Word.right]
    rw [List.cons_append] at h1 ⊢
    rw [withBlanks, h1]
    simp [Word.left]

mutual
theorem words_cv (amp : Bool) (ρ : Env) : ∀ c : CV, okWord amp c = true → withBlanks amp (wordsCV ρ c) = cvText ρ c
  | .func i args, h => by
    have ih := words_cvs amp ρ args (by simpa [okWord] using h)
    simp only [wordsCV]
    rw [withBlanks, withBlanks_group]
    rw [textBy] at ih
    simp [ih, cvText, Word.right]
  | .tok (.ident i), _ => rfl
  | .tok (.lit t s), _ => rfl
  | .tok (.punct c j), _ => rfl
  | .block d cs, h => by
    have ih := words_cvs amp ρ cs (by simpa [okWord] using h)
    rw [textBy] at ih
    cases d <;> simp only [wordsCV, withBlanks_group, ih, cvText]
  | .expr j e, _ => rfl
theorem words_cvs (amp : Bool) (ρ : Env) : ∀ cs : List CV, okWords amp cs = true → textBy amp ρ cs = cvsText ρ cs
  | [], _ => rfl
  | [c], h => by
    simp only [okWords, Bool.and_eq_true] at h
    simpa [textBy, words, cvsText] using words_cv amp ρ c h.1.1
  | c :: d :: cs, h => by
    simp only [okWords, Bool.and_eq_true] at h
    have ih := words_cvs amp ρ (d :: cs) (by simp only [okWords, Bool.and_eq_true]; exact h.2)
    rw [textBy] at ih ⊢
    simp only [words] at ih ⊢
    rw [withBlanks_cv, ih, words_cv amp ρ c h.1.1, cvsText]
    have := h.1.2
    simp only [List.head?_cons] at this
    simp only [okWords, List.head?_cons, List.head?_nil, Option.any_none, this, h.1.1, h.2.1.1, Bool.and_false,
      Bool.not_false, Bool.and_true, Bool.or_true]
end

/-! ## Declarations -/

theorem noAmp_tail {amp : Bool} {c : CV} {cs : List CV} (h : okWords amp (c :: cs) = true) : okWords amp cs = true := by
  simp only [okWords, Bool.and_eq_true] at h
  exact h.2

theorem noAmp_cons {amp : Bool} {c : CV} {cs ds : List CV} (h : okWords amp (c :: cs) = true) (hd : okWords amp ds = true)
    (hh : ds.head? = cs.head? ∨ ds = []) : okWords amp (c :: ds) = true := by
  simp only [okWords, Bool.and_eq_true] at h ⊢
  refine ⟨⟨h.1.1, ?_⟩, hd⟩
  rcases hh with hh | rfl
  · rw [hh]; exact h.1.2
  · simp

theorem splitCommas_noAmp {amp : Bool} : ∀ {qs : List CV}, okWords amp qs = true →
    (∀ p ∈ splitCommas qs, okWords amp p = true) ∧ ∀ p ps, splitCommas qs = p :: ps → p.head? = qs.head? ∨ p = [] := by
  intro qs
  induction qs with
  | nil => intro _; simp [splitCommas, okWords]
  | cons c cs ih =>
    intro h
    obtain ⟨i1, i2⟩ := ih (noAmp_tail h)
    rw [splitCommas.eq_def]
    split
    · simp_all
    · next _ j ds e =>
      cases e
      constructor
      · intro p hp
        rcases List.mem_cons.1 hp with rfl | hp
        · rfl
        · exact i1 p hp
      · intro p ps e
        simp only [List.cons.injEq] at e
        exact .inr e.1.symm
    · next c' ds hne e =>
      cases e
      cases hs : splitCommas cs with
      | nil =>
        refine ⟨?_, ?_⟩
        · intro p hp
          simp only [List.mem_cons, List.not_mem_nil, or_false] at hp
          subst hp
          exact noAmp_cons h rfl (.inr rfl)
        · intro p ps e
          simp only [List.cons.injEq] at e
          left; rw [← e.1]; rfl
      | cons q qs =>
        refine ⟨?_, ?_⟩
        · intro p hp
          rcases List.mem_cons.1 hp with rfl | hp
          · exact noAmp_cons h (i1 q (by rw [hs]; exact List.mem_cons_self)) (i2 q qs hs)
          · exact i1 p (by rw [hs]; exact List.mem_cons_of_mem _ hp)
        · intro p ps e
          simp only [List.cons.injEq] at e
          left; rw [← e.1]; rfl

theorem selectors_same (amp : Bool) (ρ : Env) {qs : List CV} (h : okWords amp qs = true) :
    selectorsBy amp ρ qs = writtenSelectors ρ qs := by
  refine List.map_congr_left fun p hp => words_cvs amp ρ p ?_
  exact (splitCommas_noAmp h).1 p (WrittenP.dropEmpty_mem hp)

mutual
theorem rows_same (amp : Bool) (cls : Option Str) (ρ : Env) : ∀ (i : SItem) (rules : List Str) (sel : Str), okItem amp i = true →
    rowsByIn amp cls ρ rules sel i = rowsIn cls ρ rules sel i
  | .decl name vs, rules, sel, h => by rw [rowsByIn, rowsIn, words_cvs amp ρ vs (by simpa [okItem] using h)]
  | .rule name ps body, rules, sel, h => by
    simp only [okItem, Bool.and_eq_true] at h
    rw [rowsByIn, rowsIn, words_cvs amp ρ ps h.1, rowsAll_same amp cls ρ body _ _ h.2]
  | .block qs body, rules, sel, h => by
    simp only [okItem, Bool.and_eq_true] at h
    rw [rowsByIn, rowsIn, selectors_same amp ρ h.1, rowsAll_same amp cls ρ body _ _ h.2]
theorem rowsAll_same (amp : Bool) (cls : Option Str) (ρ : Env) : ∀ (is : List SItem) (rules : List Str) (sel : Str), okItems amp is = true →
    rowsByAll amp cls ρ rules sel is = rowsInAll cls ρ rules sel is
  | [], _, _, _ => rfl
  | i :: is, rules, sel, h => by
    simp only [okItems, Bool.and_eq_true] at h
    rw [rowsByAll, rowsInAll, rows_same amp cls ρ i _ _ h.1, rowsAll_same amp cls ρ is _ _ h.2]
end

/-! ## The declarations of the generated sheet, whatever the texts are -/

theorem decls_in {cls : Option Str} {ρ : Env} {sel : Str} {is : List SItem} {out : List ORBC} (h : EmitsIn is out)
    (hl : WrittenP.LawfulL is) (rules : List Str) :
    declsInAll (scopeSelector cls) (current cls) rules (some sel) (meaningRBCs ρ out) = rowsInAll cls ρ rules sel is := by
  induction h generalizing rules with
  | nil => rfl
  | decl name vs is out h ih =>
    simp only [meaningRBCs, declOut, meaningRBC, declsInAll, declsIn, rowsInAll, rowsIn, ih hl.2, WrittenP.key_text ρ hl.1.1,
        WrittenP.spaced_text, Option.toList, List.flatten_cons, List.flatten_nil, List.append_nil]
  | rule name ps body a is out h1 h2 ih1 ih2 =>
    simp only [meaningRBCs, meaningRBC, declsInAll, declsIn, rowsInAll, rowsIn, ih1 hl.1.2.2, ih2 hl.2, WrittenP.cond_text,
        List.flatten_cons, List.flatten_nil, List.append_nil]

theorem decls_out {cls : Option Str} {ρ : Env} {is : List SItem} {out : List ORBC} (h : Emits is out)
    (hl : WrittenP.LawfulL is) (rules : List Str) :
    declsInAll (scopeSelector cls) (current cls) rules none (meaningRBCs ρ out) = rowsInAll cls ρ rules (current cls) is := by
  induction h generalizing rules with
  | nil => rfl
  | decls ds is out hne hds hhd h ih =>
    obtain ⟨l1, l2⟩ := (WrittenP.lawfulL_append ds is).1 hl
    rw [WrittenP.rowsInAll_append, ← decls_in (WrittenP.emitsIn_decls ds hds) l1, ← ih l2]
    simp [meaningRBCs, meaningRBC, declsInAll, declsIn, blockSelector]
  | rule name ps body a is out h1 h2 ih1 ih2 =>
    simp only [meaningRBCs, meaningRBC, declsInAll, declsIn, rowsInAll, rowsIn, ih1 hl.1.2.2, ih2 hl.2, WrittenP.cond_text,
        List.flatten_cons, List.flatten_nil, List.append_nil]
  | block qs body a is out h1 h2 ih =>
    simp only [meaningRBCs, meaningRBC, declsInAll, declsIn, rowsInAll, rowsIn, ih hl.2, WrittenP.sels_text, ← decls_in h1 hl.1.2]
    congr 3
    cases hs : writtenSelectors ρ qs with
    | nil => simp [blockSelector]
    | cons s ss => simp [blockSelector, Function.comp_def]

theorem decls_sheet {ρ : Env} {is : List SItem} {out : OSheet} (h : Emits is (out.map scopeRBC)) (hl : WrittenP.LawfulL is)
    {s : Sheet} (hs : joined s = meaning ρ out) (cls : Option Str) : decls cls s = rows cls ρ is := by
  have e := congrArg (List.map ScopeContent.toRBC) hs
  rw [WrittenP.joined_toRBC, WrittenP.meaning_toRBC] at e
  rw [decls, ← WrittenP.declsInAll_joined, e]
  exact decls_out h hl []

end DocumentedP
