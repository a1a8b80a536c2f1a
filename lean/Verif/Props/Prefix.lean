import Verif.Props.Builder

/-!
# Which prefixes make classes that are identifiers

C66.
-/

namespace Manager

/-- An identifier of css without escapes stays one if characters are appended, and only then is one
there, up to a lone dash. -/
theorem cssIdent_prefix {p e : Str} (hp : p ≠ []) (he : e.all cssChar = true) :
    cssIdent (p ++ c! "-" ++ e) = true ↔ cssIdent p = true ∨ p = c! "-" := by
  have hdash : cssChar '-' = true := by decide
  match p, hp with
  | [c], _ =>
    by_cases hc : c = '-'
    · subst hc
      simp [cssIdent, he, hdash]
    · simp [cssIdent, hc, he, hdash]
  | c :: c' :: p, _ =>
    by_cases hc : c = '-'
    · subst hc
      simp [cssIdent, he, hdash]
    · simp [cssIdent, hc, he, hdash]

theorem start_not_digit {c : Char} (hc : cssChar c = true) : (cssStart c = true ∨ c = '-') ↔ c.isDigit = false := by
  constructor
  · rintro (h | rfl)
    · simp only [cssStart, Char.isAlpha, Char.isUpper, Char.isLower, Char.isDigit, Bool.or_eq_true, Bool.and_eq_true,
        decide_eq_true_eq, beq_iff_eq, Bool.and_eq_false_iff, decide_eq_false_iff_not, ge_iff_le, UInt32.le_iff_toNat_le] at h ⊢
      rcases h with (h | rfl) | h
      · simp at h ⊢; omega
      · decide
      · simp at h ⊢; omega
    · decide
  · intro h
    simpa [cssChar, h] using hc

theorem cssIdent_bare {e : Str} (he : e.all cssChar = true) :
    cssIdent (c! "-" ++ e) = true ↔ ∃ c r, e = c :: r ∧ c.isDigit = false := by
  cases e with
  | nil => simp [cssIdent]
  | cons c r =>
    have h : cssChar c = true ∧ r.all cssChar = true := by simpa using he
    constructor
    · intro h1
      simp only [cssIdent, List.cons_append, List.nil_append, Bool.and_eq_true, Bool.or_eq_true, beq_iff_eq] at h1
      exact ⟨c, r, rfl, (start_not_digit h.1).1 h1.1⟩
    · rintro ⟨c', r', h1, h2⟩
      cases h1
      simp only [cssIdent, List.cons_append, List.nil_append, Bool.and_eq_true, Bool.or_eq_true, beq_iff_eq]
      exact ⟨(start_not_digit h.1).2 h2, he⟩

/-- **C66**, exactly which classes are identifiers of css: those whose prefix is one, or is a single dash,
or is empty, if then the style is global or its random string does not begin with a digit (the counter
begins with `style-`). For other prefixes the class cannot stand in a selector. -/
theorem C66_exactly (env : Env) (d : Dom) (ops : List Op) (s s1 : St) (hs : s = run env ops (St.init d))
    (hload : ∀ mh data, Op.load mh data ∉ ops) (mh h i : Nat) (kind : Kind) (src : Source) (fault : Bool) (m : Mgr)
    (ast : Sheet) (hi : s.mgrOf mh = some i) (hm : s.mgrs[i]? = some m) (hsrc : src.sheet? = some ast)
    (h1 : step env (.create mh kind src fault) s = (s1, .style h))
    (he : env.entropy = counterEntropy ∨ (∀ n, ∀ c ∈ env.entropy n, c.isAlphanum = true)) :
    ∃ n < s1.ctr, ∃ cls, s1.className h = some cls ∧
      cls = kind.prefixOr m.pref ++ (if kind.forPage then c! "-global-" else c! "-") ++ env.entropy n ∧
      (cssIdent cls = true ↔ cssIdent (kind.prefixOr m.pref) = true ∨ kind.prefixOr m.pref = c! "-" ∨
        (kind.prefixOr m.pref = [] ∧ (kind.forPage = true ∨ ∃ c r, env.entropy n = c :: r ∧ c.isDigit = false))) := by
  obtain ⟨n, e1, e2, -⟩ := C66_class_name env d ops s s1 hs hload mh h i kind src fault m ast hi hm hsrc h1
  refine ⟨n, e1, _, e2, rfl, ?_⟩
  have hent : (env.entropy n).all cssChar = true := by
    rcases he with he | he
    · rw [he]; exact counterEntropy_css _
    · rw [List.all_eq_true]
      intro c hc
      have := he _ c hc
      simp only [Char.isAlphanum, Bool.or_eq_true] at this
      rcases this with h | h <;> simp [cssChar, cssStart, h]
  generalize kind.prefixOr m.pref = pr
  have hglobal : (c! "global-" ++ env.entropy n).all cssChar = true := by
    rw [List.all_append, hent]; decide
  by_cases hp : pr = []
  · subst hp
    have hn : cssIdent [] = false := rfl
    cases hk : kind.forPage with
    | false => simpa [hn] using cssIdent_bare hent
    | true =>
      have := (cssIdent_bare hglobal).2 ⟨'g', _, rfl, by decide⟩
      simpa [hn] using this
  · cases hk : kind.forPage with
    | false => simpa [hp] using cssIdent_prefix hp hent
    | true => simpa [hp] using cssIdent_prefix hp hglobal

/-- The empty prefix: an identifier with the counter, none with a random string that begins with a digit. -/
example : (run demoEnv [.newMgr [] none true none, .create 0 .scoped (.sheet demoRed) false] (St.init demoPage)).className 0 =
      some (c! "-style-0") ∧ cssIdent (c! "-style-0") = true := by decide

example : ∃ cls, (run { demoEnv with entropy := fun _ => c! "8Xq0Zt1a" }
      [.newMgr [] none true none, .create 0 .scoped (.sheet demoRed) false] (St.init demoPage)).className 0 = some cls ∧
    cssIdent cls = false := by
  obtain ⟨n, -, cls, h1, -, h2⟩ := C66_exactly { demoEnv with entropy := fun _ => c! "8Xq0Zt1a" } demoPage
    [.newMgr [] none true none] _ _ rfl (by simp) 0 0 0 .scoped (.sheet demoRed) false
    ⟨[], some 0, true, none, [], false⟩ demoRed (by decide) (by decide) rfl (Prod.ext rfl (by decide))
    (Or.inr fun _ => (by decide : ∀ c ∈ c! "8Xq0Zt1a", c.isAlphanum = true))
  refine ⟨cls, h1, ?_⟩
  rw [Bool.eq_false_iff]
  intro h
  rcases h2.1 h with h | h | ⟨-, h | ⟨c, r, h, h'⟩⟩
  · exact absurd h (by decide)
  · exact absurd h (by decide)
  · exact absurd h (by decide)
  · simp only [List.cons.injEq] at h
    rw [← h.1] at h'
    exact absurd h' (by decide)

end Manager
