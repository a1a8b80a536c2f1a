import Verif.Proofs.Mistakes
import Verif.Props.Inline

/-!
# C88: all mistakes in inline CSS are reported
-/

namespace Inline

open Output Spec

/-- **C88.** If the tokens of a call split into declarations, at-rules and blocks, then the
compile errors are exactly the mistakes in them, in the order in which they are written,
each with the value or name that is wrong. -/
theorem C88_all_mistakes (isExpr : RExpr → Bool) (ts : List Tree) (is : List SItem) (h : Written isExpr ts is)
    (hp : PrintableL false is) (es : List IErr) (he : es ≠ []) :
    macroFn isExpr ts = .errors es ↔ mistakesL false is = es := by
  rcases macroFnW h with ⟨h1, -⟩ | ⟨-, h2, h3⟩ | ⟨-, h2, c, h3⟩
  · exact absurd hp h1
  · rw [h3]
    exact ⟨fun h => by cases h; rfl, fun h => by rw [h]⟩
  · rw [h3, h2]
    exact ⟨fun h => (by cases h), fun h => absurd h.symm he⟩

/-- **C88**: what else can happen. There is a single error, at the place where the parser
stops, exactly if the tokens do not split; the macro panics exactly if there are braces in a
condition or in a selector that has no mistake itself; and there is code exactly if there is
no mistake. So one mistake never hides another. -/
theorem C88_outcome (isExpr : RExpr → Bool) (ts : List Tree) :
    (macroFn isExpr ts = .parseError ↔ ¬ ∃ is, Written isExpr ts is) ∧
    (macroFn isExpr ts = .panic ↔ ∃ is, Written isExpr ts is ∧ ¬ PrintableL false is) ∧
    ((∃ c, macroFn isExpr ts = .code c) ↔
      ∃ is, Written isExpr ts is ∧ PrintableL false is ∧ mistakesL false is = []) ∧
    (∀ es, macroFn isExpr ts = .errors es ↔
      ∃ is, Written isExpr ts is ∧ PrintableL false is ∧ mistakesL false is = es ∧ es ≠ []) := by
  by_cases hw : ∃ is, Written isExpr ts is
  · obtain ⟨is, hw⟩ := hw
    have det : ∀ is', Written isExpr ts is' →
        (¬ PrintableL false is' ∧ macroFn isExpr ts = .panic) ∨
        (PrintableL false is' ∧ mistakesL false is' ≠ [] ∧ macroFn isExpr ts = .errors (mistakesL false is')) ∨
        (PrintableL false is' ∧ mistakesL false is' = [] ∧ ∃ c, macroFn isExpr ts = .code c) := fun _ h => macroFnW h
    refine ⟨⟨?_, fun h => absurd ⟨is, hw⟩ h⟩, ⟨?_, ?_⟩, ⟨?_, ?_⟩, fun es => ⟨?_, ?_⟩⟩
    · intro h
      rcases det is hw with ⟨-, h'⟩ | ⟨-, -, h'⟩ | ⟨-, -, c, h'⟩ <;> rw [h'] at h <;> cases h
    · intro h
      rcases det is hw with ⟨h1, -⟩ | ⟨-, -, h'⟩ | ⟨-, -, c, h'⟩
      · exact ⟨is, hw, h1⟩
      · rw [h'] at h; cases h
      · rw [h'] at h; cases h
    · rintro ⟨is', hw', hn⟩
      rcases det is' hw' with ⟨-, h'⟩ | ⟨h1, -⟩ | ⟨h1, -⟩
      · exact h'
      · exact absurd h1 hn
      · exact absurd h1 hn
    · rintro ⟨c, h⟩
      rcases det is hw with ⟨-, h'⟩ | ⟨-, -, h'⟩ | ⟨h1, h2, -⟩
      · rw [h'] at h; cases h
      · rw [h'] at h; cases h
      · exact ⟨is, hw, h1, h2⟩
    · rintro ⟨is', hw', h1, h2⟩
      rcases det is' hw' with ⟨h', -⟩ | ⟨-, h', -⟩ | ⟨-, -, h'⟩
      · exact absurd h1 h'
      · exact absurd h2 h'
      · exact h'
    · intro h
      rcases det is hw with ⟨-, h'⟩ | ⟨h1, h2, h'⟩ | ⟨-, -, c, h'⟩
      · rw [h'] at h; cases h
      · rw [h'] at h
        cases h
        exact ⟨is, hw, h1, rfl, h2⟩
      · rw [h'] at h; cases h
    · rintro ⟨is', hw', h1, rfl, h2⟩
      exact (C88_all_mistakes isExpr ts is' hw' h1 _ h2).2 rfl
  · have hp : macroFn isExpr ts = .parseError := by
      cases hr : parseRoot isExpr ts with
      | none => simp only [macroFn, hr]
      | some is =>
        obtain ⟨sis, -, h⟩ := itemsW_sound isExpr _ ts is hr
        exact absurd ⟨sis, h⟩ hw
    refine ⟨⟨fun _ => hw, fun _ => hp⟩, ⟨?_, ?_⟩, ⟨?_, ?_⟩, fun es => ⟨?_, ?_⟩⟩
    · intro h; rw [hp] at h; cases h
    · rintro ⟨is, h, -⟩; exact absurd ⟨is, h⟩ hw
    · rintro ⟨c, h⟩; rw [hp] at h; cases h
    · rintro ⟨is, h, -⟩; exact absurd ⟨is, h⟩ hw
    · intro h; rw [hp] at h; cases h
    · rintro ⟨is, h, -⟩; exact absurd ⟨is, h⟩ hw

/-- **C47**, exactly, for all token streams, also those with other mistakes: the macro panics
if and only if the tokens split into declarations, at-rules and blocks and there are braces
inside of the condition of an at-rule or of a selector that has no mistake itself. -/
theorem C47_panics_exactly (isExpr : RExpr → Bool) (ts : List Tree) :
    macroFn isExpr ts = .panic ↔ ∃ is, Written isExpr ts is ∧ ¬ PrintableL false is :=
  (C88_outcome isExpr ts).2.1

/-- **C88**: a sheet of the grammar of C48 is one that is written without mistakes. -/
theorem C88_no_mistakes (isExpr : RExpr → Bool) (ts : List Tree) :
    (∃ is, Sheets isExpr false ts is ∧ BraceFreeL is) ↔
      ∃ is, Written isExpr ts is ∧ PrintableL false is ∧ mistakesL false is = [] := by
  rw [← C48_only_valid, (C88_outcome isExpr ts).2.2.1]

/-- The tokens of `a: (b) c ! f(d ; e); @page { [{}] . 1 {} } .k { x: $; & 1 { y: !; } }`, in
which eight mistakes are found in one go. -/
def wrongSheet : List Tree :=
  [.ident (c! "a") false, .punct ':' false, .group .paren [.ident (c! "b") false], .ident (c! "c") false,
    .punct '!' false, .ident (c! "f") false,
    .group .paren [.ident (c! "d") false, .punct ';' false, .ident (c! "e") false], .punct ';' false,
    .punct '@' false, .ident (c! "page") false,
    .group .brace [.group .bracket [.group .brace []], .punct '.' false, .lit (c! "1") none, .group .brace []],
    .punct '.' false, .ident (c! "k") false,
    .group .brace [.ident (c! "x") false, .punct ':' false, .punct '$' false, .punct ';' false,
      .punct '&' false, .lit (c! "1") none, .group .brace [.ident (c! "y") false, .punct ':' false, .punct '!' false, .punct ';' false]]]

/-- Non-vacuity: all mistakes of `wrongSheet`. -/
example : macroFn (fun _ => true) wrongSheet = .errors
    [.attrBlock (.block .paren [.tok (.ident [.ident (c! "b") false])]), .attrPunct (.tok (.punct '!' false)),
      .attrPunct (.tok (.punct ';' false)), .atRule [.ident (c! "page") false],
      .selBlock (.block .brace []), .selLiteral (.tok (.lit (c! "1") none)),
      .attrPunct (.tok (.punct '$' false)), .nested [.tok (.punct '&' false)]] := by
  with_unfolding_all rfl

/-- Non-vacuity of `C88_all_mistakes`, from `C88_outcome`. -/
example : ∃ is, Written (fun _ => true) wrongSheet is ∧ PrintableL false is ∧ mistakesL false is ≠ [] := by
  obtain ⟨is, h1, h2, h3, h4⟩ := ((C88_outcome (fun _ => true) wrongSheet).2.2.2 _).1
    (by with_unfolding_all rfl : macroFn (fun _ => true) wrongSheet = .errors
    [.attrBlock (.block .paren [.tok (.ident [.ident (c! "b") false])]), .attrPunct (.tok (.punct '!' false)),
      .attrPunct (.tok (.punct ';' false)), .atRule [.ident (c! "page") false],
      .selBlock (.block .brace []), .selLiteral (.tok (.lit (c! "1") none)),
      .attrPunct (.tok (.punct '$' false)), .nested [.tok (.punct '&' false)]])
  exact ⟨is, h1, h2, h3 ▸ h4⟩

/-- What C88 does not say: mistakes in a block that is in a block are only reported once the
outer mistake is repaired. -/
theorem C88_limit_nested :
    macroFn (fun _ => true) [.punct '&' false, .group .brace [.punct '&' false, .group .brace
      [.ident (c! "y") false, .punct ':' false, .punct '!' false, .punct ';' false]]] =
      .errors [.nested [.tok (.punct '&' false)]] := by
  with_unfolding_all rfl

/-- What C88 does not say: a selector without a block, a missing semicolon and an at-rule
that ends with a semicolon hide all mistakes, as the tokens do not split; and so does a
panic (C47). -/
theorem C88_limit_hidden :
    macroFn (fun _ => true) [.ident (c! "y") false, .punct ':' false, .punct '!' false, .punct ';' false,
      .punct '@' false, .ident (c! "media") false, .punct ';' false] = .parseError ∧
    macroFn (fun _ => true) [.ident (c! "y") false, .punct ':' false, .punct '!' false, .punct ';' false,
      .punct '&' false, .punct ';' false] = .parseError ∧
    macroFn (fun _ => true) [.ident (c! "y") false, .punct ':' false, .punct '!' false, .punct ';' false,
      .punct '@' false, .ident (c! "media") false, .group .paren [.group .brace []], .group .brace []] = .panic := by
  with_unfolding_all exact ⟨rfl, rfl, rfl⟩

end Inline
