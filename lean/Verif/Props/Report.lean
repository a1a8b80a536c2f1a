import Verif.Proofs.Report
import Verif.Props.Rejected

/-!
# Properties of the report of a parse error

C85.
-/

open Spec Css

namespace Report

/-- **C85.** An error is reported for exactly the texts that are not accepted. -/
theorem C85_result (css : Str) (s : Sheet) : parse css = .ok s ↔ Css.parse css = some s := by
  rw [← sheet_ok]
  unfold parse
  cases sheet css with
  | error es => simp
  | ok s' => simp

/-- **C85.** The report names one place of the text: everything in front of it is css, and at
the place there is neither a blank nor the beginning of a whole block or at-rule. The message
gives the number of its line, the line, and a caret below the place; then it gives the
beginning of the text twice. -/
theorem C85_message (css : Str) (errs : List (Str × Kind)) (msg : Str) (h : parse css = .error (errs, msg)) :
    ∃ lines front r s, css = lines ++ front ++ r ∧ LineOf lines front ∧ SheetText (lines ++ front) s ∧
      r ≠ [] ∧ NoBlank r ∧ NoItem r ∧
      errs = [(r, .many0), (css, .context (c! "Trimmed")), (css, .context (c! "StyleSheet"))] ∧
      msg = c! "Failed to Parse CSS, due to:\n" ++
        (caretEntry 0 (lines.count '\n' + 1) (c! "Many0") front r ++
          (caretEntry 1 1 (c! "Trimmed") [] css ++ caretEntry 2 1 (c! "StyleSheet") [] css)) := by
  unfold parse at h
  rcases hs : sheet css with es | s' <;> rw [hs] at h
  · simp only [Except.error.injEq, Prod.mk.injEq] at h
    obtain ⟨rfl, h⟩ := h
    obtain ⟨r, e1, -, hr⟩ := sheet_error hs
    subst e1
    obtain ⟨t, s, e2, ht⟩ := sheet_front hs
    obtain ⟨lines, front, e3, hl⟩ := lastLine t
    subst e3
    refine ⟨lines, front, r, s, e2, hl, ht, hr.ne, noBlank_sp hr.sp, hr.noItem, rfl, ?_⟩
    rw [← h]
    simp only [entries, errorsAt, entry_whole, List.append_nil, Nat.zero_add, Nat.reduceAdd]
    have := entry_eq (r := r) hl 0 .many0
    rw [← e2] at this
    rw [this]
    rfl
  · cases h

/-- **C85.** The text from the place on, taken alone, is refused at its first character. -/
theorem C85_alone (css r : Str) (rest : List (Str × Kind)) (msg : Str) (h : parse css = .error ((r, .many0) :: rest, msg)) :
    ∃ rest' msg', parse r = .error ((r, .many0) :: rest', msg') := by
  unfold parse at h
  rcases hs : sheet css with es | s' <;> rw [hs] at h
  · simp only [Except.error.injEq, Prod.mk.injEq] at h
    obtain ⟨rfl, h⟩ := h
    obtain ⟨r', e1, -, hr⟩ := sheet_error hs
    simp only [errorsAt, List.cons.injEq, Prod.mk.injEq] at e1
    obtain ⟨⟨rfl, -⟩, -⟩ := e1
    refine ⟨(errorsAt r r).tail, c! "Failed to Parse CSS, due to:\n" ++ entries r 0 (errorsAt r r), ?_⟩
    unfold parse
    rw [here_report hr]
    rfl
  · cases h

/-- **C85.** For css that is well laid out up to some thing that is broken, the place is the
beginning of that thing, and what stands before it would have been accepted. -/
theorem C85_broken (u e : Str) (s : Sheet) (hu : Layout u s) (h : Broken e ∨ ∃ r, e = '}' :: r) :
    ∃ w r rest msg, e = w ++ r ∧ Blank w ∧ NoBlank r ∧ parse (u ++ e) = .error ((r, .many0) :: rest, msg) ∧
      parse u = .ok s := by
  obtain ⟨w, hw, he⟩ := GrammarP.spRest_text e
  refine ⟨w, ParserP.spRest e, (errorsAt (u ++ e) []).tail,
    c! "Failed to Parse CSS, due to:\n" ++ entries (u ++ e) 0 (errorsAt (u ++ e) (ParserP.spRest e)), he, hw,
    noBlank_sp (ParserP.spRest_idem e), ?_, ?_⟩
  · unfold parse
    rw [sheet_broken hu h]
    rfl
  · rw [C85_result]
    exact LayoutP.layout_parse hu

/-- The error of a text, if there is one. -/
def refusal (css : Str) : Option (List (Str × Kind) × Str) :=
  match parse css with
  | .error e => some e
  | .ok _ => none

/-- The hypotheses are met: everything of `layoutShort`, and then a rule that is not supported. -/
example : ∃ w r rest msg, c! "@font-face { src: x; }" = w ++ r ∧ Blank w ∧ NoBlank r ∧
    parse (layoutShort ++ c! "@font-face { src: x; }") = .error ((r, .many0) :: rest, msg) ∧
    ∃ s, parse layoutShort = .ok s := by
  obtain ⟨w, r, rest, msg, h1, h2, h3, h4, h5⟩ :=
    C85_broken _ (c! "@font-face { src: x; }") _ layoutShort_ok (.inl (.atRule _ ⟨⟨_, rfl⟩, by decide⟩))
  exact ⟨w, r, rest, msg, h1, h2, h3, h4, _, h5⟩

/-- A whole message. -/
example : refusal (c! "a:b;\n /* é */ @import x;") = some (
    [(c! "@import x;", .many0), (c! "a:b;\n /* é */ @import x;", .context (c! "Trimmed")),
      (c! "a:b;\n /* é */ @import x;", .context (c! "StyleSheet"))],
    c! "Failed to Parse CSS, due to:\n0: at line 2, in Many0:\n /* é */ @import x;\n          ^\n\n1: at line 1, in Trimmed:\na:b;\n^\n\n2: at line 1, in StyleSheet:\na:b;\n^\n\n") := by
  decide +kernel

/-- **C85, limit.** What goes wrong inside of a block or an at-rule is reported at the beginning
of the outermost one, and for a declaration without a semicolon at the first of all the
declarations in front of it: here the errors are in line 4 and in line 3, and the place that is
reported is the beginning of the text. -/
theorem C85_limit_inside :
    (refusal (c! "@media x {\n  .a {\n    b: c;\n    @import d;\n  }\n}")).map (fun e => e.1.head?) =
      some (some (c! "@media x {\n  .a {\n    b: c;\n    @import d;\n  }\n}", .many0)) ∧
    (refusal (c! "a: b;\nc: d;\ne: f\n}")).map (fun e => e.1.head?) =
      some (some (c! "a: b;\nc: d;\ne: f\n}", .many0)) := by
  decide +kernel

/-- **C85, limit.** A mistake need not be found where it is made: a declaration without a
semicolon in front of a block is read as a part of the selector of that block. -/
theorem C85_limit_selector : refusal (c! "a: b;\nc: d\n.g { h: i; }") = none := by decide +kernel

end Report
