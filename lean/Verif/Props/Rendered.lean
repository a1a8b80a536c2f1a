import Verif.Proofs.Filled
import Verif.Proofs.Hollow
import Verif.Props.Layout
import Verif.Props.Roundtrip

/-!
# Css as it is written, after rendering

C16.
-/

open Spec Css

/-- **C16, partial**, for css as it is written. Css in any layout, in which no selector is
white space only and animations have a frame with a declaration (and in their frames no
at-rules, and no comments between the steps), is parsed and is accepted again after
rendering. What is read then has the same declarations, in the same order and under the same
conditions, and renders to the same text. Missing: css that is not of this form, for which it
is false in general (`C16_false`, `C16_false_value`). -/
theorem C16_written_partial (css : Str) (s : Sheet) (cls : Option Str) (h : Layout css s) (hf : FilledSheet s)
    (hc : ∀ c ∈ cls, CleanClass c) :
    parse css = some s ∧ ∃ s', parse (s.toStyleStr cls) = some s' ∧ decls none s' = decls cls s ∧
      s'.toStyleStr none = s.toStyleStr cls := by
  have hs := FilledP.clean_layout h hf
  obtain ⟨s1, h1, h2, -⟩ := C15_roundtrip s cls hs hc
  obtain ⟨s2, h3, h4⟩ := C15_fixpoint s cls hs hc
  rw [h1] at h3
  cases h3
  exact ⟨C59_layout_partial _ _ h, s1, h1, h2, h4⟩

/-- Non-vacuity: a sheet with all kinds of parts; `layoutShort` and `layoutLong` are layouts
of it. -/
example : FilledSheet layoutSheet := by
  refine ⟨⟨by simp, trivial, trivial⟩, ⟨by simp, trivial, ⟨fun h => absurd h (by decide), trivial, trivial⟩, trivial⟩,
    ⟨fun h => absurd h (by decide), ⟨by simp, trivial⟩, trivial⟩, ⟨fun _ => ⟨?_, ?_⟩, ⟨fun h => absurd h (by decide), trivial, trivial⟩, trivial⟩, trivial⟩
  · intro x hx
    simp only [List.mem_cons, List.not_mem_nil, or_false] at hx
    subst hx
    refine ⟨_, _, rfl, ⟨[c! "from", c! " 50%"], by simp, by decide, by decide, by decide⟩, ?_⟩
    intro y hy
    simp only [List.mem_cons, List.not_mem_nil, or_false] at hy
    subst hy
    exact ⟨_, _, rfl, by decide, by decide, .char _ _ (by decide) .nil, by simp, by decide⟩
  · exact ⟨_, _, _, _, List.mem_cons_self⟩

/-! ## The border of C16 -/

/-- **C16.** Among the sheets that are clean but for animations without declarations (C15), those
with such an animation, at any place and depth, are exactly those whose text is not accepted again;
with a class name and without. -/
theorem C16_exactly (s : Sheet) (cls : Option Str) (hs : SoundSheet s) (hc : ∀ c ∈ cls, CleanClass c) :
    parse (s.toStyleStr cls) = none ↔ ∃ x ∈ s, EmptyAnimation x.toRBC :=
  HollowP.rendered hs hc

/-- **C16.** For css as it is written: css in any layout, in which no selector is white space only
and frames are plain, is parsed; its text is not accepted again if there is an animation
without declarations, and otherwise it is read as a sheet with the same declarations and the same
text. -/
theorem C16_exactly_written (css : Str) (s : Sheet) (cls : Option Str) (h : Layout css s) (hp : PlainSheet s)
    (hc : ∀ c ∈ cls, CleanClass c) :
    parse css = some s ∧
    ((∃ x ∈ s, EmptyAnimation x.toRBC) → parse (s.toStyleStr cls) = none) ∧
    ((¬ ∃ x ∈ s, EmptyAnimation x.toRBC) → ∃ s', parse (s.toStyleStr cls) = some s' ∧
      decls none s' = decls cls s ∧ s'.toStyleStr none = s.toStyleStr cls) := by
  have hs := HollowP.sound_layout h hp
  refine ⟨C59_layout_partial _ _ h, (C16_exactly s cls hs hc).2, fun he => ?_⟩
  have hs' : CleanSheet s := fun x hx => HollowP.clean_scope (hs x hx) (fun hh => he ⟨x, hx, hh⟩)
  obtain ⟨s1, h1, h2, -⟩ := C15_roundtrip s cls hs' hc
  obtain ⟨s2, h3, h4⟩ := C15_fixpoint s cls hs' hc
  rw [h1] at h3
  cases h3
  exact ⟨s1, h1, h2, h4⟩

/-- An animation with one frame and nothing in it, in an at-rule behind a block. -/
def hollowText : Str := c! ".a{b:c;}@media x{@keyframes m{from{}}}"

/-- Its sheet. -/
def hollowSheet : Sheet :=
  [.block [[c! ".a"]] [.attr (c! "b") [c! "c"]],
   .rule [c! "@media ", c! "x"] [.rule [c! "@keyframes ", c! "m"] [.rule [c! "from"] []]]]

/-- Non-vacuity: it is a layout of this sheet, which is plain and has an empty animation. -/
example : Layout hollowText hollowSheet ∧ PlainSheet hollowSheet ∧ ∃ x ∈ hollowSheet, EmptyAnimation x.toRBC := by
  refine ⟨?_, ?_, ?_⟩
  · have h1 : FramesLayout (c! "from{}") [.rule [c! "from"] []] :=
      .frame [] (c! "from") [] [] [] [] [] .nil (by decide) (by decide) (by simp) (.nil _ .nil) (.inl rfl) (.nil _ .nil)
    have h2 : Layout (c! "@keyframes m{from{}}") [.rule [c! "@keyframes ", c! "m"] [.rule [c! "from"] []]] :=
      .keyframes ⟨[], c! "@keyframes", c! "m"⟩ _ [] _ [] ⟨.nil, by decide, by decide, by decide, by decide⟩ h1 (.inr (by simp)) (.nil _ .nil)
    have h3 : Layout (c! "@media x{@keyframes m{from{}}}") [.rule [c! "@media ", c! "x"] [.rule [c! "@keyframes ", c! "m"] [.rule [c! "from"] []]]] :=
      .rule ⟨[], c! "@media", c! "x"⟩ _ [] _ [] ⟨.nil, by decide, by decide, by decide, by decide⟩ h2 (.nil _ .nil)
    exact .block [⟨[], c! ".a"⟩] (c! "b:c;") _ _ _ (by simp)
      (by intro s hs; simp only [List.mem_singleton] at hs; subst hs; exact ⟨.nil, by decide, by decide⟩)
      (.decl ⟨[], c! "b", [], [], c! "c", []⟩ [] [] ⟨.nil, by decide, by decide, .nil, .nil, .char _ _ (by decide) .nil, by decide, by decide, .nil, by decide⟩ (.nil _ .nil)) h3
  · refine ⟨⟨by decide, trivial, trivial⟩, ⟨fun h => absurd h (by decide), ⟨fun _ => ?_, ⟨fun h => absurd h (by decide), trivial⟩, trivial⟩, trivial⟩, trivial⟩
    intro x hx
    simp only [List.mem_cons, List.not_mem_nil, or_false] at hx
    subst hx
    exact ⟨_, _, rfl, ⟨[c! "from"], by simp, by decide, by decide, by decide⟩, by simp⟩
  · refine ⟨_, List.mem_cons_of_mem _ List.mem_cons_self, .inside _ _ _ ⟨c! "@media", by decide, c! "x", by decide, by decide, by decide, by decide⟩
      List.mem_cons_self (.here _ _ ⟨c! "@keyframes", by decide, c! "m", by decide, by decide, by decide, by decide⟩ ?_)⟩
    intro fc content hm
    simp only [List.mem_cons, List.not_mem_nil, or_false, RBC.rule.injEq] at hm
    exact hm.2

/-- So it is read, and its text is not accepted. -/
example : parse hollowText = some hollowSheet ∧ parse (hollowSheet.toStyleStr (some (c! "k"))) = none := by
  decide +kernel
