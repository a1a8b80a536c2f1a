import Verif.Proofs.Reparse

/-!
# Properties of printing followed by parsing

C15, and the parts of C16 and C55 that hold.
-/

open Spec Css

/-! ## C15: round trip -/

/-- **C15.** The text generated from a clean sheet parses, and the sheet it parses to
has, rendered as it stands, the same declarations under the same conditions and the
same `@keyframes`. -/
theorem C15_roundtrip (s : Sheet) (cls : Option Str) (hs : CleanSheet s)
    (hc : ∀ c ∈ cls, CleanClass c) :
    ∃ s', parse (s.toStyleStr cls) = some s' ∧ decls none s' = decls cls s ∧
      Spec.keyframes none s' = Spec.keyframes cls s := by
  obtain ⟨gs, h1, h2, h3, h4⟩ := GroupsP.sheet_groups hs hc
  obtain ⟨s', e1, e2, e3, -⟩ := ReparseP.groups_parse h2
  exact ⟨s', by rw [h1]; exact e1, by rw [e2, h3], by rw [e3, h4]⟩

/-- **C15, fixpoint.** The text generated from a clean sheet is a fixpoint of parsing and
rendering: the sheet read back from it renders, as it stands, to the very same text. -/
theorem C15_fixpoint (s : Sheet) (cls : Option Str) (hs : CleanSheet s)
    (hc : ∀ c ∈ cls, CleanClass c) :
    ∃ s', parse (s.toStyleStr cls) = some s' ∧ s'.toStyleStr none = s.toStyleStr cls := by
  obtain ⟨gs, h1, h2, -⟩ := GroupsP.sheet_groups hs hc
  obtain ⟨s', e1, -, -, e4⟩ := ReparseP.groups_parse h2
  exact ⟨s', by rw [h1]; exact e1, by rw [h1, e4]⟩

/-- A sheet with declarations before and after a nested at-rule, several selectors, a
string with structural characters, and keyframes inside of an at-rule. -/
def roundtripExample : Sheet :=
  [ .block [[c! "&:hover"], [c! "a[b=\"{;,\"]"]]
      [.attr (c! "color") [c! "red"], .rule [c! "@media ", c! "print"] [.attr (c! "k") [c! "1/2"]],
       .attr (c! "top") [c! "0"]],
    .block [] [.attr (c! "color") [c! "blue"]],
    .rule [c! "@media ", c! "(a)"]
      [.rule [c! "@keyframes ", c! "m"] [.rule [c! "0%, 50%"] [.attr (c! "left") [c! "0"]]]] ]

theorem roundtripExample_clean : CleanSheet roundtripExample := by
  have decl : ∀ k v : Str, Ident k ∧ Str.trim k = k ∧ v ≠ [] ∧ Str.trim v = v →
      (∀ c ∈ v, c ∉ (c! "${;}/\"")) → CleanItem (.attr k [v]) := by
    intro k v h hv
    refine .attr k [v] ⟨h.1, h.2.1, ?_, by simpa using h.2.2.1, by simpa using h.2.2.2⟩
    simp only [List.flatten_cons, List.flatten_nil, List.append_nil]
    clear h
    induction v with
    | nil => exact .nil
    | cons c t ih => exact .char c t (hv c (by simp)) (ih (fun d hd => hv d (by simp [hd])))
  intro x hx
  simp only [roundtripExample, List.mem_cons, List.not_mem_nil, or_false] at hx
  rcases hx with rfl | rfl | rfl
  · refine .block _ _ ?_ ?_
    · intro s hs
      simp only [List.mem_cons, List.not_mem_nil, or_false] at hs
      rcases hs with rfl | rfl
      · exact ⟨by decide, by decide, by decide⟩
      · exact ⟨by decide, by decide, by decide⟩
    · intro y hy
      simp only [List.mem_cons, List.not_mem_nil, or_false] at hy
      rcases hy with rfl | rfl | rfl
      · exact decl _ _ (by decide) (by decide)
      · refine .rule _ _ ⟨c! "@media", by decide, c! "print", by decide, by decide, by decide, by decide⟩ ?_
        intro z hz
        simp only [List.mem_cons, List.not_mem_nil, or_false] at hz
        subst hz
        exact .attr _ _ ⟨by decide, by decide, .char '1' _ (by decide) (.slash '2' [] (by decide) .nil),
          by decide, by decide⟩
      · exact decl _ _ (by decide) (by decide)
  · refine .block _ _ (by simp) ?_
    intro y hy
    simp only [List.mem_cons, List.not_mem_nil, or_false] at hy
    subst hy
    exact decl _ _ (by decide) (by decide)
  · refine .rule _ _ ⟨c! "@media", by decide, c! "(a)", by decide, by decide, by decide, by decide⟩ ?_
    intro y hy
    simp only [List.mem_cons, List.not_mem_nil, or_false] at hy
    subst hy
    refine .keyframes _ _ ⟨c! "@keyframes", by decide, c! "m", by decide, by decide, by decide, by decide⟩ ?_
      ⟨[c! "0%, 50%"], c! "left", [c! "0"], [], by simp⟩
    intro z hz
    simp only [List.mem_cons, List.not_mem_nil, or_false] at hz
    subst hz
    refine ⟨_, _, rfl, ⟨[c! "0%", c! " 50%"], by decide, by decide, by decide, by decide⟩, ?_⟩
    intro w hw
    simp only [List.mem_cons, List.not_mem_nil, or_false] at hw
    subst hw
    exact ⟨_, _, rfl, by decide, by decide, .char '0' _ (by decide) .nil, by decide, by decide⟩

/-- The theorem applies to the example, scoped and global. -/
example : (∃ s', parse (roundtripExample.toStyleStr (some (c! "stylist-x"))) = some s' ∧
      (decls none s').length = 5) ∧
    (∃ s', parse (roundtripExample.toStyleStr none) = some s' ∧ (decls none s').length = 5) := by
  refine ⟨?_, ?_⟩
  · obtain ⟨s', h1, h2, -⟩ := C15_roundtrip roundtripExample (some (c! "stylist-x")) roundtripExample_clean
      (by intro c hc; simp at hc; subst hc; decide)
    exact ⟨s', h1, by rw [h2]; decide⟩
  · obtain ⟨s', h1, h2, -⟩ := C15_roundtrip roundtripExample none roundtripExample_clean (by simp)
    exact ⟨s', h1, by rw [h2]; decide⟩

/-- The fixpoint is met by a sheet that itself is not one: reading its text back gives
another sheet. -/
example : ∃ s', parse (roundtripExample.toStyleStr (some (c! "stylist-x"))) = some s' ∧
    s'.toStyleStr none = roundtripExample.toStyleStr (some (c! "stylist-x")) ∧ s'.length = 5 ∧
    roundtripExample.length = 3 := by
  obtain ⟨s', h1, h2⟩ := C15_fixpoint roundtripExample (some (c! "stylist-x")) roundtripExample_clean
    (by intro c hc; simp at hc; subst hc; decide)
  refine ⟨s', h1, h2, ?_, rfl⟩
  have h3 : (parse (roundtripExample.toStyleStr (some (c! "stylist-x")))).map List.length = some 5 := by
    decide +kernel
  rw [h1] at h3
  simpa using h3

/-! ## C16: rendered styles parse again -/

/-- **C16, partial.** A style string that parses to a clean sheet is accepted again after
rendering (with the same meaning, C15). Missing: strings that parse to other sheets, for
which it is false in general (`C16_false`, `C16_false_value`). -/
theorem C16_partial (css : Str) (s : Sheet) (cls : Option Str) (_ : parse css = some s)
    (hs : CleanSheet s) (hc : ∀ c ∈ cls, CleanClass c) :
    (parse (s.toStyleStr cls)).isSome = true := by
  obtain ⟨s', h, -⟩ := C15_roundtrip s cls hs hc
  rw [h]; rfl

set_option maxRecDepth 8000 in
example : parse (c! "color:blue;@media (a) {@keyframes m {0%, 50% {left:0}}}") = some (roundtripExample.drop 1) ∧
    CleanSheet (roundtripExample.drop 1) :=
  ⟨by decide, fun x hx => roundtripExample_clean x (List.mem_of_mem_drop hx)⟩

/-! ## C55: commas in selector lists -/

/-- **C55, partial.** A block whose selectors contain no comma (outside of double-quoted
strings) is read as exactly these selectors, and exactly its declarations. Missing:
selectors with commas inside parentheses or brackets, for which C55 is false
(`C55_false`). -/
theorem C55_partial (ps : List Str) (hne : ps ≠ []) (hp : ∀ p ∈ ps, SelText p ∧ NonBlank p)
    (ds : List DeclSrc) (hd0 : ds ≠ []) (hd : ∀ d ∈ ds, d.Ok) (w : Str) (hw : Blank w) :
    parse (Str.join (c! ",") ps ++ c! "{" ++ (ds.map DeclSrc.text).flatten ++ w ++ c! "}") =
      some [.block (ps.map (fun p => [Str.trim p])) (ds.map (fun d => .attr d.key [d.value]))] :=
  ReparseP.block_parse hne (fun p h => ⟨HeadersP.selI_of_selText (hp p h).1, (hp p h).2⟩) hd0 hd hw

example : ∃ ps : List Str, Str.join (c! ",") ps = c! "a b , &:hover,c[d=\"x,y\"] " ∧ ps.length = 3 ∧
    ∀ p ∈ ps, SelText p ∧ NonBlank p :=
  ⟨[c! "a b ", c! " &:hover", c! "c[d=\"x,y\"] "], by decide, by decide, by decide⟩
