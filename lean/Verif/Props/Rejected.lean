import Verif.Proofs.Rejected
import Verif.Proofs.Wide
import Verif.Props.Layout
import Verif.Props.Errors

/-!
# Properties of css that is not accepted

C80, and the border of C59.
-/

open Spec Css

/-- **C80.** Css that is well laid out up to some place, and then has an at-rule that is not
supported, a block inside of a block, a block or an at-rule that is never closed, or a brace
that closes nothing, is not accepted, whatever follows. -/
theorem C80_rejected (u e : Str) (s : Sheet) (hu : Layout u s) (h : Broken e ∨ ∃ r, e = '}' :: r) : parse (u ++ e) = none :=
  RejectedP.rejected hu h

/-- **C80.** So such css gives an error wherever a style is created from it, and nothing is
changed. -/
theorem C80_error (u e : Str) (sh : Sheet) (hu : Layout u sh) (h : Broken e ∨ ∃ r, e = '}' :: r) (env : Manager.Env) (d : Dom)
    (ops : List Manager.Op) (mh i : Nat) (hm : (Manager.run env ops (Manager.St.init d)).mgrOf mh = some i)
    (kind : Manager.Kind) (fault : Bool) :
    Manager.step env (.create mh kind (.text (u ++ e)) fault) (Manager.run env ops (Manager.St.init d)) =
      (Manager.run env ops (Manager.St.init d), .err .parse) := by
  have hp := C80_rejected u e sh hu h
  obtain ⟨h1, h2⟩ := Manager.C76_parse env d ops _ rfl mh i kind (.text (u ++ e)) fault hm
  have h3 := h1.2 ⟨_, rfl, hp⟩
  exact Prod.ext (h2 h3) h3

/-- **C80.** In particular an at-rule at the beginning must be one of the four that are
supported, with a space after its name. -/
theorem C80_at_rules (r : Str) (s : Sheet) (h : parse ('@' :: r) = some s) :
    ∃ n ∈ conditionalNames ++ [c! "@keyframes"], n ++ c! " " <+: '@' :: r := by
  refine Classical.byContradiction fun hn => ?_
  have := C80_rejected [] ('@' :: r) [] (.nil _ .nil) (.inl (.atRule _ ⟨⟨r, rfl⟩, fun n hm hp => hn ⟨n, hm, hp⟩⟩))
  rw [List.nil_append, h] at this
  cases this

/-- The hypotheses are met: everything of `layoutShort`, and then a rule that is not supported. -/
example : parse (layoutShort ++ c! "@font-face { src: x; }") = none :=
  C80_rejected _ _ _ layoutShort_ok (.inl (.atRule _ ⟨⟨_, rfl⟩, by decide⟩))

/-- Creating a style from it, in a state with styles on the page. -/
example : Manager.step Manager.demoEnv (.create 0 .scoped (.text (layoutShort ++ c! "@font-face { src: x; }")) false) Manager.demoState =
    (Manager.demoState, .err .parse) :=
  C80_error _ _ _ layoutShort_ok (.inl (.atRule _ ⟨⟨_, rfl⟩, by decide⟩)) Manager.demoEnv Manager.demoPage Manager.demoOps 0 0
    (by decide) .scoped false

/-- And one brace too many. -/
example : parse (layoutShort ++ c! "} .b { top: 0; }") = none := C80_rejected _ _ _ layoutShort_ok (.inr ⟨_, rfl⟩)

theorem ok_top : ∀ d ∈ [(⟨[], c! "top", [], [], c! "0", []⟩ : DeclSrc)], d.Ok := by
  intro d hd
  simp only [List.mem_cons, List.not_mem_nil, or_false] at hd
  subst hd
  exact ok_decl _ _ _ _ _ _ .nil (by decide) (by decide) .nil .nil (by decide) (by decide) (by decide) .nil

theorem ok_b (sel : Str) (h1 : SelText sel) (h2 : NonBlank sel) : ∀ s ∈ [(⟨[], sel⟩ : SelSrc)], s.Ok := by
  intro d hd
  simp only [List.mem_cons, List.not_mem_nil, or_false] at hd
  subst hd
  exact ⟨.nil, h1, h2⟩

/-- And, in an at-rule that is open, a block that is open. -/
example : parse (layoutShort ++ c! "@media print{.b{top:0;") = none := by
  refine C80_rejected _ _ _ layoutShort_ok (.inl ?_)
  refine Broken.inRule ⟨[], c! "@media", c! "print"⟩ [] [] (c! ".b{top:0;") ⟨.nil, by decide, by decide, by decide, by decide⟩ (.nil _ .nil) ?_
  refine Broken.inBlock [⟨[], c! ".b"⟩] (c! "top:0;") (by simp) (ok_b _ (by decide) (by decide)) ?_
    (no_decl (w := []) (by simp) rfl (by decide) (by decide))
  exact BrokenBody.here [⟨[], c! "top", [], [], c! "0", []⟩] [] [] ok_top .nil (.inl rfl)

/-- And a block inside of a block, which is in an at-rule there. -/
example : parse (layoutShort ++ c! ".b{top:0;@media print{top:0;&:hover{left:1;}}}") = none := by
  refine C80_rejected _ _ _ layoutShort_ok (.inl ?_)
  refine Broken.inBlock [⟨[], c! ".b"⟩] (c! "top:0;@media print{top:0;&:hover{left:1;}}}") (by simp) (ok_b _ (by decide) (by decide)) ?_
    (no_decl (w := []) (by simp) rfl (by decide) (by decide))
  refine BrokenBody.inside [⟨[], c! "top", [], [], c! "0", []⟩] ⟨[], c! "@media", c! "print"⟩ (c! "top:0;&:hover{left:1;}}}") ok_top
    ⟨.nil, by decide, by decide, by decide, by decide⟩ ?_
  refine BrokenBody.here [⟨[], c! "top", [], [], c! "0", []⟩] [] (c! "&:hover{left:1;}}}") ok_top .nil (.inr (.inr ?_))
  exact ⟨[⟨[], c! "&:hover"⟩], c! "left:1;}}}", by simp, ok_b _ (by decide) (by decide), by decide,
    no_decl (w := []) (by simp) rfl (by decide) (by decide)⟩

/-- And an animation whose second frame is open. -/
example : parse (layoutShort ++ c! "@keyframes x{from{top:0;}to{top:0;") = none := by
  refine C80_rejected _ _ _ layoutShort_ok (.inl ?_)
  refine Broken.inKeyframes ⟨[], c! "@keyframes", c! "x"⟩ (c! "from{top:0;}to{top:0;") ⟨.nil, by decide, by decide, by decide, by decide⟩ ?_
  refine BrokenFrames.after [] (c! "from") [] (c! "top:0;") (c! "to{top:0;") [.attr (c! "top") [c! "0"]] .nil (by decide) (by decide)
    (by simp) ?_ (by simp) ?_
  · exact BodyLayout.decl ⟨[], c! "top", [], [], c! "0", []⟩ [] [] (ok_top _ (by simp)) (.nil _ .nil)
  · refine BrokenFrames.inside [] (c! "to") [] (c! "top:0;") .nil (by decide) (by decide) (by simp) ?_
    exact BrokenBody.here [⟨[], c! "top", [], [], c! "0", []⟩] [] [] ok_top .nil (.inl rfl)

/-- **C80, limit.** Without a space after the name a supported at-rule is not supported either,
although it is css. -/
theorem C80_limit_space : parse (c! "@media(min-width:1px){top:0;}") = none ∧
    parse (c! "@media (min-width:1px){top:0;}") = some [.rule [c! "@media ", c! "(min-width:1px)"] [.block [] [.attr (c! "top") [c! "0"]]]] := by
  refine ⟨?_, by decide +kernel⟩
  exact C80_rejected [] _ [] (.nil _ .nil) (.inl (.atRule _ ⟨⟨_, rfl⟩, by decide⟩))

/-- **C80, limit.** Brackets are not blocks: one that is never closed is accepted in a value and
in a selector. -/
theorem C80_limit_brackets : parse (c! "width:calc(1px;") = some [.block [] [.attr (c! "width") [c! "calc(1px"]]] ∧
    (parse (c! ".a:not(.b{top:0;}")).isSome := by
  decide +kernel

/-! ## The border of C59 -/

/-- **C59.** The condition of `C59_layout_partial` is exact: css in any layout, blanks between
braces included, is read as the sheet it is written for, except if there are blanks and nothing
else between the braces of an at-rule in a block, of a frame or of an animation (at any place and
depth); then it is not accepted. -/
theorem C59_exactly (f : Bool) (css : Str) (s : Sheet) (h : WideLayout f css s) : parse css = if f then none else some s :=
  WideP.wide_parse h

/-- The texts without such braces are those of `C59_layout_partial`. -/
theorem C59_exactly_layouts (css : Str) (s : Sheet) : WideLayout false css s ↔ Layout css s :=
  ⟨fun h => (WideP.wide_layout h).1 rfl, WideP.layout_wide⟩

/-- **C59.** So two layouts of one sheet are read in the same way if and only if both or neither of
them have such braces. -/
theorem C59_exactly_same (f g : Bool) (css₁ css₂ : Str) (s : Sheet) (h₁ : WideLayout f css₁ s) (h₂ : WideLayout g css₂ s) :
    parse css₁ = parse css₂ ↔ f = g := by
  rw [C59_exactly f css₁ s h₁, C59_exactly g css₂ s h₂]
  cases f <;> cases g <;> simp

/-- Blanks between the braces of a block, of an at-rule at the top, and of an at-rule in a block
behind a declaration; without the last ones the text is accepted. -/
def wideText (w : Str) : Str := c! ".a{ }@supports (x){\n}.b{top:0;@media print{" ++ w ++ c! "}}"

/-- Its sheet. -/
def wideSheet : Sheet :=
  [ .block [[c! ".a"]] [], .rule [c! "@supports ", c! "(x)"] [],
    .block [[c! ".b"]] [.attr (c! "top") [c! "0"], .rule [c! "@media ", c! "print"] []] ]

theorem wideText_ok (w : Str) (hw : Blank w) : WideLayout (onlyBlanks w []) (wideText w) wideSheet := by
  have h1 : WideBody (onlyBlanks w []) (c! "top:0;@media print{" ++ w ++ c! "}") [.attr (c! "top") [c! "0"], .rule [c! "@media ", c! "print"] []] := by
    have h := WideBody.decl _ ⟨[], c! "top", [], [], c! "0", []⟩ _ _ (ok_top _ (by simp))
      (WideBody.rule false false ⟨[], c! "@media", c! "print"⟩ w [] [] [] ⟨.nil, by decide, by decide, by decide, by decide⟩
        (.nil w hw) (.nil _ .nil))
    simpa [DeclSrc.text, DeclSrc.bare, AtSrc.text, AtSrc.value, show Str.trim (c! "print") = c! "print" by decide] using h
  have h2 := WideLayout.block false _ [⟨[], c! ".a"⟩] (c! " ") _ [] _ (by simp)
    (ok_b _ (by decide) (by decide)) (.nil _ (blankWs _ (by decide)))
    (WideLayout.rule false _ ⟨[], c! "@supports", c! "(x)"⟩ (c! "\n") _ [] _ ⟨.nil, by decide, by decide, by decide, by decide⟩
      (.nil _ (blankWs _ (by decide)))
      (WideLayout.block _ false [⟨[], c! ".b"⟩] _ [] _ [] (by simp) (ok_b _ (by decide) (by decide)) h1 (.nil _ .nil)))
  simpa [wideText, wideSheet, AtSrc.text, AtSrc.value, selsText, Str.join, show Str.trim (c! ".a") = c! ".a" by decide,
    show Str.trim (c! ".b") = c! ".b" by decide, show Str.trim (c! "(x)") = c! "(x)" by decide] using h2

/-- The hypotheses are met by an accepted text and by one that is not. -/
example : parse (wideText []) = some wideSheet ∧ parse (wideText (c! " /* todo */ ")) = none :=
  ⟨C59_exactly _ _ _ (wideText_ok _ .nil),
    C59_exactly _ _ _ (wideText_ok _ (blankComment (c! " ") (c! " todo ") (c! " ") (by decide) (by decide) (by decide)))⟩
