import Verif.Proofs.Layout
import Verif.Model.Manager

/-!
# Properties of parsing css in any layout

C59 and C60.
-/

open Spec Css

/-! ## C59: layout does not matter -/

/-- **C59, partial.** Css written in any layout is read as the sheet it is written for: white
space and comments between the parts, and the semicolon after the last declaration of a block,
make no difference. Missing: blanks alone between the braces of an at-rule inside of a block,
of a frame or of `@keyframes`, for which it is false. -/
theorem C59_layout_partial (css : Str) (s : Sheet) (h : Layout css s) : parse css = some s :=
  LayoutP.layout_parse h

/-- **C59, partial.** So texts that differ in their layout only give the same style: whatever
happened before, creating a style from one or from the other has the same result and the same
effects. -/
theorem C59_same_style_partial (css₁ css₂ : Str) (sh : Sheet) (h₁ : Layout css₁ sh)
    (h₂ : Layout css₂ sh) (env : Manager.Env) (mh : Nat) (kind : Manager.Kind) (fault : Bool)
    (s : Manager.St) :
    Manager.step env (.create mh kind (.text css₁) fault) s =
      Manager.step env (.create mh kind (.text css₂) fault) s := by
  have e : (Manager.Source.text css₁).sheet? = (Manager.Source.text css₂).sheet? := by
    show parse css₁ = parse css₂
    rw [C59_layout_partial _ _ h₁, C59_layout_partial _ _ h₂]
  show Manager.create env mh kind (.text css₁) fault s = Manager.create env mh kind (.text css₂) fault s
  unfold Manager.create
  rw [e]

/-- A sheet of every kind of part. -/
def layoutSheet : Sheet :=
  [ .block [] [.attr (c! "color") [c! "red"]],
    .block [[c! ".a"], [c! "&:hover"]]
      [.attr (c! "top") [c! "0"], .rule [c! "@media ", c! "print"] [.attr (c! "left") [c! "1"]]],
    .rule [c! "@supports ", c! "(x)"] [.block [[c! ".b"]] []],
    .rule [c! "@keyframes ", c! "m"] [.rule [c! "from, 50%"] [.attr (c! "top") [c! "0"]]] ]

/-- The shortest layout. -/
def layoutShort : Str :=
  c! "color:red;.a,&:hover{top:0;@media print{left:1}}@supports (x){.b{}}@keyframes m{from, 50%{top:0}}"

/-- A layout with blanks and comments in all places. -/
def layoutLong : Str :=
  c! "\n/* { */ color /*;*/ : red /* x */ ;\n\n.a ,\n &:hover {\n  top: 0;\n  @media  print {\n    left: 1 ; /**/\n  }\n}\n/* } */\n@supports (x) {\n  .b { }\n}\n@keyframes m {\n  from, 50% { top: 0; }\n}\n"

theorem ok_decl (b k ak bv v a : Str) (h1 : Blank b) (h2 : Ident k) (h3 : Str.trim k = k)
    (h4 : Blank ak) (h5 : Blank bv) (h6 : ∀ c ∈ v, c ∉ (c! "${;}/\"")) (h7 : v ≠ [])
    (h8 : Str.trim v = v) (h9 : Blank a) : DeclSrc.Ok ⟨b, k, ak, bv, v, a⟩ := by
  refine ⟨h1, h2, h3, h4, h5, ?_, h7, h8, h9, ?_⟩
  · have : ∀ v : Str, (∀ c ∈ v, c ∉ (c! "${;}/\"")) → ValueText v := by
      intro v
      induction v with
      | nil => exact fun _ => .nil
      | cons c v ih => exact fun h => .char _ _ (h c (by simp)) (ih (fun d hd => h d (by simp [hd])))
    exact this v h6
  · intro h
    exact absurd (show '"' ∈ (c! "${;}/\"") by decide) (h6 '"' (List.mem_of_getLast? h))

theorem blankWs : ∀ w : Str, (∀ c ∈ w, c ∈ (c! " \t\r\n")) → Blank w := by
  intro w
  induction w with
  | nil => exact fun _ => .nil
  | cons c w ih => exact fun h => .ws _ _ (h c (by simp)) (ih (fun d hd => h d (by simp [hd])))

theorem blankComment (a body b : Str) (ha : ∀ c ∈ a, c ∈ (c! " \t\r\n"))
    (hb : ∀ c ∈ b, c ∈ (c! " \t\r\n")) (h : ¬ (c! "*/") <:+: body) :
    Blank (a ++ (c! "/*" ++ body ++ c! "*/" ++ b)) := by
  induction a with
  | nil => exact .comment body b h (blankWs b hb)
  | cons c w ih => exact .ws _ _ (ha c (by simp)) (ih (fun d hd => ha d (by simp [hd])))

theorem no_decl {u : Str} {c : Char} {w t : Str} (hw : ∀ c ∈ w, c ∈ (c! " \t\r\n"))
    (e : u = w ++ c :: t) (hc : isIdentChar c = false) (hs : c ∉ (c! " \t\r\n/")) : ¬ StartsLikeDecl u := by
  have key : ∀ b : Str, Blank b → ∀ w : Str, (∀ c ∈ w, c ∈ (c! " \t\r\n")) → ∀ k x : Str, Ident k →
      w ++ c :: t ≠ b ++ (k ++ x) := by
    intro b hb
    induction hb with
    | nil =>
      intro w hw k x hk h
      cases k with
      | nil => exact hk
      | cons d k =>
        cases w with
        | nil =>
          simp only [List.nil_append, List.cons_append, List.cons.injEq] at h
          rw [h.1, hk.1] at hc; cases hc
        | cons y w =>
          simp only [List.nil_append, List.cons_append, List.cons.injEq] at h
          have := hw y (by simp)
          have hd := hk.1
          rw [← h.1] at hd
          simp only [List.mem_cons, List.not_mem_nil, or_false] at this
          rcases this with rfl | rfl | rfl | rfl <;> exact absurd hd (by decide)
    | ws d b hd _ ih =>
      intro w hw k x hk h
      cases w with
      | nil =>
        simp only [List.nil_append, List.cons_append, List.cons.injEq] at h
        rw [h.1] at hs
        exact hs (by simp only [List.mem_cons, List.not_mem_nil, or_false] at hd ⊢; grind)
      | cons y w =>
        simp only [List.cons_append, List.cons.injEq] at h
        exact ih w (fun d hd => hw d (by simp [hd])) k x hk h.2
    | comment body b _ _ _ =>
      intro w hw k x hk h
      cases w with
      | nil =>
        simp only [List.nil_append, List.cons_append, List.cons.injEq] at h
        rw [h.1] at hs
        exact hs (by decide)
      | cons y w =>
        simp only [List.cons_append, List.cons.injEq] at h
        have := hw y (by simp)
        rw [h.1] at this
        exact absurd this (by decide)
  rintro ⟨b, k, b', x, hb, hk, -, h⟩
  exact key b hb w hw k (b' ++ ':' :: x) hk (by rw [← e, h]; simp)

theorem layoutShort_ok : Layout layoutShort layoutSheet := by
  refine Layout.decls [⟨[], c! "color", [], [], c! "red", []⟩]
    (c! ".a,&:hover{top:0;@media print{left:1}}@supports (x){.b{}}@keyframes m{from, 50%{top:0}}") _
    (by simp) (by
      intro d hd
      simp only [List.mem_cons, List.not_mem_nil, or_false] at hd
      subst hd
      exact ok_decl _ _ _ _ _ _ .nil (by decide) (by decide) .nil .nil (by decide) (by decide) (by decide) .nil)
    (no_decl (w := []) (by simp) rfl (by decide) (by decide)) ?_
  refine Layout.block [⟨[], c! ".a"⟩, ⟨[], c! "&:hover"⟩] (c! "top:0;@media print{left:1}")
    (c! "@supports (x){.b{}}@keyframes m{from, 50%{top:0}}") _ _ (by simp) (by
      intro d hd
      simp only [List.mem_cons, List.not_mem_nil, or_false] at hd
      rcases hd with rfl | rfl <;> exact ⟨.nil, by decide, by decide⟩) ?_ ?_
  · refine BodyLayout.decl ⟨[], c! "top", [], [], c! "0", []⟩ (c! "@media print{left:1}") _
      (ok_decl _ _ _ _ _ _ .nil (by decide) (by decide) .nil .nil (by decide) (by decide) (by decide) .nil) ?_
    refine BodyLayout.rule ⟨[], c! "@media", c! "print"⟩ (c! "left:1") [] _ _
      ⟨.nil, by decide, by decide, by decide, by decide⟩ ?_ (Or.inr (by decide)) (.nil _ .nil)
    exact BodyLayout.last ⟨[], c! "left", [], [], c! "1", []⟩
      (ok_decl _ _ _ _ _ _ .nil (by decide) (by decide) .nil .nil (by decide) (by decide) (by decide) .nil)
  refine Layout.rule ⟨[], c! "@supports", c! "(x)"⟩ (c! ".b{}") (c! "@keyframes m{from, 50%{top:0}}")
    [.block [[c! ".b"]] []] _ ⟨.nil, by decide, by decide, by decide, by decide⟩ ?_ ?_
  · exact Layout.block [⟨[], c! ".b"⟩] [] [] _ _ (by simp) (by
      intro d hd
      simp only [List.mem_cons, List.not_mem_nil, or_false] at hd
      subst hd
      exact ⟨.nil, by decide, by decide⟩) (.nil _ .nil) (.nil _ .nil)
  refine Layout.keyframes ⟨[], c! "@keyframes", c! "m"⟩ (c! "from, 50%{top:0}") [] _ _
    ⟨.nil, by decide, by decide, by decide, by decide⟩ ?_ (Or.inr (by decide)) (.nil _ .nil)
  refine FramesLayout.frame [] (c! "from") [⟨c! " ", c! "50%"⟩] (c! "top:0") [] _ _ .nil (by decide) (by decide) (by
      intro d hd
      simp only [List.mem_cons, List.not_mem_nil, or_false] at hd
      subst hd
      exact ⟨blankWs _ (by decide), by decide, by decide⟩) ?_ (Or.inr (by decide)) (.nil _ .nil)
  exact BodyLayout.last ⟨[], c! "top", [], [], c! "0", []⟩
    (ok_decl _ _ _ _ _ _ .nil (by decide) (by decide) .nil .nil (by decide) (by decide) (by decide) .nil)

theorem layoutLong_ok : Layout layoutLong layoutSheet := by
  refine Layout.decls [⟨c! "\n/* { */ ", c! "color", c! " /*;*/ ", c! " ", c! "red", c! " /* x */ "⟩]
    (c! "\n\n.a ,\n &:hover {\n  top: 0;\n  @media  print {\n    left: 1 ; /**/\n  }\n}\n/* } */\n@supports (x) {\n  .b { }\n}\n@keyframes m {\n  from, 50% { top: 0; }\n}\n") _
    (by simp) (by
      intro d hd
      simp only [List.mem_cons, List.not_mem_nil, or_false] at hd
      subst hd
      exact ok_decl _ _ _ _ _ _ (blankComment (c! "\n") (c! " { ") (c! " ") (by decide) (by decide) (by decide))
        (by decide) (by decide) (blankComment (c! " ") (c! ";") (c! " ") (by decide) (by decide) (by decide))
        (blankWs _ (by decide)) (by decide) (by decide) (by decide)
        (blankComment (c! " ") (c! " x ") (c! " ") (by decide) (by decide) (by decide)))
    (no_decl (w := c! "\n\n") (by decide) rfl (by decide) (by decide)) ?_
  refine Layout.block [⟨c! "\n\n", c! ".a "⟩, ⟨c! "\n ", c! "&:hover "⟩]
    (c! "\n  top: 0;\n  @media  print {\n    left: 1 ; /**/\n  }\n")
    (c! "\n/* } */\n@supports (x) {\n  .b { }\n}\n@keyframes m {\n  from, 50% { top: 0; }\n}\n") _ _ (by simp) (by
      intro d hd
      simp only [List.mem_cons, List.not_mem_nil, or_false] at hd
      rcases hd with rfl | rfl <;> exact ⟨blankWs _ (by decide), by decide, by decide⟩) ?_ ?_
  · refine BodyLayout.decl ⟨c! "\n  ", c! "top", [], c! " ", c! "0", []⟩
      (c! "\n  @media  print {\n    left: 1 ; /**/\n  }\n") _
      (ok_decl _ _ _ _ _ _ (blankWs _ (by decide)) (by decide) (by decide) .nil (blankWs _ (by decide))
        (by decide) (by decide) (by decide) .nil) ?_
    refine BodyLayout.rule ⟨c! "\n  ", c! "@media", c! " print "⟩ (c! "\n    left: 1 ; /**/\n  ") (c! "\n") _ _
      ⟨blankWs _ (by decide), by decide, by decide, by decide, by decide⟩ ?_ (Or.inr (by simp))
      (.nil _ (blankWs _ (by decide)))
    refine BodyLayout.decl ⟨c! "\n    ", c! "left", [], c! " ", c! "1", c! " "⟩ (c! " /**/\n  ") _
      (ok_decl _ _ _ _ _ _ (blankWs _ (by decide)) (by decide) (by decide) .nil (blankWs _ (by decide))
        (by decide) (by decide) (by decide) (blankWs _ (by decide))) ?_
    exact .nil _ (blankComment (c! " ") [] (c! "\n  ") (by decide) (by decide) (by decide))
  refine Layout.rule ⟨c! "\n/* } */\n", c! "@supports", c! "(x) "⟩ (c! "\n  .b { }\n")
    (c! "\n@keyframes m {\n  from, 50% { top: 0; }\n}\n")
    [.block [[c! ".b"]] []] _ ⟨blankComment (c! "\n") (c! " } ") (c! "\n") (by decide) (by decide) (by decide),
      by decide, by decide, by decide, by decide⟩ ?_ ?_
  · exact Layout.block [⟨c! "\n  ", c! ".b "⟩] (c! " ") (c! "\n") _ _ (by simp) (by
      intro d hd
      simp only [List.mem_cons, List.not_mem_nil, or_false] at hd
      subst hd
      exact ⟨blankWs _ (by decide), by decide, by decide⟩) (.nil _ (blankWs _ (by decide)))
      (.nil _ (blankWs _ (by decide)))
  refine Layout.keyframes ⟨c! "\n", c! "@keyframes", c! "m "⟩ (c! "\n  from, 50% { top: 0; }\n") (c! "\n") _ _
    ⟨blankWs _ (by decide), by decide, by decide, by decide, by decide⟩ ?_ (Or.inr (by simp))
    (.nil _ (blankWs _ (by decide)))
  refine FramesLayout.frame (c! "\n  ") (c! "from") [⟨c! " ", c! "50% "⟩] (c! " top: 0; ") (c! "\n") _ _
    (blankWs _ (by decide)) (by decide) (by decide) (by
      intro d hd
      simp only [List.mem_cons, List.not_mem_nil, or_false] at hd
      subst hd
      exact ⟨blankWs _ (by decide), by decide, by decide⟩) ?_ (Or.inr (by simp)) (.nil _ (blankWs _ (by decide)))
  exact BodyLayout.decl ⟨c! " ", c! "top", [], c! " ", c! "0", []⟩ (c! " ") _
    (ok_decl _ _ _ _ _ _ (blankWs _ (by decide)) (by decide) (by decide) .nil (blankWs _ (by decide))
      (by decide) (by decide) (by decide) .nil) (.nil _ (blankWs _ (by decide)))

/-- Both texts are read as the same sheet. -/
example : parse layoutShort = some layoutSheet ∧ parse layoutLong = some layoutSheet :=
  ⟨C59_layout_partial _ _ layoutShort_ok, C59_layout_partial _ _ layoutLong_ok⟩

/-- **C59 is false.** A space between the braces of an at-rule in a block, of a frame or of an
animation makes parsing fail, while it is allowed between the braces of a block and of an
at-rule at the top. -/
theorem C59_false :
    (parse (c! ".a{@media x{}}")).isSome = true ∧ parse (c! ".a{@media x{ }}") = none ∧
    (parse (c! "@keyframes m{from{}}")).isSome = true ∧ parse (c! "@keyframes m{from{ }}") = none ∧
    (parse (c! "@keyframes m{}")).isSome = true ∧ parse (c! "@keyframes m{ }") = none ∧
    (parse (c! ".a{ }")).isSome = true ∧ (parse (c! "@media x{ }")).isSome = true := by decide

/-- The last semicolon is optional in a block but not in an at-rule at the top, and no
semicolon may stand alone. -/
theorem C59_limit_semicolons :
    (parse (c! ".a{b:c}")).isSome = true ∧ parse (c! "@media x{b:c}") = none ∧
    (parse (c! "@media x{b:c;}")).isSome = true ∧ parse (c! "b:c") = none ∧
    parse (c! ".a{b:c;;}") = none := by decide

/-- The space after the name of an at-rule is needed. -/
theorem C59_limit_space :
    (parse (c! "@media (x){b:c;}")).isSome = true ∧ parse (c! "@media(x){b:c;}") = none := by decide

/-! ## C60: declarations outside of blocks -/

/-- **C60 is false.** Declarations followed by a block for a type selector with a
pseudo-class become a part of the selector of the block. -/
theorem C60_false : parse (c! "color: red; p:hover { top: 0; }") =
    some [.block [[c! "color: red; p:hover"]] [.attr (c! "top") [c! "0"]]] := by decide

/-- The declaration is lost, and the selector of the generated block is no selector. -/
theorem C60_false_rendered :
    (parse (c! "color: red; p:hover { top: 0; }")).map (fun s => s.toStyleStr (some (c! "k"))) =
      some (c! ".k color: red; p:hover {\n    top: 0;\n}\n") := by decide

/-- It is false for all declarations and for every block whose selector is an identifier, a
colon and a text that could be a value: the sheet does not begin with a block for the element
itself. -/
theorem C60_false_selectors (ds : List DeclSrc) (d : DeclSrc) (u : Str) (h : ∀ d ∈ ds, d.Ok) (hd : d.Ok)
    (content : List RBC) (rest : Sheet) :
    parse ((ds.map DeclSrc.text).flatten ++ d.bare ++ c! "{" ++ u) ≠ some (.block [] content :: rest) := by
  have := DeclsP.open_lost h hd u (content := content) (rest := rest)
  simpa using this

/-- Selectors of this form. -/
example : (∃ d : DeclSrc, d.Ok ∧ d.bare = c! "p:hover ") ∧ ∃ d : DeclSrc, d.Ok ∧ d.bare = c! "a::after > b" :=
  ⟨⟨⟨[], c! "p", [], [], c! "hover", c! " "⟩, ok_decl _ _ _ _ _ _ .nil (by decide) (by decide) .nil .nil
      (by decide) (by decide) (by decide) (blankWs _ (by decide)), rfl⟩,
   ⟨⟨[], c! "a", [], [], c! ":after > b", []⟩, ok_decl _ _ _ _ _ _ .nil (by decide) (by decide) .nil .nil
      (by decide) (by decide) (by decide) .nil, rfl⟩⟩

/-- **C60, partial.** Declarations outside of blocks are kept, in order, as one block for the
element itself, and what follows them is read as it is without them, if it does not begin
with an identifier and a colon. Missing: texts that do, for which it is false. -/
theorem C60_declarations_partial (ds : List DeclSrc) (u : Str) (rest : Sheet) (hne : ds ≠ [])
    (h : ∀ d ∈ ds, d.Ok) (hu : Layout u rest) (hd : ¬ StartsLikeDecl u) :
    parse u = some rest ∧
    parse ((ds.map DeclSrc.text).flatten ++ u) =
      some (.block [] (ds.map (fun d => .attr d.key [d.value])) :: rest) :=
  ⟨C59_layout_partial _ _ hu, C59_layout_partial _ _ (.decls ds u rest hne h hd hu)⟩

/-- A class with a pseudo-class after a declaration. -/
example : Layout (c! ".p:hover{}") [.block [[c! ".p:hover"]] []] ∧ ¬ StartsLikeDecl (c! ".p:hover{}") :=
  ⟨Layout.block [⟨[], c! ".p:hover"⟩] [] [] _ _ (by simp) (by
      intro d hd
      simp only [List.mem_cons, List.not_mem_nil, or_false] at hd
      subst hd
      exact ⟨.nil, by decide, by decide⟩) (.nil _ .nil) (.nil _ .nil),
   no_decl (w := []) (by simp) rfl (by decide) (by decide)⟩
