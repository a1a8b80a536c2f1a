import Verif.Proofs.Join
import Verif.Proofs.Swallow
import Verif.Props.Layout
import Verif.Props.Browser

/-!
# Css texts one after the other

C87, and C60 exactly.
-/

open Spec Css

/-- **C87, partial.** Two css texts, in any layout. The text made of one after the other is
accepted, and its declarations and animations are those of the first followed by those of the
second, for every class. The texts may meet in loose declarations (which are then one run).
Missing: a first text that ends in loose declarations and a second one that begins with an
identifier and a colon without being a declaration, for which it is false. -/
theorem C87_one_after_the_other_partial (u v : Str) (s t : Sheet) (hu : Layout u s) (hv : Layout v t)
    (h : StartsLikeDecl v → (∃ content s', s = s' ++ [.block [] content]) →
      ∃ content t', t = .block [] content :: t') :
    parse u = some s ∧ parse v = some t ∧ ∃ sh, parse (u ++ v) = some sh ∧
      ∀ cls, decls cls sh = decls cls s ++ decls cls t ∧
        Spec.keyframes cls sh = Spec.keyframes cls s ++ Spec.keyframes cls t := by
  have h1 := JoinP.layout_join hv hu h
  have h2 := JoinP.joined_same t s
  refine ⟨C59_layout_partial _ _ hu, C59_layout_partial _ _ hv, sheetsJoined s t, C59_layout_partial _ _ h1, fun cls => ?_⟩
  obtain ⟨h3, h4⟩ := h2 cls
  rw [h3, h4]
  simp [decls, Spec.keyframes, JoinP.declsInAll_append, JoinP.keyframesInAll_append]

/-- In particular nothing that is put after a text changes what the text says, if the text does
not end in loose declarations. -/
theorem C87_after_block (u v : Str) (s t : Sheet) (hu : Layout u s) (hv : Layout v t)
    (h : ¬ ∃ content s', s = s' ++ [.block [] content]) :
    ∃ sh, parse (u ++ v) = some sh ∧ ∀ cls, decls cls s <+: decls cls sh ∧ decls cls t <:+ decls cls sh := by
  obtain ⟨-, -, sh, h1, h2⟩ := C87_one_after_the_other_partial u v s t hu hv (fun _ h' => absurd h' h)
  exact ⟨sh, h1, fun cls => ⟨⟨_, (h2 cls).1.symm⟩, ⟨_, (h2 cls).1.symm⟩⟩⟩

/-- A declaration. -/
def joinFirst : DeclSrc := ⟨[], c! "color", [], c! " ", c! "red", []⟩

theorem joinFirst_ok : joinFirst.Ok :=
  ok_decl _ _ _ _ _ _ .nil (by decide) (by decide) .nil (blankWs _ (by decide)) (by decide) (by decide) (by decide) .nil

theorem joinFirst_layout : Layout (c! "color: red; ") [.block [] [.attr (c! "color") [c! "red"]]] :=
  Layout.decls [joinFirst] (c! " ") [] (by simp) (by simp [joinFirst_ok])
    (by
      rintro ⟨b, k, b', t, -, -, -, h⟩
      have := congrArg (fun l => decide (':' ∈ l)) h
      simp at this)
    (.nil _ (blankWs _ (by decide)))

/-- Non-vacuity: the theorem for a declaration and the long layout of C59. -/
example : ∃ sh, parse (c! "color: red; " ++ layoutLong) = some sh ∧ ∀ cls,
    decls cls sh = decls cls [.block [] [.attr (c! "color") [c! "red"]]] ++ decls cls layoutSheet := by
  obtain ⟨-, -, sh, h1, h2⟩ := C87_one_after_the_other_partial _ _ _ _ joinFirst_layout layoutLong_ok
    (fun _ _ => ⟨_, _, rfl⟩)
  exact ⟨sh, h1, fun cls => (h2 cls).1⟩

/-- Its hypotheses: the long layout of C59 (which begins with a declaration and ends in an
animation) after a declaration, and after itself. -/
example : (∃ content t', layoutSheet = .block [] content :: t') ∧ StartsLikeDecl layoutLong ∧
    (¬ ∃ content s', layoutSheet = s' ++ [.block [] content]) ∧
    (parse (c! "color: red; " ++ layoutLong)).map List.length = some layoutSheet.length := by
  refine ⟨⟨_, _, rfl⟩, ?_, ?_, ?_⟩
  · obtain ⟨ds, u, h1, h2, -, -, h3, -⟩ := JoinP.begins_split layoutLong_ok
    rw [h3]
    exact LayoutP.decls_like h1 h2 u
  · rintro ⟨c, s', h⟩
    have := congrArg List.getLast? h
    simp [layoutSheet] at this
  · decide +kernel

/-- **C87 is false.** Both texts are accepted and so is one after the other, but the
declaration of the first is lost and the selector of the second is another one. -/
theorem C87_false : ∃ u v s t sh, parse u = some s ∧ parse v = some t ∧ parse (u ++ v) = some sh ∧
    decls (some (c! "k")) s = [⟨[c! ".k"], c! "color", c! "red"⟩] ∧
    decls (some (c! "k")) t = [⟨[c! ".k a:hover"], c! "top", c! "0"⟩] ∧
    decls (some (c! "k")) sh = [⟨[c! ".k color: red; a:hover"], c! "top", c! "0"⟩] :=
  ⟨c! "color: red; ", c! "a:hover { top: 0; }", _, _, _, rfl, rfl, rfl, by decide, by decide, by decide⟩

/-! ## Exactly when -/

/-- The first selector of the sheet, if it begins with a block that has selectors, does not end in
a colon. -/
def NoColon (t : Sheet) : Prop :=
  ∀ sel sels content t', t = .block (sel :: sels) content :: t' → sel.flatten.getLast? ≠ some ':'

/-- **C87, exactly.** The text made of one after the other is read as the two sheets after each
other (loose declarations that meet being one block) if and only if it is not the case that the
first text ends in loose declarations and the second begins with an identifier and a colon
without beginning with a declaration. -/
theorem C87_exactly (u v : Str) (s t : Sheet) (hu : Layout u s) (hv : Layout v t) (hc : NoColon t) :
    parse (u ++ v) = some (sheetsJoined s t) ↔
      ¬ (StartsLikeDecl v ∧ (∃ content s', s = s' ++ [.block [] content]) ∧
        ¬ ∃ content t', t = .block [] content :: t') := by
  constructor
  · rintro h ⟨h1, ⟨c, s', hs⟩, h3⟩
    rw [JoinP.joined_of_not (fun _ => h3), hs] at h
    refine SwallowP.lost (content := c) (rest := t) hu hv hs h1 h3 hc ?_
    rw [h]
    simp
  · intro h
    refine C59_layout_partial _ _ (JoinP.layout_join hv hu fun h1 h2 => ?_)
    exact Classical.byContradiction fun h3 => h ⟨h1, h2, h3⟩

/-- **C87, exactly.** And where it is not, the last declarations of the first text are lost:
whatever the text made of both is read as, the first sheet is not the beginning of it. -/
theorem C87_exactly_lost (u v : Str) (s t : Sheet) (hu : Layout u s) (hv : Layout v t) (hc : NoColon t)
    (h1 : StartsLikeDecl v) (h2 : ∃ content s', s = s' ++ [.block [] content])
    (h3 : ¬ ∃ content t', t = .block [] content :: t') (sh : Sheet) (h : parse (u ++ v) = some sh) : ¬ s <+: sh := by
  rintro ⟨rest, rfl⟩
  obtain ⟨c, s', hs⟩ := h2
  refine SwallowP.lost (content := c) (rest := rest) hu hv hs h1 h3 hc ?_
  rw [h, hs]
  simp

/-- **C60, exactly.** Declarations outside of blocks are kept as one block for the element itself
that stands in front of what follows, if and only if what follows does not begin with an
identifier and a colon. -/
theorem C60_exactly (ds : List DeclSrc) (u : Str) (rest : Sheet) (hne : ds ≠ []) (h : ∀ d ∈ ds, d.Ok)
    (hu : Layout u rest) (hc : NoColon rest) :
    parse ((ds.map DeclSrc.text).flatten ++ u) =
      some (.block [] (ds.map (fun d => .attr d.key [d.value])) :: rest) ↔ ¬ StartsLikeDecl u := by
  have hds : Layout ((ds.map DeclSrc.text).flatten) [.block [] (ds.map (fun d => .attr d.key [d.value]))] := by
    have := Layout.decls ds [] [] hne h (by rintro ⟨b, k, b', t, -, -, -, e⟩; simp at e) (.nil _ .nil)
    simpa using this
  constructor
  · intro hp hl
    by_cases hb : ∃ content t', rest = .block [] content :: t'
    · have := C59_layout_partial _ _ (JoinP.layout_join hu hds fun _ _ => hb)
      rw [hp] at this
      obtain ⟨content, t', rfl⟩ := hb
      obtain ⟨es, x, h1, h2, h3, h4, rfl, rfl⟩ := JoinP.begins_split hu
      simp only [sheetsJoined, Option.some.injEq, List.cons.injEq, ScopeContent.block.injEq, true_and] at this
      have := congrArg List.length this.1
      simp at this
      exact h1 this
    · exact SwallowP.lost (s' := []) hds hu rfl hl hb hc hp
  · exact fun hd => (C60_declarations_partial ds u rest hne h hu hd).2

theorem hover_layout : Layout (c! "p:hover{}") [.block [[c! "p:hover"]] []] :=
  Layout.block [⟨[], c! "p:hover"⟩] [] [] _ _ (by simp) (by
    intro d hd
    simp only [List.mem_cons, List.not_mem_nil, or_false] at hd
    subst hd
    exact ⟨.nil, by decide, by decide⟩) (.nil _ .nil) (.nil _ .nil)

theorem hover_colon : NoColon [.block [[c! "p:hover"]] []] := by
  intro sel sels content t' h
  simp only [List.cons.injEq, ScopeContent.block.injEq] at h
  rw [← h.1.1.1]
  decide

theorem hover_like : StartsLikeDecl (c! "p:hover{}") := ⟨[], c! "p", [], c! "hover{}", .nil, by decide, .nil, rfl⟩

/-- Both theorems for a block that looks like a declaration: after a declaration it is lost, after
a block it is not. -/
example : parse (c! "color: red; " ++ c! "p:hover{}") ≠
      some (sheetsJoined [.block [] [.attr (c! "color") [c! "red"]]] [.block [[c! "p:hover"]] []]) ∧
    parse (c! "p:hover{}" ++ c! "p:hover{}") =
      some (sheetsJoined [.block [[c! "p:hover"]] []] [.block [[c! "p:hover"]] []]) := by
  constructor
  · intro h
    refine (C87_exactly _ _ _ _ joinFirst_layout hover_layout hover_colon).1 h ⟨hover_like, ⟨_, [], rfl⟩, ?_⟩
    rintro ⟨c, t', h⟩
    cases h
  · refine (C87_exactly _ _ _ _ hover_layout hover_layout hover_colon).2 ?_
    rintro ⟨-, ⟨c, s', h⟩, -⟩
    have := congrArg List.getLast? h
    simp at this

example : parse (([joinFirst].map DeclSrc.text).flatten ++ c! "p:hover{}") ≠
    some (.block [] ([joinFirst].map (fun d => .attr d.key [d.value])) :: [.block [[c! "p:hover"]] []]) :=
  fun h => (C60_exactly [joinFirst] _ _ (by simp) (by simp [joinFirst_ok]) hover_layout hover_colon).1 h hover_like

/-- Why the colon: with nothing between the colon and the brace there is no value, so this is read
as a block. -/
example : parse (c! "color: red;a:{top: 0;}") =
    some [.block [] [.attr (c! "color") [c! "red"]], .block [[c! "a:"]] [.attr (c! "top") [c! "0"]]] := by decide
