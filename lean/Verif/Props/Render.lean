import Verif.Proofs.Text

/-!
# Properties of rendering (C01 – C07, C09, C10)

`Sheet.toStyleStr s cls` is the text generated for sheet `s`; `cls = some c` for a
scoped style with class name `c`, `none` for a global style. Class names with a `:`
are excluded where the printed selector is characterized: the two successive
replacements of the code could then interfere.
-/

open Spec

/-- An example with everything in it. -/
def exampleSheet : Sheet :=
  [.block [] [.attr (c! "color") [c! "red"],
      .rule [c! "@media ", c! "print"] [.attr (c! "color") [c! "black"]],
      .attr (c! "width") [c! "1", c! "px"]],
   .block [[c! "&:hover"], [c! ".b"]] [.attr (c! "a") [c! "b"]],
   .rule [c! "@supports ", c! "(x: y)"] [.block [[c! "p"]] [], .block [] [.attr (c! "k") [c! "v"]]],
   .rule [c! "@keyframes m"] [.rule [c! "from"] [.attr (c! "top") [c! "0"]]]]

/-- **C01.** The generated text is the layout of a stream of headers, declarations and
closing braces. Reading the stream with a stack of open headers shows exactly the
declarations of the sheet, in order, each under exactly its own conditions; and no
header is entered but those on the way to a declaration or a `@keyframes`. -/
theorem C01_declarations_under_their_conditions (s : Sheet) (cls : Option Str)
    (hcls : ∀ c ∈ cls, ':' ∉ c) :
    ∃ evs obs, s.toStyleStr cls = layout 0 evs ∧ readEvents [] evs = some (obs, []) ∧
      seenDecls obs = decls cls s ∧
      ∀ p ∈ entered obs, (∃ d ∈ decls cls s, p <+: d.path) ∨ (∃ k ∈ keyframes cls s, p <+: k) := by
  obtain ⟨evs, obs, h1, h2, h3⟩ := Text.sheet_spec s cls hcls
  refine ⟨evs, obs, h1, h2, h3.decls, ?_⟩
  intro p hp
  refine h3.only p ?_
  simp only [entered, List.mem_filterMap] at hp
  obtain ⟨o, ho, hp⟩ := hp
  cases o <;> simp at hp
  rwa [← hp]

/-- **C01**, at the level of characters: if conditions, keys and values contain no
`{`, `}`, `;` and no surrounding blanks (and keys no `:`), a naive reader of the text
finds exactly the declarations of the sheet. -/
theorem C01_text_reads_back (s : Sheet) (cls : Option Str) (hcls : ∀ c ∈ cls, ':' ∉ c)
    (hd : ∀ d ∈ decls cls s, (∀ h ∈ d.path, Clean h) ∧ (Clean d.key ∧ ':' ∉ d.key) ∧ Clean d.value)
    (hk : ∀ k ∈ keyframes cls s, ∀ h ∈ k, Clean h) :
    readText [] [] (s.toStyleStr cls) = some (decls cls s, []) := by
  obtain ⟨evs, obs, h1, h2, h3⟩ := Text.sheet_spec s cls hcls
  obtain ⟨h4, h5⟩ := Text.strings_of_seen (Q := fun k => Clean k ∧ ':' ∉ k) h2 h3 hd hk
  rw [h1, ← h3.decls]
  refine Text.readText_layout evs [] [] obs [] (by decide) h2 h4 ?_
  intro k v hh
  exact ⟨(h5 k v hh).1.1, (h5 k v hh).1.2, (h5 k v hh).2⟩

example : (∀ d ∈ decls (some (c! "x-1")) exampleSheet,
      (∀ h ∈ d.path, Clean h) ∧ (Clean d.key ∧ ':' ∉ d.key) ∧ Clean d.value) ∧
    (∀ k ∈ keyframes (some (c! "x-1")) exampleSheet, ∀ h ∈ k, Clean h) ∧
    decls (some (c! "x-1")) exampleSheet =
      [⟨[c! ".x-1"], c! "color", c! "red"⟩,
       ⟨[c! "@media print", c! ".x-1"], c! "color", c! "black"⟩,
       ⟨[c! ".x-1"], c! "width", c! "1px"⟩,
       ⟨[c! ".x-1:hover, .x-1 .b"], c! "a", c! "b"⟩,
       ⟨[c! "@supports (x: y)", c! ".x-1"], c! "k", c! "v"⟩,
       ⟨[c! "@keyframes m", c! "from"], c! "top", c! "0"⟩] := by decide

/-- A class with a colon has to be excluded in **C01** and **C05**: what is put in for `&` is
searched for `:root` again. (No css identifier has a colon, but a prefix may.) -/
theorem C01_limit_colon :
    Sheet.toStyleStr [.block [[c! "& p"]] [.attr (c! "top") [c! "0"]]] (some (c! ":root")) =
      c! "..:root p {\n    top: 0;\n}\n" ∧
    (decls (some (c! ":root")) [.block [[c! "& p"]] [.attr (c! "top") [c! "0"]]]).map Decl.path = [[c! ".:root p"]] := by
  decide

/-- **C02**, for the stream: no closing brace without an open header, and all headers
closed at the end, whatever the strings and the class name are. -/
theorem C02_well_bracketed_stream (s : Sheet) (cls : Option Str) :
    ∃ evs obs, s.toStyleStr cls = layout 0 evs ∧ readEvents [] evs = some (obs, []) := by
  obtain ⟨evs, obs, h1, h2, -⟩ := Render.sheet_spec s cls
  exact ⟨evs, obs, h1, h2⟩

/-- **C02**, for the characters: if no text of the sheet and no class has a brace, the braces
of the text balance and no prefix closes more than it opens. -/
theorem C02_braces_balance (s : Sheet) (cls : Option Str) (hs : ∀ t ∈ textsOf s, '{' ∉ t ∧ '}' ∉ t)
    (hcls : ∀ c ∈ cls, '{' ∉ c ∧ '}' ∉ c) : braces 0 (s.toStyleStr cls) = some 0 := by
  have conv : ∀ {x : Str}, ('{' ∉ x ∧ '}' ∉ x) → ∀ d ∈ x, ¬ (d = '{' ∨ d = '}') := by
    rintro x h d hd (rfl | rfl)
    · exact h.1 hd
    · exact h.2 hd
  have conv2 : ∀ {x : Str}, (∀ d ∈ x, ¬ (d = '{' ∨ d = '}')) → Text.NoBrace x := by
    intro x h c hc
    exact ⟨fun e => h c hc (.inl e), fun e => h c hc (.inr e)⟩
  have ha : Text.Avoids (fun d => d = '{' ∨ d = '}') cls :=
    ⟨fun c hc => conv (hcls c hc), by decide⟩
  obtain ⟨hd, hk⟩ := Text.avoids_all ha (s.map ScopeContent.toRBC) [] none (fun t ht => conv (hs t ht)) (by simp) (by simp)
  obtain ⟨evs, obs, h1, h2, h3⟩ := Render.sheet_spec s cls
  obtain ⟨h4, h5⟩ := Text.strings_of_seen (P := fun x => ∀ d ∈ x, ¬ (d = '{' ∨ d = '}'))
    (Q := fun x => ∀ d ∈ x, ¬ (d = '{' ∨ d = '}')) (R := fun x => ∀ d ∈ x, ¬ (d = '{' ∨ d = '}')) h2 h3 hd hk
  rw [h1]
  exact Text.braces_layout evs [] [] obs h2 (fun h hh => conv2 (h4 h hh))
    (fun k v hh => ⟨conv2 (h5 k v hh).1, conv2 (h5 k v hh).2⟩)

example : ∀ t ∈ textsOf exampleSheet, '{' ∉ t ∧ '}' ∉ t := by decide

/-- **C03.** The text is a sequence of lines, each indented by four spaces per level.
The level of a line is the number of earlier header lines minus the number of earlier
closing lines, less one if the line itself is a closing brace. -/
theorem C03_indentation (s : Sheet) (cls : Option Str) :
    ∃ evs : List Ev, s.toStyleStr cls =
      (List.range evs.length).flatMap (fun i =>
        let level := (evs.take i).countP (fun e => e matches .opn _) -
          (evs.take i).countP (fun e => e matches .cls)
        match evs[i]? with
        | some (.opn h) => List.replicate (4 * level) ' ' ++ h ++ c! " {\n"
        | some .cls => List.replicate (4 * (level - 1)) ' ' ++ c! "}\n"
        | some (.decl k v) =>
          List.replicate (4 * level) ' ' ++ k ++ c! ": " ++ v ++ c! ";\n"
        | none => []) := by
  obtain ⟨evs, obs, h1, h2⟩ := C02_well_bracketed_stream s cls
  refine ⟨evs, ?_⟩
  have := Text.layout_lines evs [] [] obs h2
  simp only [List.length_nil, Nat.zero_add] at this
  rw [h1, this]
  rfl

set_option maxRecDepth 4000 in
example : Sheet.toStyleStr (exampleSheet.take 1) (some (c! "x")) = layout 0
    [.opn (c! ".x"), .decl (c! "color") (c! "red"), .cls,
     .opn (c! "@media print"), .opn (c! ".x"), .decl (c! "color") (c! "black"), .cls, .cls,
     .opn (c! ".x"), .decl (c! "width") (c! "1px"), .cls] := by
  decide

/-- **C04.** The text is empty exactly if the sheet has no declaration and no
`@keyframes`; every `@keyframes` is entered, even if it has no content. -/
theorem C04_empty_iff (s : Sheet) (cls : Option Str) :
    s.toStyleStr cls = [] ↔ decls cls s = [] ∧ keyframes cls s = [] := by
  obtain ⟨evs, obs, h1, h2, h3⟩ := Render.sheet_spec s cls
  constructor
  · intro h
    rw [h1] at h
    have := Text.layout_eq_nil h
    subst this
    simp only [readEvents, Option.some.injEq, Prod.mk.injEq] at h2
    obtain ⟨rfl, -⟩ := h2
    refine ⟨Text.declsAll_nil _ _ _ _ _ _ _ _ _ h3.decls.symm, Text.keyframesAll_nil (Render.sel cls) _ (current cls) _ _ [] _ none _ ?_⟩
    rw [List.eq_nil_iff_forall_not_mem]
    intro k hk
    simpa using h3.kf k hk
  · rintro ⟨hd, hk⟩
    rw [Text.declsAll_nil _ (Render.sel cls) _ (current cls) _ _ [] _ none hd,
      Text.keyframesAll_nil _ (Render.sel cls) _ (current cls) _ _ [] _ none hk] at h3
    rw [h1, Text.evs_nil_of_empty h2 h3]
    rfl

/-- **C04**, second half: each `@keyframes` header is printed, under its own
conditions. -/
theorem C04_keyframes_printed (s : Sheet) (cls : Option Str) (hcls : ∀ c ∈ cls, ':' ∉ c) :
    ∃ evs obs, s.toStyleStr cls = layout 0 evs ∧ readEvents [] evs = some (obs, []) ∧
      ∀ k ∈ keyframes cls s, k ∈ entered obs := by
  obtain ⟨evs, obs, h1, h2, h3⟩ := Text.sheet_spec s cls hcls
  refine ⟨evs, obs, h1, h2, ?_⟩
  intro k hk
  simp only [entered, List.mem_filterMap]
  exact ⟨_, h3.kf k hk, rfl⟩

/-- **C04**: and no other block is printed empty. In the stream that is the text, a header is
closed directly after it was opened only if it is that of an `@keyframes`, with everything that is
open then. -/
theorem C04_no_empty_blocks (s : Sheet) (cls : Option Str) (hcls : ∀ c ∈ cls, ':' ∉ c) :
    ∃ evs obs, s.toStyleStr cls = layout 0 evs ∧ readEvents [] evs = some (obs, []) ∧
      seenDecls obs = decls cls s ∧ (∀ k ∈ keyframes cls s, k ∈ entered obs) ∧
      ∀ a h b, evs = a ++ .opn h :: .cls :: b →
        ∃ seen st, readEvents [] a = some (seen, st) ∧ st ++ [h] ∈ keyframes cls s := by
  obtain ⟨evs, obs, h1, h2, h3⟩ := Text.sheet_spec s cls hcls
  refine ⟨evs, obs, h1, h2, h3.decls, ?_, Text.no_empty h2 h3.full⟩
  intro k hk
  simp only [entered, List.mem_filterMap]
  exact ⟨_, h3.kf k hk, rfl⟩

/-- An empty nest of blocks and rules, and an empty `@keyframes`. -/
example : (decls (some (c! "c")) [.rule [c! "@media x"] [.block [[c! "p"]] []], .block [] []] = [] ∧
    keyframes (some (c! "c")) [.rule [c! "@media x"] [.block [[c! "p"]] []], .block [] []] = []) ∧
    keyframes (some (c! "c")) [.rule [c! "@keyframes m"] []] = [[c! "@keyframes m"]] := by decide

/-- **C05.** How the selectors of a block are printed in a scoped style. -/
theorem C05_scoped_selectors (c : Str) (hc : ':' ∉ c) (sels : List Selector) (hne : sels ≠ []) :
    condStr (some c) sels =
      some (Str.join (c! ", ") (sels.map (fun s =>
        if '&' ∈ s.flatten ∨ c! ":root" <:+: s.flatten then expand ('.' :: c) s.flatten
        else if s.flatten.head? = some ':' then '.' :: c ++ s.flatten
        else '.' :: c ++ ' ' :: s.flatten))) := by
  have h : Selector.write (some c) = fun s : Selector => scopeSelector (some c) s.flatten := by
    funext s
    exact SelectorP.write_spec (some c) (by intro d hd; cases hd; exact hc) s
  have he : sels.isEmpty = false := by cases sels <;> simp_all
  simp only [condStr, he, h]
  rfl

/-- **C05**, consequence: a printed scoped selector always mentions the class. -/
theorem C05_selector_mentions_class (c : Str) (hc : ':' ∉ c) (s : Selector) :
    ('.' :: c) <:+: Selector.write (some c) s := by
  rw [SelectorP.write_spec (some c) (by intro d hd; cases hd; exact hc) s]
  exact SelectorP.scoped_infix c _

example : condStr (some (c! "x")) [[c! "& > p"], [c! ":hover"], [c! "p", c! " a"], [c! ":root q"]] =
    some (c! ".x > p, .x:hover, .x p a, .x q") := by decide

/-- **C06.** In a global style a selector is printed with `&` replaced by `:root` and
unchanged otherwise; the current element is `:root`. -/
theorem C06_global_selectors (s : Selector) :
    Selector.write none s = s.flatten.flatMap (fun c => if c = '&' then c! ":root" else [c]) := by
  rw [SelectorP.write_spec none (by simp) s, scopeSelector, ← SelectorP.amp_pass]
  rfl

/-- **C06**, for dangling declarations. -/
theorem C06_global_dangling (k : Str) (v : List Str) :
    Sheet.toStyleStr [.block [] [.attr k v]] none =
      c! ":root {\n    " ++ k ++ c! ": " ++ v.flatten ++ c! ";\n}\n" := by
  simp [Sheet.toStyleStr, Sheet.write, ScopeContent.toRBC, RBC.write, RBC.writes, Ctx.start,
    Ctx.new, Ctx.withBlockCondition, condStr, Ctx.closeUntilCommonParent, Ctx.uniqueConditions,
    Ctx.commonConditions, Ctx.openParentConditions, Ctx.openParent, Ctx.conditions,
    Ctx.startLoop, Ctx.finishChain, Ctx.finish, Ctx.finishLoop, Ctx.writeMinPadding,
    Ctx.writePaddingImpl, Ctx.writePadding]

mutual
/-- The loose declarations of a piece of a sheet: those in a block without selectors,
but not in a block with selectors. With their at-rule conditions, key and value. -/
def looseIn (inBlock : Bool) (rules : List Str) : RBC → List (List Str × Str × Str)
  | .attr k v => if inBlock then [(rules, k, v.flatten)] else []
  | .rule c b => looseInAll inBlock (rules ++ [c.flatten]) b
  | .block [] b => looseInAll true rules b
  | .block (_ :: _) _ => []
def looseInAll (inBlock : Bool) (rules : List Str) : List RBC → List (List Str × Str × Str)
  | [] => []
  | x :: xs => looseIn inBlock rules x ++ looseInAll inBlock rules xs
end

mutual
theorem loose_decls (sel : Str → Str) (cur : Str) (b : Bool) :
    ∀ (x : RBC) (rules : List Str) (r : List Str) (k v : Str), (r, k, v) ∈ looseIn b rules x →
      (⟨r ++ [cur], k, v⟩ : Decl) ∈ declsIn sel cur rules (if b then some cur else none) x
  | .attr k' v', rules, r, k, v, h => by
    cases b <;> simp [looseIn] at h
    obtain ⟨rfl, rfl, rfl⟩ := h
    simp [declsIn]
  | .rule c cs, rules, r, k, v, h => by
    simp only [looseIn] at h
    simp only [declsIn]
    exact looseAll_decls sel cur b cs _ r k v h
  | .block [] cs, rules, r, k, v, h => by
    simp only [looseIn] at h
    simp only [declsIn, blockSelector]
    have := looseAll_decls sel cur true cs _ r k v h
    cases b <;> simpa using this
  | .block (_ :: _) cs, rules, r, k, v, h => by simp [looseIn] at h
theorem looseAll_decls (sel : Str → Str) (cur : Str) (b : Bool) :
    ∀ (xs : List RBC) (rules : List Str) (r : List Str) (k v : Str), (r, k, v) ∈ looseInAll b rules xs →
      (⟨r ++ [cur], k, v⟩ : Decl) ∈ declsInAll sel cur rules (if b then some cur else none) xs
  | [], rules, r, k, v, h => by simp [looseInAll] at h
  | x :: xs, rules, r, k, v, h => by
    simp only [looseInAll, List.mem_append] at h
    simp only [declsInAll, List.mem_append]
    rcases h with h | h
    · exact .inl (loose_decls sel cur b x rules r k v h)
    · exact .inr (looseAll_decls sel cur b xs rules r k v h)
end

/-- **C07.** Every loose declaration of a sheet, under whatever at-rules, is seen in the
text under those at-rules and then the generated class (or `:root`, for a global
style). -/
theorem C07_dangling_declarations (s : Sheet) (cls : Option Str) :
    ∃ evs obs, s.toStyleStr cls = layout 0 evs ∧ readEvents [] evs = some (obs, []) ∧
      ∀ r k v, (r, k, v) ∈ looseInAll false [] (s.map ScopeContent.toRBC) →
        (⟨r ++ [match cls with | some c => '.' :: c | none => c! ":root"], k, v⟩ : Decl) ∈
          seenDecls obs := by
  obtain ⟨evs, obs, h1, h2, h3⟩ := Render.sheet_spec s cls
  refine ⟨evs, obs, h1, h2, ?_⟩
  intro r k v h
  rw [h3.decls]
  have := looseAll_decls (Render.sel cls) (current cls) false _ _ r k v h
  cases cls <;> exact this

example : looseInAll false [] (exampleSheet.map ScopeContent.toRBC) =
    [([], c! "color", c! "red"), ([c! "@media print"], c! "color", c! "black"),
     ([], c! "width", c! "1px"), ([c! "@supports (x: y)"], c! "k", c! "v")] := by decide

/-- **C09.** Rendering is compositional. -/
theorem C09_compositional (a b : Sheet) (cls : Option Str) :
    Sheet.toStyleStr (a ++ b) cls = Sheet.toStyleStr a cls ++ Sheet.toStyleStr b cls :=
  (Text.write_append a b cls).2

example : Sheet.toStyleStr (exampleSheet.take 1) none ≠ [] ∧
    Sheet.toStyleStr (exampleSheet.drop 1) none ≠ [] := by decide

mutual
/-- The chain of at-rule conditions of each declaration, as written in the source. -/
def chainsIn (rules : List Str) : RBC → List (List Str)
  | .attr _ _ => [rules]
  | .rule c b => chainsInAll (rules ++ [c.flatten]) b
  | .block _ b => chainsInAll rules b
def chainsInAll (rules : List Str) : List RBC → List (List Str)
  | [] => []
  | x :: xs => chainsIn rules x ++ chainsInAll rules xs
end

mutual
theorem chains_decls (sel : Str → Str) (cur : Str) : ∀ (x : RBC) (rules : List Str) (o : Option Str),
    ∃ sels : List (Option Str), sels.length = (chainsIn rules x).length ∧
      (declsIn sel cur rules o x).map Decl.path =
        List.zipWith (fun r q => r ++ q.toList) (chainsIn rules x) sels
  | .attr k v, rules, o => ⟨[o], by simp [declsIn, chainsIn]⟩
  | .rule c b, rules, o => by
    simp only [declsIn, chainsIn]
    exact chainsAll_decls sel cur b _ _
  | .block c b, rules, o => by
    simp only [declsIn, chainsIn]
    exact chainsAll_decls sel cur b _ _
theorem chainsAll_decls (sel : Str → Str) (cur : Str) : ∀ (xs : List RBC) (rules : List Str) (o : Option Str),
    ∃ sels : List (Option Str), sels.length = (chainsInAll rules xs).length ∧
      (declsInAll sel cur rules o xs).map Decl.path =
        List.zipWith (fun r q => r ++ q.toList) (chainsInAll rules xs) sels
  | [], rules, o => ⟨[], by simp [declsInAll, chainsInAll]⟩
  | x :: xs, rules, o => by
    obtain ⟨s1, l1, h1⟩ := chains_decls sel cur x rules o
    obtain ⟨s2, l2, h2⟩ := chainsAll_decls sel cur xs rules o
    refine ⟨s1 ++ s2, ?_, ?_⟩
    · simp [chainsInAll, l1, l2]
    · simp only [declsInAll, chainsInAll, List.map_append, h1, h2]
      rw [List.zipWith_append l1.symm]
end

/-- **C10.** In the text of a sheet, for every class name, each declaration is under
exactly its at-rule conditions as written, followed by at most one selector: the
chains of conditions are a function of the sheet alone. -/
theorem C10_at_rules_verbatim (s : Sheet) (cls : Option Str) :
    ∃ evs obs, s.toStyleStr cls = layout 0 evs ∧ readEvents [] evs = some (obs, []) ∧
      ∃ sels : List (Option Str),
        sels.length = (chainsInAll [] (s.map ScopeContent.toRBC)).length ∧
        (seenDecls obs).map Decl.path =
          List.zipWith (fun chain q => chain ++ q.toList)
            (chainsInAll [] (s.map ScopeContent.toRBC)) sels := by
  obtain ⟨evs, obs, h1, h2, h3⟩ := Render.sheet_spec s cls
  refine ⟨evs, obs, h1, h2, ?_⟩
  rw [h3.decls]
  exact chainsAll_decls _ _ _ _ _

example : chainsInAll [] (exampleSheet.map ScopeContent.toRBC) =
    [[], [c! "@media print"], [], [], [c! "@supports (x: y)"],
      [c! "@keyframes m", c! "from"]] := by decide

mutual
/-- For each declaration, the selectors of the innermost block with selectors around it;
`some []` if there are only blocks without selectors, `none` if there is no block. -/
def selectorsIn (outer : Option (List Selector)) : RBC → List (Option (List Selector))
  | .attr _ _ => [outer]
  | .rule _ b => selectorsInAll outer b
  | .block sels b => selectorsInAll (if sels = [] then some (outer.getD []) else some sels) b
def selectorsInAll (outer : Option (List Selector)) : List RBC → List (Option (List Selector))
  | [] => []
  | x :: xs => selectorsIn outer x ++ selectorsInAll outer xs
end

/-- How the selectors of a block are to be printed, `[]` standing for no selectors. -/
def printedSelectors (sel : Str → Str) (cur : Str) (sels : List Selector) : Str :=
  if sels = [] then cur else Str.join (c! ", ") (sels.map (fun s => sel s.flatten))

theorem printed_block (sel : Str → Str) (cur : Str) (q : Option (List Selector)) (sels : List Selector) :
    blockSelector sel cur (q.map (printedSelectors sel cur)) sels =
      printedSelectors sel cur (if sels = [] then q.getD [] else sels) := by
  cases sels with
  | nil => cases q <;> simp [blockSelector, printedSelectors]
  | cons x xs => simp [blockSelector, printedSelectors]

mutual
theorem selectors_decls (sel : Str → Str) (cur : Str) : ∀ (x : RBC) (rules : List Str) (q : Option (List Selector)),
    (selectorsIn q x).length = (chainsIn rules x).length ∧
    (declsIn sel cur rules (q.map (printedSelectors sel cur)) x).map Decl.path =
      List.zipWith (fun r q => r ++ (q.map (printedSelectors sel cur)).toList) (chainsIn rules x) (selectorsIn q x)
  | .attr k v, rules, q => by simp [declsIn, chainsIn, selectorsIn]
  | .rule c b, rules, q => by
    simp only [declsIn, chainsIn, selectorsIn]
    exact selectorsAll_decls sel cur b _ _
  | .block c b, rules, q => by
    simp only [declsIn, chainsIn, selectorsIn, printed_block]
    have := selectorsAll_decls sel cur b rules (some (if c = [] then q.getD [] else c))
    by_cases h : c = [] <;> simpa [h] using this
theorem selectorsAll_decls (sel : Str → Str) (cur : Str) :
    ∀ (xs : List RBC) (rules : List Str) (q : Option (List Selector)),
    (selectorsInAll q xs).length = (chainsInAll rules xs).length ∧
    (declsInAll sel cur rules (q.map (printedSelectors sel cur)) xs).map Decl.path =
      List.zipWith (fun r q => r ++ (q.map (printedSelectors sel cur)).toList) (chainsInAll rules xs) (selectorsInAll q xs)
  | [], rules, q => by simp [declsInAll, chainsInAll, selectorsInAll]
  | x :: xs, rules, q => by
    obtain ⟨l1, h1⟩ := selectors_decls sel cur x rules q
    obtain ⟨l2, h2⟩ := selectorsAll_decls sel cur xs rules q
    refine ⟨by simp [selectorsInAll, chainsInAll, l1, l2], ?_⟩
    simp only [declsInAll, chainsInAll, selectorsInAll, List.map_append, h1, h2]
    rw [List.zipWith_append l1.symm]
end

/-- **C05** in the text of any sheet: each declaration is under its at-rules and then the
selectors of the innermost block around it, scoped to the class. -/
theorem C05_in_the_text (s : Sheet) (c : Str) (hc : ':' ∉ c) :
    ∃ evs obs, s.toStyleStr (some c) = layout 0 evs ∧ readEvents [] evs = some (obs, []) ∧
      (seenDecls obs).map Decl.path =
        List.zipWith (fun chain (q : Option (List Selector)) => chain ++ (q.map (fun sels =>
            if sels = [] then '.' :: c
            else Str.join (c! ", ") (sels.map (fun sel =>
              if '&' ∈ sel.flatten ∨ c! ":root" <:+: sel.flatten then expand ('.' :: c) sel.flatten
              else if sel.flatten.head? = some ':' then '.' :: c ++ sel.flatten
              else '.' :: c ++ ' ' :: sel.flatten)))).toList)
          (chainsInAll [] (s.map ScopeContent.toRBC)) (selectorsInAll none (s.map ScopeContent.toRBC)) := by
  obtain ⟨evs, obs, h1, h2, h3⟩ := Text.sheet_spec s (some c) (by intro d hd; cases hd; exact hc)
  refine ⟨evs, obs, h1, h2, ?_⟩
  rw [h3.decls]
  exact (selectorsAll_decls (scopeSelector (some c)) (current (some c)) _ [] none).2

/-- **C06** in the text of any sheet. -/
theorem C06_in_the_text (s : Sheet) :
    ∃ evs obs, s.toStyleStr none = layout 0 evs ∧ readEvents [] evs = some (obs, []) ∧
      (seenDecls obs).map Decl.path =
        List.zipWith (fun chain (q : Option (List Selector)) => chain ++ (q.map (fun sels =>
            if sels = [] then c! ":root"
            else Str.join (c! ", ") (sels.map (fun sel =>
              sel.flatten.flatMap (fun c => if c = '&' then c! ":root" else [c]))))).toList)
          (chainsInAll [] (s.map ScopeContent.toRBC)) (selectorsInAll none (s.map ScopeContent.toRBC)) := by
  obtain ⟨evs, obs, h1, h2, h3⟩ := Text.sheet_spec s none (by simp)
  refine ⟨evs, obs, h1, h2, ?_⟩
  rw [h3.decls]
  have h := (selectorsAll_decls (scopeSelector none) (current none) (s.map ScopeContent.toRBC) [] none).2
  have e : scopeSelector none = fun t : Str => t.flatMap (fun c => if c = '&' then c! ":root" else [c]) := by
    funext t
    rw [scopeSelector, ← SelectorP.amp_pass]
    rfl
  rw [e] at h
  rw [decls, e]
  exact h

example : selectorsInAll none (exampleSheet.map ScopeContent.toRBC) =
    [some [], some [], some [], some [[c! "&:hover"], [c! ".b"]], some [], none] := by decide

/-- **C10**, for the names of top-level `@keyframes`: printed for every class name
exactly as written. -/
theorem C10_keyframes_names (s : Sheet) (cls : Option Str) (cond : List Str) (body : List RBC)
    (hmem : ScopeContent.rule cond body ∈ s) (hkf : c! "@keyframes" <+: cond.flatten) :
    ∃ evs obs, s.toStyleStr cls = layout 0 evs ∧ readEvents [] evs = some (obs, []) ∧
      [cond.flatten] ∈ entered obs := by
  obtain ⟨evs, obs, h1, h2, h3⟩ := Render.sheet_spec s cls
  refine ⟨evs, obs, h1, h2, ?_⟩
  simp only [entered, List.mem_filterMap]
  refine ⟨_, h3.kf _ ?_, rfl⟩
  clear h1 h2 h3
  induction s with
  | nil => simp at hmem
  | cons x s ih =>
    simp only [List.map_cons, keyframesInAll, List.mem_append]
    rcases List.mem_cons.1 hmem with rfl | hmem
    · left
      simp [ScopeContent.toRBC, keyframesIn, hkf]
    · exact .inr (ih hmem)

example : ScopeContent.rule [c! "@keyframes m"] [.rule [c! "from"] [.attr (c! "top") [c! "0"]]]
    ∈ exampleSheet ∧ c! "@keyframes" <+: [c! "@keyframes m"].flatten := by
  constructor
  · decide
  · exact ⟨c! " m", rfl⟩
