import Verif.Proofs.Animation
import Verif.Props.WholePage
import Verif.Props.Parser

/-!
# Property theorems: animations

C99.
-/

open Spec Css

/-! ## C99: every style gets the animations it defines -/

/-- The reader of animations finds the lines of the sheet that `browserReads` finds. -/
theorem C99_reader (css : Str) :
    browserReads css = (cssTokens [] (.out 0) css).bind (fun evs =>
      match readEvents [] evs with
      | some (obs, []) => some (seenDecls obs)
      | _ => none) := by
  rw [browserReads, AnimP.readCss_tokens]
  cases cssTokens [] (.out 0) css with
  | none => rfl
  | some evs =>
    simp only [Option.bind_some]
    cases h : readEvents [] evs with
    | none => rfl
    | some p =>
      obtain ⟨o, st⟩ := p
      cases st <;> rfl

/-- **C99**, the text of one style: if the texts of a sheet are whole and its `@keyframes`
stand outside of blocks, a browser finds in the generated text exactly the animations of the
sheet, in order, each with its own frames and under its own conditions. -/
theorem C99_animations (s : Sheet) (cls : Option Str) (hcls : ∀ c ∈ cls, CleanClass c) (hs : WholeSheet s)
    (hf : FramesOutside s) : browserAnimations (s.toStyleStr cls) = some (animations cls s) :=
  AnimP.browser_animations s cls hcls hs hf

/-- The sheet of the examples: two animations between other rules, the second under a
condition. -/
def animSheet : Sheet :=
  [ .block [] [.attr (c! "animation") [c! "spin 1s"]],
    .rule [c! "@keyframes ", c! "spin"]
      [.rule [c! "from"] [.attr (c! "top") [c! "0"], .attr (c! "left") [c! "0"]], .rule [c! "50%"] [],
       .rule [c! "to"] [.attr (c! "top") [c! "9px"]]],
    .block [[c! "a"]] [.attr (c! "color") [c! "red"]],
    .rule [c! "@media ", c! "print"]
      [.block [] [.attr (c! "color") [c! "blue"]],
       .rule [c! "@keyframes ", c! "spin"] [], .rule [c! "@keyframes ", c! "go"] [.rule [c! "to"] [.attr (c! "top") [c! "1px"]]]] ]

set_option maxRecDepth 16000 in
/-- Non-vacuity, with the animations spelled out. -/
example : CleanClass (c! "k") ∧ WholeSheet animSheet ∧ FramesOutside animSheet ∧
    browserAnimations (Sheet.toStyleStr animSheet (some (c! "k"))) = some
      [ ⟨[], c! "@keyframes spin", [⟨[c! "from"], c! "top", c! "0"⟩, ⟨[c! "from"], c! "left", c! "0"⟩,
          ⟨[c! "to"], c! "top", c! "9px"⟩]⟩,
        ⟨[c! "@media print"], c! "@keyframes spin", []⟩,
        ⟨[c! "@media print"], c! "@keyframes go", [⟨[c! "to"], c! "top", c! "1px"⟩]⟩ ] := by
  refine ⟨by decide, by decide +kernel, by decide +kernel, by decide +kernel⟩

/-! ### Sheets that come from css -/

namespace AnimP

theorem frames_item {x : RBC} (h : Item x) (b : Bool) : FramesIn b x := by
  induction h with
  | attr k v _ => trivial
  | rule cond content hc _ ih =>
    have hk : ¬ isKeyframes cond.flatten := by
      obtain ⟨n, hn, t, rfl, -⟩ := hc
      simp only [List.mem_cons, List.not_mem_nil, or_false] at hn
      rcases hn with rfl | rfl | rfl <;>
        (rintro ⟨u, hu⟩; simp at hu)
    rw [FramesIn, if_neg hk]
    induction content with
    | nil => trivial
    | cons y ys ihs =>
      exact ⟨ih y (by simp), ihs (fun z hz => by rename_i hi; exact hi z (by simp [hz])) (fun z hz => ih z (by simp [hz]))⟩

theorem framesAll_of {b : Bool} : ∀ {xs : List RBC}, (∀ x ∈ xs, FramesIn b x) → FramesAll b xs
  | [], _ => trivial
  | _ :: _, h => ⟨h _ (by simp), framesAll_of (fun y hy => h y (by simp [hy]))⟩

theorem mem_selectorTextsAll {t : Str} : ∀ {xs : List RBC} {x : RBC}, x ∈ xs → t ∈ selectorTexts x → t ∈ selectorTextsAll xs
  | y :: ys, x, hx, ht => by
    rw [selectorTextsAll, List.mem_append]
    rcases List.mem_cons.1 hx with rfl | hx
    · exact .inl ht
    · exact .inr (mem_selectorTextsAll hx ht)

theorem frames_scopeItem {x : RBC} (h : ScopeItem x) (hs : ∀ t ∈ selectorTexts x, t.head? ≠ some '@') :
    FramesIn false x := by
  induction h with
  | dangling content _ hc =>
    refine ⟨by simp, framesAll_of ?_⟩
    intro y hy
    obtain ⟨k, v, rfl, -⟩ := hc y hy
    trivial
  | block sels content _ _ hc =>
    refine ⟨?_, framesAll_of (fun y hy => frames_item (hc y hy) _)⟩
    intro s hm
    exact hs _ (by rw [selectorTexts]; exact List.mem_append_left _ (List.mem_map.2 ⟨s, hm, rfl⟩))
  | rule cond content hc _ ih =>
    have hk : ¬ isKeyframes cond.flatten := by
      obtain ⟨n, hn, t, rfl, -⟩ := hc
      simp only [List.mem_cons, List.not_mem_nil, or_false] at hn
      rcases hn with rfl | rfl | rfl <;>
        (rintro ⟨u, hu⟩; simp at hu)
    rw [FramesIn, if_neg hk]
    exact framesAll_of (fun y hy => ih y hy (fun t ht => hs t (by rw [selectorTexts]; exact mem_selectorTextsAll hy ht)))
  | keyframes cond frames hc _ =>
    have hk : isKeyframes cond.flatten := by
      obtain ⟨n, hn, t, rfl, -⟩ := hc
      simp only [List.mem_singleton] at hn
      subst hn
      exact ⟨c! " " ++ t, by simp⟩
    rw [FramesIn, if_pos hk]

mutual
/-- Declarations under at-rules only do not depend on the class. -/
theorem decls_item (sel sel' : Str → Str) (cur cur' : Str) : ∀ (x : RBC) (rules : List Str) (o : Option Str), Item x →
    declsIn sel cur rules o x = declsIn sel' cur' rules o x
  | .attr k v, rules, o, _ => rfl
  | .rule c b, rules, o, h => by
    rw [declsIn, declsIn]
    cases h with
    | rule _ _ _ hb => exact declsAll_item sel sel' cur cur' b _ _ hb
  | .block c b, rules, o, h => by cases h
theorem declsAll_item (sel sel' : Str → Str) (cur cur' : Str) : ∀ (xs : List RBC) (rules : List Str) (o : Option Str),
    (∀ x ∈ xs, Item x) → declsInAll sel cur rules o xs = declsInAll sel' cur' rules o xs
  | [], rules, o, _ => rfl
  | x :: xs, rules, o, h => by
    rw [declsInAll, declsInAll, decls_item sel sel' cur cur' x rules o (h x (by simp)),
      declsAll_item sel sel' cur cur' xs rules o (fun y hy => h y (by simp [hy]))]
end

theorem declsAll_frames (sel sel' : Str → Str) (cur cur' : Str) (rules : List Str) : ∀ (xs : List RBC),
    (∀ x ∈ xs, ∃ t content, x = .rule [t] content ∧ Str.trim t = t ∧ ∀ y ∈ content, Item y) →
    declsInAll sel cur rules none xs = declsInAll sel' cur' rules none xs
  | [], _ => rfl
  | x :: xs, h => by
    obtain ⟨t, content, rfl, -, hc⟩ := h x (by simp)
    rw [declsInAll, declsInAll, declsAll_frames sel sel' cur cur' rules xs (fun y hy => h y (by simp [hy])), declsIn,
      declsIn, declsAll_item sel sel' cur cur' content _ _ hc]

theorem animationsAll_congr {sel sel' : Str → Str} {cur cur' : Str} {rules : List Str} : ∀ {xs : List RBC},
    (∀ x ∈ xs, animationsIn sel cur rules x = animationsIn sel' cur' rules x) →
    animationsInAll sel cur rules xs = animationsInAll sel' cur' rules xs
  | [], _ => rfl
  | x :: xs, h => by
    rw [animationsInAll, animationsInAll, h x (by simp), animationsAll_congr (fun y hy => h y (by simp [hy]))]

theorem animations_item (sel sel' : Str → Str) (cur cur' : Str) {x : RBC} (h : Item x) : ∀ rules,
    animationsIn sel cur rules x = animationsIn sel' cur' rules x := by
  induction h with
  | attr k v _ => intro rules; rfl
  | rule cond content hc hb ih =>
    intro rules
    rw [animationsIn, animationsIn, declsAll_item sel sel' cur cur' content _ _ hb,
      animationsAll_congr (fun y hy => ih y hy _)]

theorem animations_scopeItem (sel sel' : Str → Str) (cur cur' : Str) {x : RBC} (h : ScopeItem x) : ∀ rules,
    animationsIn sel cur rules x = animationsIn sel' cur' rules x := by
  induction h with
  | dangling content _ hc =>
    intro rules
    rw [animationsIn, animationsIn]
    refine animationsAll_congr ?_
    intro y hy
    obtain ⟨k, v, rfl, -⟩ := hc y hy
    rfl
  | block sels content _ _ hc =>
    intro rules
    rw [animationsIn, animationsIn]
    exact animationsAll_congr (fun y hy => animations_item sel sel' cur cur' (hc y hy) _)
  | rule cond content hc _ ih =>
    intro rules
    have hk : ¬ isKeyframes cond.flatten := by
      obtain ⟨n, hn, t, rfl, -⟩ := hc
      simp only [List.mem_cons, List.not_mem_nil, or_false] at hn
      rcases hn with rfl | rfl | rfl <;>
        (rintro ⟨u, hu⟩; simp at hu)
    rw [animationsIn, animationsIn, if_neg hk, if_neg hk]
    exact animationsAll_congr (fun y hy => ih y hy _)
  | keyframes cond frames hc hfr =>
    intro rules
    have hk : isKeyframes cond.flatten := by
      obtain ⟨n, hn, t, rfl, -⟩ := hc
      simp only [List.mem_singleton] at hn
      subst hn
      exact ⟨c! " " ++ t, by simp⟩
    rw [animationsIn, animationsIn, if_pos hk, if_pos hk, declsAll_frames sel sel' cur cur' [] frames hfr]

end AnimP

/-- The `@keyframes` of a sheet that is parsed from css stand outside of blocks. (A selector
can begin with `@` after white space beyond ASCII only.) -/
theorem C99_parsed (css : Str) (s : Sheet) (h : parse css = some s)
    (hs : ∀ t ∈ selectorTextsAll (s.map ScopeContent.toRBC), t.head? ≠ some '@') : FramesOutside s := by
  refine AnimP.framesAll_of ?_
  intro x hx
  obtain ⟨y, hy, rfl⟩ := List.mem_map.1 hx
  exact AnimP.frames_scopeItem (C14_shape css s h y hy) (fun t ht => hs t (AnimP.mem_selectorTextsAll hx ht))

/-- The class is not part of the animations of css: they are the same, with the same names and
frames, for every class and without one. -/
theorem C99_no_class (css : Str) (s : Sheet) (h : parse css = some s) (cls cls' : Option Str) :
    animations cls s = animations cls' s := by
  refine AnimP.animationsAll_congr ?_
  intro x hx
  obtain ⟨y, hy, rfl⟩ := List.mem_map.1 hx
  exact AnimP.animations_scopeItem _ _ _ _ (C14_shape css s h y hy) _

set_option maxRecDepth 16000 in
/-- Non-vacuity, of both: an animation in an at-rule, between blocks. -/
example : ∃ s, parse (c! "top: 0; a, b > c { left: 0; } @media print { @keyframes x { from, 5% { top: 0; } to { top: 1px; } } }") =
      some s ∧ (∀ t ∈ selectorTextsAll (s.map ScopeContent.toRBC), t.head? ≠ some '@') ∧
    animations (some (c! "k")) s = [⟨[c! "@media print"], c! "@keyframes x",
      [⟨[c! "from, 5%"], c! "top", c! "0"⟩, ⟨[c! "to"], c! "top", c! "1px"⟩]⟩] := by
  refine ⟨_, by with_unfolding_all rfl, by decide +kernel, by decide +kernel⟩

/-! ### The page -/

namespace Manager

theorem pageAnimations_elements (cs : List Content) (h : ∀ c ∈ cs, browserAnimations c.text = some c.animations) :
    pageAnimations (cs.map Content.element) = some (cs.flatMap Content.animations) := by
  induction cs with
  | nil => rfl
  | cons c cs ih =>
    rw [List.map_cons, Content.element, pageAnimations, h c (by simp), ih (fun c' hc' => h c' (by simp [hc']))]
    rfl

theorem pageAnimations_isStyle (cs : List Child) : pageAnimations (cs.filter Child.isStyle) = pageAnimations cs := by
  induction cs with
  | nil => rfl
  | cons c cs ih =>
    cases c with
    | other n => simpa [pageAnimations, Child.isStyle] using ih
    | style id t => rw [List.filter_cons_of_pos rfl, pageAnimations, pageAnimations, ih]

theorem animations_created {c : Content} (ht : TextOk c) (ho : c.origin = .created) (hid : cssIdent c.id = true)
    (hws : ∀ x ∈ c.id, Str.isWhitespace x = false) (hwhole : WholeSheet c.key.ast) (hf : FramesOutside c.key.ast) :
    browserAnimations c.text = some c.animations := by
  have : c.text = c.key.ast.toStyleStr (if c.key.isGlobal then none else some c.id) := by
    rw [ht]; simp [ho]
  rw [this, Content.animations]
  refine C99_animations _ _ ?_ hwhole hf
  intro x hx
  split at hx
  · cases hx
  · simp only [Option.mem_def, Option.some.injEq] at hx
    subst hx
    exact cleanClass_of_ident hid hws

/-- **C99**, the page, with the assumptions of `C89_application`: a browser finds in a
container the animations of the styles that are alive, in the order of their creation. -/
theorem C99_page (env : Env) (hw : env.wasm = true) (d : Dom)
    (ops : List Op) (s : St) (hs : s = run env ops (St.init d)) (hids : FreshIds env s.ctr)
    (hload : ∀ c ∈ s.heap, c.origin = .created) (hpref : ∀ c ∈ s.heap, cssIdent c.key.pref = true)
    (hmgr : ∀ m ∈ s.mgrs, m.log = none ∧ ∃ i, m.container = some i ∧ Attached d i)
    (hd : ∀ x ∈ d.inDoc, x.isStyle = false) (i : Nat) (ha : Attached d i)
    (hwh : ∀ c ∈ living s i, WholeSheet c.key.ast ∧ FramesOutside c.key.ast ∧ ∀ x ∈ c.id, Str.isWhitespace x = false) :
    pageAnimations (s.dom.childrenOf i) = some ((living s i).flatMap Content.animations) := by
  rw [← pageAnimations_isStyle, (C89_application env hw d ops s hs hids hload hpref hmgr hd i ha).1]
  apply pageAnimations_elements
  intro c hc
  obtain ⟨p, h1, -, h3⟩ := mem_living.1 hc
  have hmem := List.mem_of_getElem? h1
  have hid : cssIdent c.id = true := by
    subst hs
    obtain ⟨num, hnum⟩ := numbered_run env ops (Inv.init d) (numbered_init env d)
    obtain ⟨h3, h4⟩ := hnum.id p c h1 (hload c hmem)
    rw [h4]
    exact hids.ident h3 (hpref c hmem)
  obtain ⟨h4, h5, h6⟩ := hwh c hc
  exact animations_created (text_run env ops (Inv.init d) (by simp [St.init]) c (hs ▸ hmem)) h3.1 hid h6 h4 h5

end Manager

theorem usedFor_append (holds : Str → Bool) (n : Str) (as bs : List Animation) :
    usedFor holds n (as ++ bs) = (usedFor holds n bs).or (usedFor holds n as) := by
  simp only [usedFor, List.filter_append, List.getLast?_append]

namespace Manager

theorem used_exactly (holds : Str → Bool) (n : Str) (s : St) (i : Nat)
    (hpage : pageAnimations (s.dom.childrenOf i) = some ((living s i).flatMap Content.animations))
    (before after : List Content) (c : Content) (hc : living s i = before ++ c :: after) (a : Animation)
    (ha : usedFor holds n c.animations = some a) :
    (∃ as, pageAnimations (s.dom.childrenOf i) = some as ∧ usedFor holds n as = some a) ↔
      ∀ b, usedFor holds n (after.flatMap Content.animations) = some b → b = a := by
  rw [hpage, hc]
  simp only [Option.some.injEq, exists_eq_left', List.flatMap_append, List.flatMap_cons, usedFor_append, ha]
  cases usedFor holds n (after.flatMap Content.animations) with
  | none => simp
  | some b => simp

/-- **C99**, exactly when it holds, with the assumptions of `C99_page`: a style that is alive and
has an animation `a` for a name gets it if and only if every style that was created after it, and
is alive, has no animation of this name whose conditions hold, or the last one is the same.
Conditions are decided by `holds`. -/
theorem C99_exactly (env : Env) (hw : env.wasm = true) (d : Dom)
    (ops : List Op) (s : St) (hs : s = run env ops (St.init d)) (hids : FreshIds env s.ctr)
    (hload : ∀ c ∈ s.heap, c.origin = .created) (hpref : ∀ c ∈ s.heap, cssIdent c.key.pref = true)
    (hmgr : ∀ m ∈ s.mgrs, m.log = none ∧ ∃ i, m.container = some i ∧ Attached d i)
    (hd : ∀ x ∈ d.inDoc, x.isStyle = false) (i : Nat) (ha : Attached d i)
    (hwh : ∀ c ∈ living s i, WholeSheet c.key.ast ∧ FramesOutside c.key.ast ∧ ∀ x ∈ c.id, Str.isWhitespace x = false)
    (holds : Str → Bool) (n : Str) (before after : List Content) (c : Content)
    (hc : living s i = before ++ c :: after) (a : Animation) (hu : usedFor holds n c.animations = some a) :
    (∃ as, pageAnimations (s.dom.childrenOf i) = some as ∧ usedFor holds n as = some a) ↔
      ∀ b, usedFor holds n (after.flatMap Content.animations) = some b → b = a :=
  used_exactly holds n s i (C99_page env hw d ops s hs hids hload hpref hmgr hd i ha hwh) before after c hc a hu

theorem usedFor_none {holds : Str → Bool} {n : Str} {as : List Animation} (h : ∀ a ∈ as, a.name ≠ n) :
    usedFor holds n as = none := by
  rw [usedFor, List.getLast?_eq_none_iff, List.filter_eq_nil_iff]
  intro a ha
  simp [h a ha]

theorem usedFor_mem {holds : Str → Bool} {n : Str} {as : List Animation} {a : Animation}
    (h : usedFor holds n as = some a) : a ∈ as ∧ a.name = n := by
  have := List.mem_of_getLast? h
  simp only [List.mem_filter, Bool.and_eq_true, decide_eq_true_eq] at this
  exact ⟨this.1, this.2.1⟩

theorem used_distinct (holds : Str → Bool) (s : St) (i : Nat)
    (hpage : pageAnimations (s.dom.childrenOf i) = some ((living s i).flatMap Content.animations))
    (hne : (living s i).Pairwise (fun c c' => ∀ a ∈ c.animations, ∀ b ∈ c'.animations, a.name ≠ b.name))
    (c : Content) (hc : c ∈ living s i) (n : Str) (a : Animation) (ha : usedFor holds n c.animations = some a) :
    ∃ as, pageAnimations (s.dom.childrenOf i) = some as ∧ usedFor holds n as = some a := by
  obtain ⟨l1, l2, h⟩ := List.append_of_mem hc
  refine (used_exactly holds n s i hpage l1 l2 c h a ha).2 ?_
  intro b hb
  obtain ⟨h1, h2⟩ := usedFor_mem hb
  obtain ⟨c', hc', hb'⟩ := List.mem_flatMap.1 h1
  obtain ⟨h3, h4⟩ := usedFor_mem ha
  rw [h, List.pairwise_append, List.pairwise_cons] at hne
  exact absurd (h4.trans h2.symm) (hne.2.1.1 c' hc' a h3 b hb')

/-- **C99**, the part that holds, with the assumptions of `C99_page`: if no two of the styles that
are alive in a container have an animation of the same name, each of them gets its own animations.
What is missing: styles that share a name (`C99_false`). -/
theorem C99_distinct_partial (env : Env) (hw : env.wasm = true) (d : Dom)
    (ops : List Op) (s : St) (hs : s = run env ops (St.init d)) (hids : FreshIds env s.ctr)
    (hload : ∀ c ∈ s.heap, c.origin = .created) (hpref : ∀ c ∈ s.heap, cssIdent c.key.pref = true)
    (hmgr : ∀ m ∈ s.mgrs, m.log = none ∧ ∃ i, m.container = some i ∧ Attached d i)
    (hd : ∀ x ∈ d.inDoc, x.isStyle = false) (i : Nat) (ha : Attached d i)
    (hwh : ∀ c ∈ living s i, WholeSheet c.key.ast ∧ FramesOutside c.key.ast ∧ ∀ x ∈ c.id, Str.isWhitespace x = false)
    (hne : (living s i).Pairwise (fun c c' => ∀ a ∈ c.animations, ∀ b ∈ c'.animations, a.name ≠ b.name))
    (holds : Str → Bool) (c : Content) (hc : c ∈ living s i) (n : Str) (a : Animation)
    (hu : usedFor holds n c.animations = some a) :
    ∃ as, pageAnimations (s.dom.childrenOf i) = some as ∧ usedFor holds n as = some a :=
  used_distinct holds s i (C99_page env hw d ops s hs hids hload hpref hmgr hd i ha hwh) hne c hc n a hu

/-- Two styles, each with an animation of its own called `spin`. -/
def animOps : List Op :=
  [ .newMgr (c! "stylist") none true none,
    .create 0 .scoped (.text (c! "animation: spin 1s; @keyframes spin { to { top: 9px; } }")) false,
    .create 0 .scoped (.text (c! "animation: spin 1s; @keyframes spin { to { opacity: 0; } }")) false ]

set_option maxRecDepth 16000 in
/-- **C99 is false.** Both styles animate the element with `spin` and define it, scoped to
their class. A browser uses the frames of the second style for both. When the second style is
gone the first one gets its own frames. -/
theorem C99_false :
    let s := run demoEnv animOps (St.init demoPage)
    let s' := run demoEnv [.unregister 1, .drop 1] s
    s.Alive 0 ∧ s.Alive 1 ∧
    pageReads (s.dom.childrenOf 0) = some
      [ ⟨[c! ".stylist-style-0"], c! "animation", c! "spin 1s"⟩, ⟨[c! "@keyframes spin", c! "to"], c! "top", c! "9px"⟩,
        ⟨[c! ".stylist-style-1"], c! "animation", c! "spin 1s"⟩, ⟨[c! "@keyframes spin", c! "to"], c! "opacity", c! "0"⟩ ] ∧
    (pageAnimations (s.dom.childrenOf 0)).bind (usedFor (fun _ => true) (c! "spin")) =
      some ⟨[], c! "@keyframes spin", [⟨[c! "to"], c! "opacity", c! "0"⟩]⟩ ∧
    (pageAnimations (s'.dom.childrenOf 0)).bind (usedFor (fun _ => true) (c! "spin")) =
      some ⟨[], c! "@keyframes spin", [⟨[c! "to"], c! "top", c! "9px"⟩]⟩ := by
  decide +kernel

/-- `animOps` with a third style, whose animation has a name of its own. -/
def animOps3 : List Op :=
  animOps ++ [.create 0 .scoped (.text (c! "animation: go 1s; @media print { @keyframes go { to { left: 1px; } } }")) false]

theorem anim_living : let s := run demoEnv animOps3 (St.init demoPage)
    (living s 0).map Content.animations =
      [ [⟨[], c! "@keyframes spin", [⟨[c! "to"], c! "top", c! "9px"⟩]⟩],
        [⟨[], c! "@keyframes spin", [⟨[c! "to"], c! "opacity", c! "0"⟩]⟩],
        [⟨[c! "@media print"], c! "@keyframes go", [⟨[c! "to"], c! "left", c! "1px"⟩]⟩] ] := by
  have h : ∀ (p : Nat) (c : Content), (run demoEnv animOps3 (St.init demoPage)).heap[p]? = some c →
      Mounts (run demoEnv animOps3 (St.init demoPage)) c 0 := by
    intro p c hc
    have : ∀ c ∈ (run demoEnv animOps3 (St.init demoPage)).heap, c.origin = .created ∧
        ((run demoEnv animOps3 (St.init demoPage)).mgrs[c.mgr]?).map (fun m => (m.log, m.container)) =
          some (none, some 0) := by decide +kernel
    obtain ⟨h1, h2⟩ := this c (List.mem_of_getElem? hc)
    obtain ⟨m, h3, h4⟩ := Option.map_eq_some_iff.1 h2
    simp only [Prod.mk.injEq] at h4
    exact ⟨h1, m, h3, h4⟩
  have e : living (run demoEnv animOps3 (St.init demoPage)) 0 =
      (List.range (run demoEnv animOps3 (St.init demoPage)).heap.length).filterMap fun p =>
        ((run demoEnv animOps3 (St.init demoPage)).heap[p]?).filter fun _ =>
          decide ((run demoEnv animOps3 (St.init demoPage)).Alive p) := by
    rw [living]
    congr 1
    funext p
    cases hc : (run demoEnv animOps3 (St.init demoPage)).heap[p]? with
    | none => rfl
    | some c => simp [Option.filter, h p c hc]
  intro s
  rw [e]
  decide +kernel

/-- Non-vacuity of `C99_page`. -/
theorem anim_page : let s := run demoEnv animOps3 (St.init demoPage)
    pageAnimations (s.dom.childrenOf 0) = some ((living s 0).flatMap Content.animations) := by
  refine C99_page demoEnv rfl demoPage animOps3 _ rfl (freshIds_counter rfl (by decide +kernel)) (by decide +kernel) (by decide +kernel) ?_
    (by decide +kernel) 0 ⟨_, rfl, rfl⟩ ?_
  · intro m hm
    have : ∀ m ∈ (run demoEnv animOps3 (St.init demoPage)).mgrs, m.log = none ∧ m.container = some 0 := by
      decide +kernel
    exact ⟨(this m hm).1, 0, (this m hm).2, _, rfl, rfl⟩
  · intro c hc
    obtain ⟨p, hp, -⟩ := mem_living.1 hc
    have : ∀ c ∈ (run demoEnv animOps3 (St.init demoPage)).heap,
        WholeSheet c.key.ast ∧ FramesOutside c.key.ast ∧ ∀ x ∈ c.id, Str.isWhitespace x = false := by decide +kernel
    exact this c (List.mem_of_getElem? hp)

/-- Non-vacuity of `C99_exactly`: the first style does not get its `spin`, the second one
does, and so does the third one where the condition holds. -/
example : let s := run demoEnv animOps3 (St.init demoPage)
    ∃ c0 c1 c2, living s 0 = [c0, c1, c2] ∧
      (∃ a0, usedFor (fun _ => true) (c! "spin") c0.animations = some a0 ∧
        ¬ ∃ as, pageAnimations (s.dom.childrenOf 0) = some as ∧ usedFor (fun _ => true) (c! "spin") as = some a0) ∧
      (∃ a1, usedFor (fun _ => true) (c! "spin") c1.animations = some a1 ∧
        ∃ as, pageAnimations (s.dom.childrenOf 0) = some as ∧ usedFor (fun _ => true) (c! "spin") as = some a1) ∧
      ∃ a2, usedFor (fun _ => true) (c! "go") c2.animations = some a2 ∧
        ∃ as, pageAnimations (s.dom.childrenOf 0) = some as ∧ usedFor (fun _ => true) (c! "go") as = some a2 := by
  have hl := anim_living
  have hp := anim_page
  simp only at hl hp ⊢
  generalize run demoEnv animOps3 (St.init demoPage) = s at hl hp
  obtain ⟨c0, l0, hv, e0, hl⟩ := List.map_eq_cons_iff.1 hl
  obtain ⟨c1, l1, rfl, e1, hl⟩ := List.map_eq_cons_iff.1 hl
  obtain ⟨c2, l2, rfl, e2, hl⟩ := List.map_eq_cons_iff.1 hl
  obtain rfl := List.map_eq_nil_iff.1 hl
  refine ⟨c0, c1, c2, hv, ?_, ?_, ?_⟩
  · refine ⟨_, by rw [e0]; rfl, ?_⟩
    rw [used_exactly _ _ s 0 hp [] [c1, c2] c0 hv _ (by rw [e0]; rfl)]
    simp only [List.flatMap_cons, List.flatMap_nil, e1, e2]
    decide +kernel
  · refine ⟨_, by rw [e1]; rfl, ?_⟩
    rw [used_exactly _ _ s 0 hp [c0] [c2] c1 hv _ (by rw [e1]; rfl)]
    simp only [List.flatMap_cons, List.flatMap_nil, e2]
    decide +kernel
  · refine ⟨_, by rw [e2]; rfl, ?_⟩
    rw [used_exactly _ _ s 0 hp [c0, c1] [] c2 hv _ (by rw [e2]; rfl)]
    intro b hb
    cases hb

end Manager
