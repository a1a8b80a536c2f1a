import Verif.Props.Animation
import Verif.Props.Cascade
import Verif.Props.Context

/-!
# The page of an application of components

C89, C91 and C99, for providers, `use_style` and `css!`.
-/

namespace Context

open Manager Spec

/-- **C89**, components. In every application with providers, `use_style`, `css!` and whatever else
is done with managers and styles, the style elements of a container are those of the living styles,
in the order of their creation, and a browser reads them so. -/
theorem C89_components (env : Env) (hw : env.wasm = true) (o : Bool) (d : Dom)
    (es : List Event) (a : App) (h : events env o es (App.init d) = some a) (hids : FreshIds env a.st.ctr)
    (hload : ∀ c ∈ a.st.heap, c.origin = .created) (hpref : ∀ c ∈ a.st.heap, cssIdent c.key.pref = true)
    (hmgr : ∀ m ∈ a.st.mgrs, m.log = none ∧ ∃ i, m.container = some i ∧ Attached d i)
    (hd : ∀ x ∈ d.inDoc, x.isStyle = false) (i : Nat) (ha : Attached d i) :
    (a.st.dom.childrenOf i).filter Child.isStyle = (living a.st i).map Content.element ∧
    ((∀ c ∈ living a.st i, WholeSheet c.key.ast ∧ ∀ x ∈ c.id, Str.isWhitespace x = false) →
      pageReads (a.st.dom.childrenOf i) = some ((living a.st i).flatMap Content.decls)) := by
  obtain ⟨-, -, -, ops, hs, -⟩ := events_ok es (AppOk.init d) h
  exact C89_application env hw d ops a.st hs hids hload hpref hmgr hd i ha

/-- **C91**, components. In such an application the declaration that wins the cascade is the one that
should win among those of the living styles. -/
theorem C91_components (env : Env) (hw : env.wasm = true) (o : Bool) (d : Dom)
    (es : List Event) (a : App) (h : events env o es (App.init d) = some a) (hids : FreshIds env a.st.ctr)
    (hload : ∀ c ∈ a.st.heap, c.origin = .created) (hpref : ∀ c ∈ a.st.heap, cssIdent c.key.pref = true)
    (hmgr : ∀ m ∈ a.st.mgrs, m.log = none ∧ ∃ i, m.container = some i ∧ Attached d i)
    (hd : ∀ x ∈ d.inDoc, x.isStyle = false) (i : Nat) (ha : Attached d i)
    (hwhole : ∀ c ∈ living a.st i, WholeSheet c.key.ast ∧ CleanClass c.id ∧ SelectorsOf (SelectorFor c.cls) c.key.ast) :
    ∃ ds, pageReads (a.st.dom.childrenOf i) = some ds ∧
      ∀ {El : Type} (S : Setting El) (e : El) (k : Str) (n : Nat),
        S.Wins ds e k n ↔ S.ShouldWin ((living a.st i).flatMap Content.said) e k n := by
  obtain ⟨-, -, -, ops, hs, -⟩ := events_ok es (AppOk.init d) h
  refine ⟨_, (C89_application env hw d ops a.st hs hids hload hpref hmgr hd i ha).2
    (fun c hc => ⟨(hwhole c hc).1, fun x hx => ((hwhole c hc).2.1.2 x hx).2⟩), ?_⟩
  intro El S e k n
  obtain ⟨ds, h1, h2⟩ := C91_on_the_page (El := El) env hw d ops a.st hs hids hload hpref hmgr hd i ha hwhole
  rw [(C89_application env hw d ops a.st hs hids hload hpref hmgr hd i ha).2
    (fun c hc => ⟨(hwhole c hc).1, fun x hx => ((hwhole c hc).2.1.2 x hx).2⟩)] at h1
  cases h1
  exact h2 S e k n

/-- A provider, three calls of `css!` with two texts below it, and one outside. -/
def pageEvents : List Event :=
  demoClient ++ [ .classes (.below 0) (.text (c! "color: blue;")) false, .classes (.below 0) (.text (c! "&:hover { color: red; }")) false,
    .classes (.below 0) (.text (c! "color: blue;")) false, .classes .outside (.text (c! "color: red;")) false ]

set_option maxRecDepth 16000 in
/-- Non-vacuity: the conditions hold, and the page has three styles. -/
example : ∃ a, events demoEnv false pageEvents (App.init demoPage) = some a ∧ a.st.ctr ≤ 2 ^ 64 ∧
    (∀ c ∈ a.st.heap, c.origin = .created) ∧ (∀ c ∈ a.st.heap, cssIdent c.key.pref = true) ∧
    (∀ m ∈ a.st.mgrs, m.log = none ∧ ∃ i, m.container = some i ∧ Attached demoPage i) ∧
    (∀ x ∈ demoPage.inDoc, x.isStyle = false) ∧ Attached demoPage 0 ∧
    (∀ c ∈ a.st.heap, WholeSheet c.key.ast ∧ CleanClass c.id ∧ SelectorsOf (SelectorFor c.cls) c.key.ast) ∧
    pageReads (a.st.dom.childrenOf 0) = some
      [ ⟨[c! ".one-style-0"], c! "color", c! "blue"⟩, ⟨[c! ".one-style-1:hover"], c! "color", c! "red"⟩,
        ⟨[c! ".stylist-style-2"], c! "color", c! "red"⟩ ] := by
  let a := (events demoEnv false pageEvents (App.init demoPage)).getD (App.init [])
  refine ⟨a, by decide +kernel, by decide +kernel, by decide +kernel, by decide +kernel, ?_, by decide +kernel, ⟨_, rfl, rfl⟩,
    by decide +kernel, by decide +kernel⟩
  have : ∀ m ∈ a.st.mgrs, m.log = none ∧ m.container = some 0 := by decide +kernel
  exact fun m hm => ⟨(this m hm).1, 0, (this m hm).2, ⟨_, rfl, rfl⟩⟩

/-- **C99**, components. In such an application a browser finds in a container the animations of the
living styles, in the order of their creation; and a style gets its own animation for a name if and
only if no living style that was created after it has another one for this name, under conditions
that hold. -/
theorem C99_components (env : Env) (hw : env.wasm = true) (o : Bool) (d : Dom)
    (es : List Event) (a : App) (h : events env o es (App.init d) = some a) (hids : FreshIds env a.st.ctr)
    (hload : ∀ c ∈ a.st.heap, c.origin = .created) (hpref : ∀ c ∈ a.st.heap, cssIdent c.key.pref = true)
    (hmgr : ∀ m ∈ a.st.mgrs, m.log = none ∧ ∃ i, m.container = some i ∧ Attached d i)
    (hd : ∀ x ∈ d.inDoc, x.isStyle = false) (i : Nat) (ha : Attached d i)
    (hwh : ∀ c ∈ living a.st i, WholeSheet c.key.ast ∧ FramesOutside c.key.ast ∧ ∀ x ∈ c.id, Str.isWhitespace x = false) :
    pageAnimations (a.st.dom.childrenOf i) = some ((living a.st i).flatMap Content.animations) ∧
    ∀ (holds : Str → Bool) (n : Str) (before after : List Content) (c : Content),
      living a.st i = before ++ c :: after → ∀ an, usedFor holds n c.animations = some an →
      ((∃ as, pageAnimations (a.st.dom.childrenOf i) = some as ∧ usedFor holds n as = some an) ↔
        ∀ b, usedFor holds n (after.flatMap Content.animations) = some b → b = an) := by
  obtain ⟨-, -, -, ops, hs, -⟩ := events_ok es (AppOk.init d) h
  exact ⟨C99_page env hw d ops a.st hs hids hload hpref hmgr hd i ha hwh,
    fun holds n before after c hc an hu =>
      C99_exactly env hw d ops a.st hs hids hload hpref hmgr hd i ha hwh holds n before after c hc an hu⟩

/-- Two calls of `css!` with an animation of the same name, below a provider and outside. -/
def spinEvents : List Event :=
  demoClient ++ [ .classes (.below 0) (.text (c! "@keyframes spin { to { top: 0; } }")) false,
    .classes .outside (.text (c! "@keyframes spin { to { left: 0; } }")) false ]

set_option maxRecDepth 16000 in
/-- Non-vacuity: the conditions hold, and the page has both animations. -/
example : ∃ a, events demoEnv false spinEvents (App.init demoPage) = some a ∧ a.st.ctr ≤ 2 ^ 64 ∧
    (∀ c ∈ a.st.heap, c.origin = .created) ∧ (∀ c ∈ a.st.heap, cssIdent c.key.pref = true) ∧
    (∀ m ∈ a.st.mgrs, m.log = none ∧ ∃ i, m.container = some i ∧ Attached demoPage i) ∧
    (∀ x ∈ demoPage.inDoc, x.isStyle = false) ∧ Attached demoPage 0 ∧
    (∀ c ∈ a.st.heap, WholeSheet c.key.ast ∧ FramesOutside c.key.ast ∧ ∀ x ∈ c.id, Str.isWhitespace x = false) ∧
    pageAnimations (a.st.dom.childrenOf 0) = some
      [ ⟨[], c! "@keyframes spin", [⟨[c! "to"], c! "top", c! "0"⟩]⟩,
        ⟨[], c! "@keyframes spin", [⟨[c! "to"], c! "left", c! "0"⟩]⟩ ] := by
  let a := (events demoEnv false spinEvents (App.init demoPage)).getD (App.init [])
  refine ⟨a, by decide +kernel, by decide +kernel, by decide +kernel, by decide +kernel, ?_, by decide +kernel, ⟨_, rfl, rfl⟩,
    by decide +kernel, by decide +kernel⟩
  have : ∀ m ∈ a.st.mgrs, m.log = none ∧ m.container = some 0 := by decide +kernel
  exact fun m hm => ⟨(this m hm).1, 0, (this m hm).2, ⟨_, rfl, rfl⟩⟩

end Context
