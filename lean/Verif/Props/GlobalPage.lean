import Verif.Proofs.GlobalPage
import Verif.Props.WholePage
import Verif.Props.Yew

/-!
# The page of an application of `Global` components

C100.
-/

namespace Yew

open Manager Spec

/-! ## C100: the page shows the css of the mounted components, in order -/

theorem styleTexts_elements (cs : List Child) : styleTexts (cs.filter Child.isStyle) = styleTexts cs := by
  induction cs with
  | nil => rfl
  | cons c cs ih =>
    cases c with
    | other n => rw [List.filter_cons_of_neg (by simp [Child.isStyle])]; exact ih
    | style id t => rw [List.filter_cons_of_pos rfl]; simp only [styleTexts, List.filterMap_cons]; exact congrArg _ ih

theorem styleTexts_map (cs : List Content) : styleTexts (cs.map Content.element) = cs.map Content.text := by
  induction cs with
  | nil => rfl
  | cons c cs ih => simpa [styleTexts, Content.element] using ih

/-- **C100.** A browser, ids that differ (`FreshIds`), no hydration, no static
writers, prefixes that are css identifiers, all containers in the document and a page
without style elements before. Any history of mounting, rendering and unmounting `Global`
components in which nobody else makes styles and no two mounted components under one
manager have the same css. Then the style elements of every container are those of the
mounted components whose managers use it, one each, in the order in which the components
were mounted or last given something else. If their css is whole, a browser reads exactly
their declarations, in this order. -/
theorem C100_page (env : Env) (hw : env.wasm = true) (d : Dom) (o : Order)
    (es : List Event) (a : App) (ha : events env o es (App.init d) = some a) (hids : FreshIds env a.st.ctr)
    (hpref : ∀ m ∈ a.st.mgrs, cssIdent m.pref = true)
    (hmgr : ∀ m ∈ a.st.mgrs, m.log = none ∧ ∃ i, m.container = some i ∧ Attached d i)
    (hd : ∀ x ∈ d.inDoc, x.isStyle = false) (honly : OnlyGlobalStyles es)
    (hdiff : Different env o es (App.init d) []) (i : Nat) (hi : Attached d i) :
    let mounted := (shown env o es (App.init d) []).filter (fun e => e.within a.st i)
    styleTexts (a.st.dom.childrenOf i) = mounted.map (fun e => e.css.toStyleStr none) ∧
    ((∀ e ∈ mounted, WholeSheet e.css) →
      pageReads (a.st.dom.childrenOf i) = some (mounted.flatMap (fun e => decls none e.css))) := by
  obtain ⟨hok, ⟨ops, hops⟩, -, -⟩ := events_init ha
  have h0 : ∀ i k, Hold False (Own (App.init d).comps) i k (App.init d).st := by
    refine fun i k => ⟨?_, ?_⟩
    · intro h p e; simp [App.init, St.init, St.contentOf] at e
    · rintro p ⟨m, e, -⟩; simp [App.init, St.init] at e
  obtain ⟨hord, hhold⟩ := events_ord es (AppOk.init d) ha (Ord.init d) h0 honly hdiff
  have hall : AllGlobal a.st := events_tame es (AppOk.init d) ha honly (by intro c hc; simp [App.init, St.init] at hc)
  have hload : ∀ c ∈ a.st.heap, c.origin = .created := fun c hc => (hall c hc).1
  have hlive := living_shown hord hok hhold hload (fun m hm => (hmgr m hm).1) i
  have hel := (C89_application env hw d ops a.st hops hids hload
    (fun c hc => by obtain ⟨-, m, h1, h2⟩ := hall c hc; rw [h2]; exact hpref m (List.mem_of_getElem? h1)) hmgr hd i hi).1
  have hmem : ∀ c ∈ living a.st i, c.key.isGlobal = true ∧ c.text = c.key.ast.toStyleStr none ∧
      ∃ e ∈ (shown env o es (App.init d) []).filter (fun e => e.within a.st i), e.css = c.key.ast := by
    intro c hc
    have h1 : (c.key.isGlobal, c.key.ast) ∈ (living a.st i).map (fun c => (c.key.isGlobal, c.key.ast)) :=
      List.mem_map.2 ⟨c, hc, rfl⟩
    rw [hlive] at h1
    obtain ⟨e, he, h2⟩ := List.mem_map.1 h1
    simp only [Prod.mk.injEq] at h2
    obtain ⟨p, h3, -⟩ := mem_living.1 hc
    have hcm := List.mem_of_getElem? h3
    have ht : TextOk c := text_run env ops (Inv.init d) (by simp [St.init]) c (hops ▸ hcm)
    refine ⟨h2.1.symm, ?_, e, he, h2.2⟩
    rw [ht, ← h2.1, hload c hcm]; simp
  have hast : (living a.st i).map (fun c => c.key.ast) =
      ((shown env o es (App.init d) []).filter (fun e => e.within a.st i)).map Shown.css := by
    have := congrArg (List.map Prod.snd) hlive
    simpa [List.map_map, Function.comp_def] using this
  refine ⟨?_, fun hwh => ?_⟩
  · rw [← styleTexts_elements, hel, styleTexts_map,
      List.map_congr_left (fun c hc => (hmem c hc).2.1),
      show (fun c : Content => c.key.ast.toStyleStr none) = (fun s : Sheet => s.toStyleStr none) ∘ (fun c => c.key.ast) from rfl,
      ← List.map_map, hast, List.map_map]
    rfl
  · rw [← pageReads_isStyle, hel, pageReads_elements]
    · congr 1
      have h1 : ∀ c ∈ living a.st i, c.decls = decls none c.key.ast := by
        intro c hc; rw [Content.decls, (hmem c hc).1]; rfl
      rw [← List.flatMap_map (f := Shown.css) (g := fun s => decls none s), ← hast, List.flatMap_map]
      simp only [List.flatMap]
      rw [List.map_congr_left h1]
    · intro c hc
      obtain ⟨h1, h2, e, h3, h4⟩ := hmem c hc
      rw [h2, Content.decls, h1]
      exact C68_browser_reads _ none (by simp) (h4 ▸ hwh e h3)

/-- `color: green; top: 1px;` -/
def demoGreen : Sheet := [.block [] [.attr (c! "color") [c! "green"], .attr (c! "top") [c! "1px"]]]

/-- A history for the example: two managers, four components; the first one changes its
css, the second one is unmounted, the third one is rendered with what it has. -/
def pageEvents : List Event :=
  [ .other (.newMgr (c! "stylist") none true none), .other (.newMgr (c! "app") (some 1) true none),
    .mount 0 demoRed 0 false, .mount 0 demoBlue 0 false, .mount 0 demoGreen 0 false, .mount 1 demoRed 0 false,
    .unmount 1, .update 0 0 demoBlue 0 false, .update 2 0 demoGreen 0 false ]

set_option maxRecDepth 16000 in
/-- Non-vacuity, with the page spelled out. -/
example : ∃ a, events demoEnv demoOrder pageEvents (App.init demoPage) = some a ∧ demoEnv.wasm = true ∧ a.st.ctr ≤ 2 ^ 64 ∧
    (∀ m ∈ a.st.mgrs, cssIdent m.pref = true) ∧
    (∀ m ∈ a.st.mgrs, m.log = none ∧ (m.container = some 0 ∨ m.container = some 1)) ∧
    Attached demoPage 0 ∧ Attached demoPage 1 ∧ (∀ x ∈ demoPage.inDoc, x.isStyle = false) ∧ OnlyGlobalStyles pageEvents ∧
    Different demoEnv demoOrder pageEvents (App.init demoPage) [] ∧
    ((shown demoEnv demoOrder pageEvents (App.init demoPage) []).filter (fun e => e.within a.st 0)).map
      (fun e => (e.comp, e.css)) = [(2, demoGreen), (0, demoBlue)] ∧
    WholeSheet demoGreen ∧ WholeSheet demoBlue ∧
    pageReads (a.st.dom.childrenOf 0) = some
      [⟨[c! ":root"], c! "color", c! "green"⟩, ⟨[c! ":root"], c! "top", c! "1px"⟩, ⟨[c! ":root"], c! "color", c! "blue"⟩] := by
  refine ⟨(events demoEnv demoOrder pageEvents (App.init demoPage)).get (by decide +kernel), by simp, rfl, by decide +kernel,
    by decide +kernel, by decide +kernel, ⟨_, rfl, rfl⟩, ⟨_, rfl, rfl⟩, by decide +kernel, ?_, by decide +kernel,
    by decide +kernel, by decide +kernel, by decide +kernel, by decide +kernel⟩
  intro e he
  simp only [pageEvents, List.mem_cons, List.not_mem_nil, or_false] at he
  rcases he with rfl | rfl | rfl | rfl | rfl | rfl | rfl | rfl | rfl <;> simp

/-- The css of mounted components must be different. Of red, blue and red, the last one
shares the element of the first one. It keeps its place when the first one is unmounted:
the components that are mounted then are blue and red, but the page has red before blue. -/
theorem C100_limit_equal (o : Order) :
    let es : List Event := [.other (.newMgr (c! "stylist") none true none), .mount 0 demoRed 0 false,
      .mount 0 demoBlue 0 false, .mount 0 demoRed 0 false, .unmount 0]
    (shown demoEnv o es (App.init demoPage) []).map (fun e => (e.comp, e.css)) = [(1, demoBlue), (2, demoRed)] ∧
    (events demoEnv o es (App.init demoPage)).map (fun a => styleTexts (a.st.dom.childrenOf 0)) =
      some [demoRed.toStyleStr none, demoBlue.toStyleStr none] := by
  obtain ⟨_ | _, _ | _⟩ := o <;> decide +kernel

end Yew
