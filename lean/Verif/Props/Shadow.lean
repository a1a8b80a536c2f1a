import Verif.Proofs.Shadow
import Verif.Props.WholePage
import Verif.Props.Yew

/-!
# Property theorems: styles in shadow roots and frames

C98. The manager can put its elements into a shadow root or a frame. When a style goes, its
element is looked for in the document, which reaches neither.
-/

namespace Manager

open Spec

/-! ## C98: a style is in a shadow root exactly while it is alive -/

/-- A page with a shadow root (container 1). -/
def shadowPage : Dom := [⟨true, []⟩, ⟨false, [.other 3]⟩]

/-- A history: a manager for the shadow root makes three styles, one of them for the whole
root. Two of them go, and the first is made again. One creation fails. -/
def shadowOps : List Op :=
  [ .newMgr (c! "stylist") (some 1) true none,
    .create 0 .scoped (.text (c! "color: red;")) false,
    .create 0 .scoped (.text (c! "top: 1px;")) false,
    .create 0 .global (.text (c! "color: blue;")) false,
    .create 0 .scoped (.text (c! "left: 0;")) true,
    .unregister 0, .drop 0, .unregister 2, .drop 2,
    .create 0 .scoped (.text (c! "color: red;")) false ]

/-- **C98 is false.** Four styles were made for the shadow root, two are alive: all four
elements are there, and a browser goes on applying the rules of the two that are gone. -/
theorem C98_false :
    let s := run demoEnv shadowOps (St.init shadowPage)
    ¬ s.Alive 0 ∧ ¬ s.Alive 2 ∧
    pageReads (s.dom.childrenOf 1) = some
      [ ⟨[c! ".stylist-style-0"], c! "color", c! "red"⟩, ⟨[c! ".stylist-style-1"], c! "top", c! "1px"⟩,
        ⟨[c! ":root"], c! "color", c! "blue"⟩, ⟨[c! ".stylist-style-4"], c! "color", c! "red"⟩ ] := by
  decide +kernel

/-- **C98**, the half that holds: in every reachable state of an application in a browser, a
style that is alive has its element in the container of its manager, also when that is a
shadow root or a frame. No assumption on ids. What is missing: the element is gone when the
style is gone (`C98_false`). -/
theorem C98_alive_partial (env : Env) (hw : env.wasm = true) (d : Dom) (ops : List Op) (s : St)
    (hs : s = run env ops (St.init d)) (p i : Nat) (c : Content) (hc : s.heap[p]? = some c) (ha : s.Alive p)
    (hm : Mounts s c i) (ho : Outside d i) : c.element ∈ s.dom.childrenOf i := by
  subst hs
  have h1 := mem_everMade ops (Inv.init d) (by simp [St.init]) hc ha hm
  have h2 : c.element ∈ ((run env ops (St.init d)).dom.childrenOf i).filter Child.isStyle := by
    rw [run_outside hw ops (Inv.init d) ho]
    exact List.mem_append_right _ (List.mem_map.2 ⟨c, h1, rfl⟩)
  exact (List.mem_filter.1 h2).1

/-- **C98**, what is there instead, exactly: in every reachable state, the style elements in
a shadow root or a frame are those it had before, and after them the elements of all styles
that were ever made for it, alive or not, each once, in the order of their creation. -/
theorem C98_exactly (env : Env) (hw : env.wasm = true) (d : Dom) (ops : List Op) (i : Nat) (ho : Outside d i) :
    ((run env ops (St.init d)).dom.childrenOf i).filter Child.isStyle =
      (d.childrenOf i).filter Child.isStyle ++ (everMade env i ops (St.init d)).map Content.element :=
  run_outside hw ops (Inv.init d) ho

/-- **C98**: no history ever removes a style element from a shadow root or a frame, or puts
one before another that is there. -/
theorem C98_never_removed (env : Env) (hw : env.wasm = true) (d : Dom) (ops ops' : List Op) (s s' : St)
    (hs : s = run env ops (St.init d)) (hs' : s' = run env ops' s) (i : Nat) (ho : Outside d i) :
    (s.dom.childrenOf i).filter Child.isStyle <+: (s'.dom.childrenOf i).filter Child.isStyle := by
  subst hs hs'
  have hi := inv_run env ops (Inv.init d)
  rw [run_outside hw ops' hi (ho.of_map (attached_run env ops (Inv.init d)))]
  exact List.prefix_append _ _

/-- Every style that was made is still on record, and its element belongs into the
container. -/
theorem everMade_heap {env : Env} {i : Nat} : ∀ (ops : List Op) {s : St}, Inv s → ∀ c ∈ everMade env i ops s,
    c ∈ (run env ops s).heap ∧ c.origin = .created
  | [], _, _, c, h => by simp [everMade] at h
  | op :: ops, s, hi, c, h => by
    classical
    have hi' := inv_step env op hi
    simp only [everMade, List.mem_append] at h
    rw [run]
    rcases h with h | h
    · obtain ⟨⟨c', n⟩, h1, rfl⟩ := List.mem_map.1 h
      obtain ⟨h2, h3⟩ := List.mem_filter.1 h1
      simp only [decide_eq_true_eq] at h3
      obtain ⟨k, hk⟩ := heap_run env ops hi'
      rw [hk]
      exact ⟨List.mem_append_left _ (List.mem_of_getElem? (List.mem_zipIdx_iff_getElem?.1 h2)), h3.2.2.1⟩
    · exact everMade_heap ops hi' c h

/-- **C98**: what a browser reads in a shadow root or a frame without style elements
before: the declarations of all styles ever made for it, one after the other. The ids are css
identifiers without white space, and the texts of the sheets are whole. -/
theorem C98_reads (env : Env) (hw : env.wasm = true) (d : Dom) (ops : List Op) (s : St)
    (hs : s = run env ops (St.init d)) (i : Nat) (ho : Outside d i) (hd : (d.childrenOf i).filter Child.isStyle = [])
    (hall : ∀ c ∈ s.heap, cssIdent c.id = true ∧ WholeSheet c.key.ast ∧ ∀ x ∈ c.id, Str.isWhitespace x = false) :
    pageReads (s.dom.childrenOf i) = some ((everMade env i ops (St.init d)).flatMap Content.decls) := by
  subst hs
  rw [← pageReads_isStyle, run_outside hw ops (Inv.init d) ho]
  show pageReads ((d.childrenOf i).filter Child.isStyle ++ _) = _
  rw [hd, List.nil_append]
  apply pageReads_elements
  intro c hc
  obtain ⟨h1, h2⟩ := everMade_heap ops (Inv.init d) c hc
  obtain ⟨a1, a2, a3⟩ := hall c h1
  exact reads_created (text_run env ops (Inv.init d) (by simp [St.init]) c h1) h2 a1 a3 a2

/-- Non-vacuity: the history of `C98_false`. -/
example : let s := run demoEnv shadowOps (St.init shadowPage)
    demoEnv.wasm = true ∧ Outside shadowPage 1 ∧ (shadowPage.childrenOf 1).filter Child.isStyle = [] ∧
    (∀ c ∈ s.heap, cssIdent c.id = true ∧ WholeSheet c.key.ast ∧ ∀ x ∈ c.id, Str.isWhitespace x = false) ∧
    (∃ c, s.heap[1]? = some c ∧ s.Alive 1 ∧ Mounts s c 1) := by
  refine ⟨rfl, ⟨_, rfl, rfl⟩, rfl, by decide +kernel, _, rfl, by decide +kernel, rfl, _, rfl, rfl, rfl⟩

/-- The same history with the container in the document: only the elements of the two
styles that are alive are there. -/
example :
    pageReads ((run demoEnv shadowOps (St.init [⟨true, []⟩, ⟨true, [.other 3]⟩])).dom.childrenOf 1) = some
      [ ⟨[c! ".stylist-style-1"], c! "top", c! "1px"⟩, ⟨[c! ".stylist-style-4"], c! "color", c! "red"⟩ ] := by
  decide +kernel

end Manager

namespace Yew

open Manager

/-- **C98** for `Global`: the css of a `Global` component that was ever rendered into a
shadow root or a frame stays there. `a` is any reachable application, `mgr` and `css` are the
manager and the css of one of its components, and `a'` is any later state, be the component
mounted or not. -/
theorem C98_global_stays (env : Env) (hw : env.wasm = true) (d : Dom) (o : Order) (es es' : List Event) (a a' : App)
    (ha : events env o es (App.init d) = some a) (ha' : events env o es' a = some a')
    (mgr i : Nat) (m : Mgr) (css : Sheet) (hp : some (some mgr, css) ∈ props env o es (App.init d) [])
    (hm : a.st.mgrs[mgr]? = some m) (hlog : m.log = none) (hcont : m.container = some i) (ho : Outside d i)
    (hload : ∀ c ∈ a.st.heap, c.origin = .created) :
    ∃ id, Child.style id (css.toStyleStr none) ∈ a'.st.dom.childrenOf i := by
  obtain ⟨hok, ⟨ops, hops⟩, hprops, -⟩ := events_init ha
  obtain ⟨-, ⟨ops', hops'⟩, -, -⟩ := events_ok es' hok ha'
  rw [← hprops, propsOf, List.mem_map] at hp
  obtain ⟨x, hx, he⟩ := hp
  rw [Option.map_eq_some_iff] at he
  obtain ⟨c, rfl, he⟩ := he
  simp only [Prod.mk.injEq] at he
  obtain ⟨e1, rfl⟩ := he
  obtain ⟨j, hj⟩ := List.getElem?_of_mem hx
  obtain ⟨i', m', p, ct, a1, a2, a3, a4, a5, a6⟩ := hok.comp j c hj
  rw [e1] at a1; cases a1
  rw [hm] at a2; cases a2
  have hmem := List.mem_of_getElem? a4
  have htext : TextOk ct := by
    have : ∀ c ∈ a.st.heap, TextOk c := by
      rw [hops]; exact text_run env ops (Inv.init d) (by simp [St.init])
    exact this ct hmem
  have hel := C98_alive_partial env hw d ops a.st hops p i ct a4 (Or.inl (contentOf_mem a3))
    ⟨hload ct hmem, m, by rw [a5]; exact hm, hlog, hcont⟩ ho
  have h1 : ct.element ∈ (a.st.dom.childrenOf i).filter Child.isStyle := List.mem_filter.2 ⟨hel, rfl⟩
  have h2 := (C98_never_removed env hw d ops ops' a.st a'.st hops hops' i ho).subset h1
  rw [TextOk, a6, hload ct hmem] at htext
  refine ⟨ct.id, ?_⟩
  have h3 := (List.mem_filter.1 h2).1
  rw [Content.element] at h3
  simpa [htext, globalKey] using h3

/-- Non-vacuity: a `Global` in a shadow root changes its css from red to blue and is
unmounted then. Both are there in the end. -/
example (o : Order) :
    (events demoEnv o [.other (.newMgr (c! "stylist") (some 1) true none), .mount 0 demoRed 0 false,
        .update 0 0 demoBlue 0 false, .unmount 0] (App.init shadowPage)).map
      (fun a => (propsOf a, a.st.dom.childrenOf 1)) =
      some ([none], [.other 3, .style (c! "stylist-global-style-0") (c! ":root {\n    color: red;\n}\n"),
        .style (c! "stylist-global-style-1") (c! ":root {\n    color: blue;\n}\n")]) := by
  obtain ⟨a, b⟩ := o
  cases a <;> cases b <;> decide +kernel

/-- Non-vacuity: the hypotheses of `C98_global_stays` before the last two events. -/
example : ∃ a, events demoEnv demoOrder [.other (.newMgr (c! "stylist") (some 1) true none), .mount 0 demoRed 0 false]
      (App.init shadowPage) = some a ∧
    (events demoEnv demoOrder [.update 0 0 demoBlue 0 false, .unmount 0] a).isSome = true ∧
    some (some 0, demoRed) ∈ props demoEnv demoOrder
      [.other (.newMgr (c! "stylist") (some 1) true none), .mount 0 demoRed 0 false] (App.init shadowPage) [] ∧
    (∃ m, a.st.mgrs[0]? = some m ∧ m.log = none ∧ m.container = some 1) ∧ Outside shadowPage 1 ∧
    (∀ c ∈ a.st.heap, c.origin = .created) :=
  ⟨(events demoEnv demoOrder [.other (.newMgr (c! "stylist") (some 1) true none), .mount 0 demoRed 0 false]
      (App.init shadowPage)).get (by decide +kernel), by simp, by decide +kernel, by decide +kernel,
    ⟨_, rfl, rfl, rfl⟩, ⟨_, rfl, rfl⟩, by decide +kernel⟩

end Yew
