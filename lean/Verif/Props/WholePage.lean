import Verif.Proofs.WholePage
import Verif.Props.Browser

/-!
# The whole page

C89.
-/

namespace Manager

open Spec

/-! ## C89: the page holds exactly the styles that are alive, in order of creation -/

/-- **C89.** In every reachable state of an application in a browser, and in every container
in the document: the elements of the styles that put their elements there are those of the
styles that are alive, each once, in the order of creation. The ids are css identifiers,
pairwise distinct, and the original page did not use them. -/
theorem C89_elements (env : Env) (hw : env.wasm = true) (d : Dom) (ops : List Op) (s : St)
    (hs : s = run env ops (St.init d)) (hid : ∀ c ∈ s.heap, cssIdent c.id = true)
    (hn : (s.heap.map Content.id).Nodup) (i : Nat) (ha : Attached d i)
    (hb : ∀ c ∈ s.heap, Mounts s c i → withId c.id d.inDoc = []) (ours : Child → Bool)
    (ho : ∀ x, ours x = true ↔ ∃ c ∈ s.heap, Mounts s c i ∧ x.styleId? = some c.id) :
    (s.dom.childrenOf i).filter ours = (living s i).map Content.element := by
  have hp : PageInv d s := hs ▸ PageInv.run hw ops (Inv.init d) (hs ▸ hid) (hs ▸ hn) (PageInv.init d)
  have hord : OrderInv d s :=
    hs ▸ OrderInv.run hw ops (Inv.init d) (hs ▸ hid) (hs ▸ hn) (PageInv.init d) (by
      intro p q c c' i _ hc; simp [St.init] at hc)
  have ha' : Attached s.dom i := hs ▸ ha.of_map (attached_run env ops (Inv.init d))
  have hel := fun (p : Nat) (c : Content) (hc : s.heap[p]? = some c) (hm : Mounts s c i) =>
    C22_element_iff_alive env hw d ops s hs hid hn p i c hc hm ha (hb c (List.mem_of_getElem? hc) hm)
  have hours : ∀ c ∈ s.heap, Mounts s c i → ∀ x : Child, x.styleId? = some c.id → ours x = true :=
    fun c h1 h2 x h3 => (ho x).2 ⟨c, h1, h2, h3⟩
  refine elements_eq _ _ (living_nodup hn i) ?_ ?_ ?_
  · intro c hc
    obtain ⟨p, h1, h2, h3⟩ := mem_living.1 hc
    rw [filter_withId (fun x _ h => hours c (List.mem_of_getElem? h1) h3 x h)]
    exact ((hel p c h1 h3).1 h2).2
  · intro x hx
    obtain ⟨hx1, hx2⟩ := List.mem_filter.1 hx
    obtain ⟨c, h1, h2, h3⟩ := (ho x).1 hx2
    obtain ⟨p, hp⟩ := List.getElem?_of_mem h1
    refine ⟨c, mem_living.2 ⟨p, hp, ?_, h2⟩, h3⟩
    apply Classical.byContradiction
    intro hl
    have h4 := ((hel p c hp h2).2 hl).2
    have : x ∈ withId c.id (s.dom.childrenOf i) := List.mem_filter.2 ⟨hx1, by simp [h3]⟩
    rw [h4] at this; cases this
  · refine (living_pairwise s i).imp ?_
    rintro c c' ⟨p, q, h, h1, h2, h3, h4, h5, h6⟩
    have hm1 := List.mem_of_getElem? h1
    have hm2 := List.mem_of_getElem? h2
    rw [← hord p q c c' i h h1 h2 h5 h6 ha' (hb c hm1 h5) (hb c' hm2 h6) h3 h4, List.filter_filter]
    apply List.filter_congr
    intro x _
    by_cases hx : x.styleId? = some c.id ∨ x.styleId? = some c'.id
    · have : ours x = true := hx.elim (hours c hm1 h5 x) (hours c' hm2 h6 x)
      simp [hx, this]
    · simp [hx]

/-- What a browser reads from the elements of styles. -/
theorem pageReads_elements (cs : List Content) (h : ∀ c ∈ cs, browserReads c.text = some c.decls) :
    pageReads (cs.map Content.element) = some (cs.flatMap Content.decls) := by
  induction cs with
  | nil => rfl
  | cons c cs ih =>
    rw [List.map_cons, Content.element, pageReads, h c (by simp), ih (fun c' hc' => h c' (by simp [hc']))]
    rfl

theorem pageReads_isStyle (cs : List Child) : pageReads (cs.filter Child.isStyle) = pageReads cs := by
  induction cs with
  | nil => rfl
  | cons c cs ih =>
    cases c with
    | other n => simpa [pageReads, Child.isStyle] using ih
    | style id t => rw [List.filter_cons_of_pos rfl, pageReads, pageReads, ih]

/-- A created style with whole texts is read as its declarations. -/
theorem reads_created {c : Content} (ht : TextOk c) (ho : c.origin = .created) (hid : cssIdent c.id = true)
    (hws : ∀ x ∈ c.id, Str.isWhitespace x = false) (hwhole : WholeSheet c.key.ast) :
    browserReads c.text = some c.decls := by
  have : c.text = c.key.ast.toStyleStr (if c.key.isGlobal then none else some c.id) := by
    rw [ht]; simp [ho]
  rw [this, Content.decls]
  refine C68_browser_reads _ _ ?_ hwhole
  intro x hx
  split at hx
  · cases hx
  · simp only [Option.mem_def, Option.some.injEq] at hx
    subst hx
    exact cleanClass_of_ident hid hws

/-- **C89** for a whole application: no hydration, no static writers, ids that
differ (`FreshIds`), prefixes that are css identifiers without white space, all containers in the
document, and a page without style elements before. Then the style elements of every
container are those of the styles of that container that are alive, in the order of
creation. If the texts of their sheets are whole, a browser that reads the container finds
the declarations of these styles one after the other, each under the class of its style. -/
theorem C89_application (env : Env) (hw : env.wasm = true) (d : Dom)
    (ops : List Op) (s : St) (hs : s = run env ops (St.init d)) (hids : FreshIds env s.ctr)
    (hload : ∀ c ∈ s.heap, c.origin = .created) (hpref : ∀ c ∈ s.heap, cssIdent c.key.pref = true)
    (hmgr : ∀ m ∈ s.mgrs, m.log = none ∧ ∃ i, m.container = some i ∧ Attached d i)
    (hd : ∀ x ∈ d.inDoc, x.isStyle = false) (i : Nat) (ha : Attached d i) :
    (s.dom.childrenOf i).filter Child.isStyle = (living s i).map Content.element ∧
    ((∀ c ∈ living s i, WholeSheet c.key.ast ∧ ∀ x ∈ c.id, Str.isWhitespace x = false) →
      pageReads (s.dom.childrenOf i) = some ((living s i).flatMap Content.decls)) := by
  have hinv : Inv s := hs ▸ inv_run env ops (Inv.init d)
  have hb : ∀ id, withId id d.inDoc = [] := by
    intro id
    rw [withId, List.filter_eq_nil_iff]
    intro x hx
    have := hd x hx
    cases x <;> simp_all [Child.isStyle, Child.styleId?]
  have hn : (s.heap.map Content.id).Nodup := by
    rw [List.Nodup, List.pairwise_iff_getElem]
    intro a b ha' hb' hab he
    rw [List.length_map] at ha' hb'
    rw [List.getElem_map, List.getElem_map] at he
    have := C21_distinct_classes env d ops s hs hids a b _ _ (List.getElem?_eq_getElem ha')
      (List.getElem?_eq_getElem hb') (hload _ (List.getElem_mem _)) (hload _ (List.getElem_mem _)) he
    omega
  have hid : ∀ c ∈ s.heap, cssIdent c.id = true := by
    intro c hc
    subst hs
    obtain ⟨num, hnum⟩ := numbered_run env ops (Inv.init d) (numbered_init env d)
    obtain ⟨p, hp⟩ := List.getElem?_of_mem hc
    obtain ⟨h0, h1⟩ := hnum.id p c hp (hload c hc)
    rw [h1]
    exact hids.ident h0 (hpref c hc)
  have hall : ∀ c ∈ s.heap, ∃ i, Mounts s c i ∧ Attached d i := by
    intro c hc
    have hlt := hinv.contentMgr c hc
    obtain ⟨h1, i, h2, h3⟩ := hmgr _ (List.getElem_mem hlt)
    exact ⟨i, ⟨hload c hc, _, List.getElem?_eq_getElem hlt, h1, h2⟩, h3⟩
  have hAt : ∀ j, Attached d j → Attached s.dom j := fun j h =>
    hs ▸ h.of_map (attached_run env ops (Inv.init d))
  have key : (s.dom.childrenOf i).filter Child.isStyle = (living s i).map Content.element := by
    classical
    have := C89_elements env hw d ops s hs hid hn i ha (fun c _ _ => hb c.id)
      (fun x => decide (∃ c ∈ s.heap, Mounts s c i ∧ x.styleId? = some c.id)) (by simp)
    rw [← this]
    apply List.filter_congr
    intro x hx
    cases x with
    | other n => simp [Child.isStyle, Child.styleId?]
    | style id t =>
      simp only [Child.isStyle]
      symm
      rw [decide_eq_true_eq]
      have hwi : Child.style id t ∈ withId id (s.dom.childrenOf i) := List.mem_filter.2 ⟨hx, by simp [Child.styleId?]⟩
      obtain ⟨ct, a1, a2⟩ := hAt i ha
      have hdoc : withId id s.dom.inDoc ≠ [] := by
        intro h
        rw [withId_attached a1 a2 h] at hwi; cases hwi
      obtain ⟨y, hy⟩ := List.exists_mem_of_ne_nil _ hdoc
      obtain ⟨hy1, hy2⟩ := List.mem_filter.1 hy
      cases y with
      | other n => simp [Child.styleId?] at hy2
      | style id' t' =>
        simp only [Child.styleId?, Option.some.injEq, decide_eq_true_eq] at hy2
        subst hy2
        rcases C22_no_orphans env hw d ops s hs hid hn (fun c hc => ⟨hall c hc, hb c.id⟩) _ _ hy1 with
          h | ⟨p, c, h1, h2, rfl, -⟩
        · have := hd _ h; cases this
        · obtain ⟨j, hj, haj⟩ := hall c (List.mem_of_getElem? h1)
          by_cases hij : i = j
          · subst hij; exact ⟨c, List.mem_of_getElem? h1, hj, rfl⟩
          · obtain ⟨h4, h5⟩ := (C22_element_iff_alive env hw d ops s hs hid hn p j c h1 hj haj (hb c.id)).1 h2
            have := withId_two hij (hAt i ha) (hAt j haj) c.id
            rw [h4, h5] at this
            have hpos := List.length_pos_of_mem hwi
            simp only [List.length_cons, List.length_nil] at this
            omega
  refine ⟨key, fun hwh => ?_⟩
  rw [← pageReads_isStyle, key]
  apply pageReads_elements
  intro c hc
  obtain ⟨p, h1, -, h3⟩ := mem_living.1 hc
  have hmem := List.mem_of_getElem? h1
  exact reads_created (text_run env ops (Inv.init d) (by simp [St.init]) c (hs ▸ hmem)) h3.1 (hid c hmem)
    (hwh c hc).2 (hwh c hc).1

/-- A history for the examples: two managers that share the first container; the style of
`1px` is gone, the style of `red` is made twice. -/
def wholeOps : List Op :=
  [ .newMgr (c! "stylist") none true none, .newMgr (c! "app") (some 0) true none,
    .create 0 .scoped (.text (c! "color: red;")) false,
    .create 1 .scoped (.text (c! "top: 1px;")) false,
    .create 1 .scoped (.text (c! "color: blue; &:hover { left: 0; }")) false,
    .create 0 .global (.sheet demoRed) false,
    .create 0 .scoped (.text (c! "color: red;")) false,
    .unregister 1, .drop 1 ]

theorem whole_living : let s := run demoEnv wholeOps (St.init demoPage)
    (living s 0).map Content.id = [c! "stylist-style-0", c! "app-style-2", c! "stylist-global-style-3"] := by
  have h : ∀ (p : Nat) (c : Content), (run demoEnv wholeOps (St.init demoPage)).heap[p]? = some c →
      Mounts (run demoEnv wholeOps (St.init demoPage)) c 0 := by
    intro p c hc
    have : ∀ c ∈ (run demoEnv wholeOps (St.init demoPage)).heap, c.origin = .created ∧
        ((run demoEnv wholeOps (St.init demoPage)).mgrs[c.mgr]?).map (fun m => (m.log, m.container)) =
          some (none, some 0) := by decide +kernel
    obtain ⟨h1, h2⟩ := this c (List.mem_of_getElem? hc)
    obtain ⟨m, h3, h4⟩ := Option.map_eq_some_iff.1 h2
    simp only [Prod.mk.injEq] at h4
    exact ⟨h1, m, h3, h4⟩
  have e : living (run demoEnv wholeOps (St.init demoPage)) 0 =
      (List.range (run demoEnv wholeOps (St.init demoPage)).heap.length).filterMap fun p =>
        ((run demoEnv wholeOps (St.init demoPage)).heap[p]?).filter fun _ =>
          decide ((run demoEnv wholeOps (St.init demoPage)).Alive p) := by
    rw [living]
    congr 1
    funext p
    cases hc : (run demoEnv wholeOps (St.init demoPage)).heap[p]? with
    | none => rfl
    | some c => simp [Option.filter, h p c hc]
  simp only [e]
  decide +kernel

set_option maxRecDepth 16000 in
/-- Non-vacuity, with the page and its declarations spelled out: making a style again does
not move it. -/
example : let s := run demoEnv wholeOps (St.init demoPage)
    demoEnv.wasm = true ∧ s.ctr ≤ 2 ^ 64 ∧ (∀ c ∈ s.heap, c.origin = .created) ∧
    (∀ c ∈ s.heap, cssIdent c.key.pref = true) ∧
    (∀ m ∈ s.mgrs, m.log = none ∧ ∃ i, m.container = some i ∧ Attached demoPage i) ∧
    (∀ x ∈ demoPage.inDoc, x.isStyle = false) ∧ Attached demoPage 0 ∧
    (∀ c ∈ living s 0, WholeSheet c.key.ast ∧ ∀ x ∈ c.id, Str.isWhitespace x = false) ∧
    pageReads (s.dom.childrenOf 0) = some
      [ ⟨[c! ".stylist-style-0"], c! "color", c! "red"⟩,
        ⟨[c! ".app-style-2"], c! "color", c! "blue"⟩,
        ⟨[c! ".app-style-2:hover"], c! "left", c! "0"⟩,
        ⟨[c! ":root"], c! "color", c! "red"⟩ ] := by
  refine ⟨rfl, by decide +kernel, by decide +kernel, by decide +kernel, ?_, by decide +kernel, ⟨_, rfl, rfl⟩, ?_,
    by decide +kernel⟩
  · intro m hm
    have : ∀ m ∈ (run demoEnv wholeOps (St.init demoPage)).mgrs, m.log = none ∧ m.container = some 0 := by
      decide +kernel
    exact ⟨(this m hm).1, 0, (this m hm).2, _, rfl, rfl⟩
  · intro c hc
    obtain ⟨p, hp, -⟩ := mem_living.1 hc
    have : ∀ c ∈ (run demoEnv wholeOps (St.init demoPage)).heap,
        WholeSheet c.key.ast ∧ ∀ x ∈ c.id, Str.isWhitespace x = false := by decide +kernel
    exact this c (List.mem_of_getElem? hp)

/-- The order of creation is not the order of use. A style that is made again while the
first one is registered stays at its place, before a style made in between. -/
theorem C89_limit_again :
    let s := run demoEnv [.newMgr (c! "stylist") none true none, .create 0 .scoped (.text (c! "color: red;")) false,
      .create 0 .scoped (.text (c! "color: blue;")) false, .create 0 .scoped (.text (c! "color: red;")) false]
      (St.init demoPage)
    s.className 2 = some (c! "stylist-style-0") ∧
    pageReads (s.dom.childrenOf 0) = some
      [⟨[c! ".stylist-style-0"], c! "color", c! "red"⟩, ⟨[c! ".stylist-style-1"], c! "color", c! "blue"⟩] := by
  decide +kernel

/-- The order is that of one container. Styles of managers with different containers come
in the order of the containers in the document. -/
theorem C89_limit_containers :
    let s := run demoEnv [.newMgr (c! "a") (some 1) true none, .newMgr (c! "b") (some 0) true none,
      .create 0 .scoped (.text (c! "color: red;")) false, .create 1 .scoped (.text (c! "color: blue;")) false]
      (St.init demoPage)
    pageReads s.dom.inDoc = some
      [⟨[c! ".b-style-1"], c! "color", c! "blue"⟩, ⟨[c! ".a-style-0"], c! "color", c! "red"⟩] := by
  decide +kernel

end Manager
