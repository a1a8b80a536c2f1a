import Verif.Proofs.Yew
import Verif.Props.Manager

/-!
# Properties of Yew components

C49, C50 and C53. A reachable application is `events env o es (App.init d) = some a`: any
history of mounting, rendering and unmounting any number of `Global` components, mixed
with any other operations on managers, styles and the page; `o` is the order in which
`use_memo` drops things.
-/

namespace Yew

open Manager

/-! ## A concrete history, for the examples -/

/-- `color: blue;` -/
def demoBlue : Sheet := [.block [] [.attr (c! "color") [c! "blue"]]]

/-- Yew 0.21 and later: the old memo goes first, its dependencies before its value. -/
def demoOrder : Order := { dropFirst := true, depsFirst := true }

/-- Two `Global` components with the same css under manager 0, and one under manager 1. -/
def demoStart : List Event :=
  [ .other (.newMgr (c! "stylist") none true none),
    .other (.newMgr (c! "app") (some 1) true none),
    .mount 0 demoRed 0 false,
    .mount 0 demoRed 0 false,
    .mount 1 demoRed 0 false ]

/-! ## C49: css is in the document exactly while a `Global` with it is mounted -/

/-- **C49.** A browser, ids that differ (`FreshIds`), no hydration, prefixes that
are CSS identifiers, containers in the document, no static writers, and a page without
elements with our ids before. Then, whatever happened: the css last given to each mounted
`Global` is in the document, as one style element of the style with that css. And a style
that is used by no mounted `Global`, and that nobody else ever asked for, has no element:
every style element in the document was there before or belongs to another style that is
alive. -/
theorem C49_global (env : Env) (hw : env.wasm = true) (d : Dom) (o : Order)
    (es : List Event) (a : App) (ha : events env o es (App.init d) = some a) (hids : FreshIds env a.st.ctr)
    (hload : ∀ c ∈ a.st.heap, c.origin = .created) (hpref : ∀ c ∈ a.st.heap, cssIdent c.key.pref = true)
    (hmgr : ∀ m ∈ a.st.mgrs, m.log = none ∧ ∃ i, m.container = some i ∧ Attached d i)
    (hb : ∀ c ∈ a.st.heap, withId c.id d.inDoc = []) :
    (∀ (mgr : Option Nat) (css : Sheet), some (mgr, css) ∈ props env o es (App.init d) [] →
      ∃ (i : Nat) (m : Mgr) (c : Content), mgr = some i ∧ a.st.mgrs[i]? = some m ∧ c ∈ a.st.heap ∧ c.mgr = i ∧
        c.key = globalKey m css ∧ withId c.id a.st.dom.inDoc = [.style c.id (css.toStyleStr none)]) ∧
    (∀ (i : Nat) (m : Mgr) (css : Sheet), a.st.mgrs[i]? = some m →
      some (some i, css) ∉ props env o es (App.init d) [] →
      AlongEvents env o (OnlyGlobals i (globalKey m css)) es (App.init d) →
      (∀ c ∈ a.st.heap, c.mgr = i → c.key = globalKey m css → withId c.id a.st.dom.inDoc = []) ∧
      (∀ id text, Child.style id text ∈ a.st.dom.inDoc → Child.style id text ∈ d.inDoc ∨
        ∃ (p : Nat) (c : Content), a.st.heap[p]? = some c ∧ a.st.Alive p ∧ c.id = id ∧ c.text = text ∧
          ¬ (c.mgr = i ∧ c.key = globalKey m css))) := by
  obtain ⟨hok, ⟨ops, hops⟩, hprops, hhold⟩ := events_init ha
  obtain ⟨h1, h2⟩ := C22_application env hw d ops a.st hops hids hload hpref hmgr hb
  have htext : ∀ c ∈ a.st.heap, TextOk c := by
    rw [hops]; exact text_run env ops (Inv.init d) (by simp [St.init])
  refine ⟨?_, ?_⟩
  · intro mgr css hp
    rw [← hprops, propsOf, List.mem_map] at hp
    obtain ⟨x, hx, he⟩ := hp
    rw [Option.map_eq_some_iff] at he
    obtain ⟨c, rfl, he⟩ := he
    cases he
    obtain ⟨j, hj⟩ := List.getElem?_of_mem hx
    obtain ⟨i, m, p, ct, a1, a2, a3, a4, a5, a6⟩ := hok.comp j c hj
    refine ⟨i, m, ct, a1, a2, List.mem_of_getElem? a4, a5, a6, ?_⟩
    have hal : a.st.Alive p := Or.inl (contentOf_mem a3)
    rw [h1 p ct a4, if_pos hal, Content.element]
    have := htext ct (List.mem_of_getElem? a4)
    rw [TextOk, a6, hload ct (List.mem_of_getElem? a4)] at this
    simp [this, globalKey]
  · intro i m css hm hp hg
    have hh := hhold i _ hg
    have hdead : ∀ (p : Nat) (c : Content), a.st.heap[p]? = some c → c.mgr = i → c.key = globalKey m css → ¬ a.st.Alive p := by
      intro p c hc e1 e2 hal
      have hk : IsK a.st i (globalKey m css) p := ⟨c, hc, e1, e2⟩
      have hx : ∃ x, Own a.comps x ∧ a.st.contentOf x = some p := by
        rcases alive_cases hok.inv hk hal with ⟨x, hx⟩ | hr
        · exact ⟨x, hh.handle x p hx hk, hx⟩
        · exact (hh.reg p hr).resolve_left id
      obtain ⟨x, ⟨j, cp, hj, rfl⟩, hx⟩ := hx
      have hu := ((hok.comp j cp hj).uses hx).1 hk
      obtain ⟨b1, m', b2, b3⟩ := hu
      rw [hm] at b2; cases b2
      have hcss : cp.css = css := by
        simp only [globalKey, Key.mk.injEq, true_and] at b3; exact b3
      apply hp
      rw [← hprops, propsOf, List.mem_map]
      exact ⟨some cp, List.mem_of_getElem? hj, by simp [b1, hcss]⟩
    refine ⟨?_, ?_⟩
    · intro c hc e1 e2
      obtain ⟨p, hp'⟩ := List.getElem?_of_mem hc
      rw [h1 p c hp', if_neg (hdead p c hp' e1 e2)]
    · intro id text he
      rcases h2 id text he with h | ⟨p, c, c1, c2, c3, c4⟩
      · exact Or.inl h
      · exact Or.inr ⟨p, c, c1, c2, c3, c4, fun ⟨e1, e2⟩ => hdead p c c1 e1 e2 c2⟩

/-- **C49**, in any environment and whatever the state of the page: a style that only
`Global` components ask for is alive only as the style of one that is mounted. So there
are never more elements with a css than mounted components with it. -/
theorem C49_alive_only_mounted (env : Env) (d : Dom) (o : Order) (es : List Event) (a : App)
    (ha : events env o es (App.init d) = some a) (i : Nat) (m : Mgr) (css : Sheet) (hm : a.st.mgrs[i]? = some m)
    (hg : AlongEvents env o (OnlyGlobals i (globalKey m css)) es (App.init d)) (p : Nat) (c : Content)
    (hc : a.st.heap[p]? = some c) (hci : c.mgr = i) (hck : c.key = globalKey m css) :
    a.st.Alive p ↔ ∃ (j : Nat) (cp : Comp), a.comps[j]? = some (some cp) ∧ a.st.mgrOf cp.mh = some i ∧ cp.css = css ∧
      a.st.contentOf cp.h = some p := by
  obtain ⟨hok, -, -, hhold⟩ := events_init ha
  have hh := hhold i _ hg
  have hk : IsK a.st i (globalKey m css) p := ⟨c, hc, hci, hck⟩
  constructor
  · intro hal
    have hx : ∃ x, Own a.comps x ∧ a.st.contentOf x = some p := by
      rcases alive_cases hok.inv hk hal with ⟨x, hx⟩ | hr
      · exact ⟨x, hh.handle x p hx hk, hx⟩
      · exact (hh.reg p hr).resolve_left id
    obtain ⟨x, ⟨j, cp, hj, rfl⟩, hx⟩ := hx
    obtain ⟨b1, m', b2, b3⟩ := ((hok.comp j cp hj).uses hx).1 hk
    rw [hm] at b2; cases b2
    simp only [globalKey, Key.mk.injEq, true_and] at b3
    exact ⟨j, cp, hj, b1, b3, hx⟩
  · rintro ⟨j, cp, -, -, -, h⟩
    exact Or.inl (contentOf_mem h)

/-- Non-vacuity: `demoStart`, then one component changes its css and one is unmounted. The
hypotheses of C49 hold, for the red css under manager 0, which is not used any more. -/
example : ∃ a, events demoEnv demoOrder (demoStart ++ [.update 0 0 demoBlue 0 false, .unmount 1]) (App.init demoPage) = some a ∧
    a.st.ctr ≤ 2 ^ 64 ∧ (∀ c ∈ a.st.heap, c.origin = .created) ∧ (∀ c ∈ a.st.heap, cssIdent c.key.pref = true) ∧
    (∀ m ∈ a.st.mgrs, m.log = none ∧ (m.container = some 0 ∨ m.container = some 1)) ∧
    (∀ c ∈ a.st.heap, withId c.id demoPage.inDoc = []) ∧ Attached demoPage 0 ∧ Attached demoPage 1 ∧
    some (some 0, demoRed) ∉ props demoEnv demoOrder (demoStart ++ [.update 0 0 demoBlue 0 false, .unmount 1])
      (App.init demoPage) [] ∧
    ∀ k, AlongEvents demoEnv demoOrder (OnlyGlobals 0 k) (demoStart ++ [.update 0 0 demoBlue 0 false, .unmount 1])
      (App.init demoPage) := by
  refine ⟨(events demoEnv demoOrder (demoStart ++ [.update 0 0 demoBlue 0 false, .unmount 1]) (App.init demoPage)).get
      (by decide +kernel), by simp, by decide +kernel, by decide +kernel, by decide +kernel, by decide +kernel,
    by decide +kernel, ⟨_, rfl, rfl⟩, ⟨_, rfl, rfl⟩, by decide +kernel, fun k => AlongEvents.of_all _ _ ?_⟩
  intro e he a op hop
  subst hop
  simp only [demoStart, List.cons_append, List.nil_append, List.mem_cons, List.not_mem_nil, or_false, Event.other.injEq,
    reduceCtorEq, or_self] at he
  rcases he with rfl | rfl <;> simp [Makes]

/-- Non-vacuity: three components, one changes its css, one is unmounted; the css that is
not used any more is gone, the others are there. -/
example :
    let es := demoStart ++ [.update 0 0 demoBlue 0 false, .unmount 1, .update 2 1 demoRed 0 false]
    (events demoEnv demoOrder es (App.init demoPage)).map (fun a => (a.st.ctr, a.st.heap.map Content.origin,
      a.st.dom.inDoc)) =
      some (3, [.created, .created, .created],
        [.other 7, .style (c! "stylist-global-style-2") (c! ":root {\n    color: blue;\n}\n"),
          .style (c! "app-global-style-1") (c! ":root {\n    color: red;\n}\n")]) ∧
    props demoEnv demoOrder es (App.init demoPage) [] = [some (some 0, demoBlue), none, some (some 1, demoRed)] := by
  decide +kernel

/-! ## C50: equal `Global`s share an element -/

/-- **C50 is false.** Three `Global` components with equal css under one manager: the
first is unmounted while the second is mounted, which unregisters the style; the third is
mounted then and gets an element of its own. The second and the third do not share one:
the css is in the document twice. -/
theorem C50_false (o : Order) :
    (events demoEnv o [.other (.newMgr (c! "stylist") none true none), .mount 0 demoRed 0 false,
        .mount 0 demoRed 0 false, .unmount 0, .mount 0 demoRed 0 false] (App.init demoPage)).map
      (fun a => a.st.dom.inDoc) =
      some [.other 7, .style (c! "stylist-global-style-0") (c! ":root {\n    color: red;\n}\n"),
        .style (c! "stylist-global-style-1") (c! ":root {\n    color: red;\n}\n")] := by
  obtain ⟨a, b⟩ := o
  cases a <;> cases b <;> decide +kernel

/-- **C50**, as far as it is true. If since the start the style was never unregistered –
no `Global` with it was unmounted or got other props, and nobody called `unregister` on
it – then all that use it share it: any two mounted `Global`s with the css under the
manager, and whoever else, refer to one style, and no other style with this css is alive. -/
theorem C50_shared_partial (env : Env) (d : Dom) (o : Order) (es : List Event) (a : App)
    (ha : events env o es (App.init d) = some a) (i : Nat) (m : Mgr) (css : Sheet) (hm : a.st.mgrs[i]? = some m)
    (hcl : AlongEvents env o (fun a e => ¬ Closes i (globalKey m css) a e) es (App.init d)) (j : Nat) (cp : Comp)
    (hj : a.comps[j]? = some (some cp)) (hi : a.st.mgrOf cp.mh = some i) (hcss : cp.css = css) :
    ∃ (p : Nat) (c : Content), a.st.contentOf cp.h = some p ∧ a.st.heap[p]? = some c ∧ c.mgr = i ∧
      c.key = globalKey m css ∧
      (∀ (j' : Nat) (cp' : Comp), a.comps[j']? = some (some cp') → a.st.mgrOf cp'.mh = some i → cp'.css = css →
        a.st.contentOf cp'.h = some p ∧ a.st.className cp'.h = a.st.className cp.h) ∧
      (∀ (q : Nat) (c' : Content), a.st.heap[q]? = some c' → c'.mgr = i → c'.key = globalKey m css → a.st.Alive q → q = p) := by
  obtain ⟨hok, -, -, -⟩ := events_init ha
  have hu := events_uniq es (AppOk.init d) ha (Uniq.init i (globalKey m css) d) hcl
  subst hcss
  obtain ⟨i', m', p, ct, a1, a2, a3, a4, a5, a6⟩ := hok.comp j cp hj
  rw [hi] at a1; cases a1
  rw [hm] at a2; cases a2
  have hp : a.st.Alive p := Or.inl (contentOf_mem a3)
  refine ⟨p, ct, a3, a4, a5, a6, ?_, ?_⟩
  · intro j' cp' hj' hi' hcss'
    obtain ⟨i'', m'', p', ct', b1, b2, b3, b4, b5, b6⟩ := hok.comp j' cp' hj'
    rw [hi'] at b1; cases b1
    rw [hm] at b2; cases b2
    have : p' = p := hu.unique p' p ⟨ct', b4, b5, by rw [b6, hcss']⟩ (Or.inl (contentOf_mem b3)) ⟨ct, a4, a5, a6⟩ hp
    subst this
    exact ⟨b3, by rw [St.className, St.className, a3, b3]⟩
  · intro q c' hc' e1 e2 hal
    exact hu.unique q p ⟨c', hc', e1, e2⟩ hal ⟨ct, a4, a5, a6⟩ hp

/-- **C50, exactly.** A `Global` is mounted, in any reachable application. Later, when it is
still mounted with the same props, another one is mounted with the same css under the same
manager. The two share one style if and only if nothing in between has unregistered it: no
`Global` with this css and manager, this one or another, was unmounted or got other props, and
nobody called `unregister` on such a style. Otherwise they have two. -/
theorem C50_exactly (env : Env) (d : Dom) (o : Order) (es es' : List Event) (a a1 a2 a3 : App)
    (ha : events env o es (App.init d) = some a) (css : Sheet) (mh mh' tag tag' : Nat) (fault fault' : Bool)
    (h1 : event env o a (.mount mh css tag fault) = some a1) (h2 : events env o es' a1 = some a2)
    (h3 : event env o a2 (.mount mh' css tag' fault') = some a3) (cp cp' : Comp)
    (hj : a1.comps[a.comps.length]? = some (some cp)) (hj2 : a2.comps[a.comps.length]? = some (some cp))
    (hj3 : a3.comps[a2.comps.length]? = some (some cp'))
    (i : Nat) (m : Mgr) (hi : a.st.mgrOf mh = some i) (hi' : a2.st.mgrOf mh' = some i) (hm : a.st.mgrs[i]? = some m) :
    a3.st.contentOf cp'.h = a3.st.contentOf cp.h ↔
      AlongEvents env o (fun a e => ¬ Closes i (globalKey m css) a e) es' a1 := by
  obtain ⟨hok, -⟩ := events_init ha
  obtain ⟨hok1, -⟩ := event_ok hok h1
  obtain ⟨hok2, ⟨ops2, hrun2⟩, -⟩ := events_ok es' hok1 h2
  obtain ⟨hok3, -⟩ := event_ok hok2 h3
  obtain ⟨cp0, i0, m1, p, b1, b2, b3, b4, b5, b6, b7, -, ⟨ops1, hrun1⟩⟩ := mount_regK hok h1
  rw [hi] at b7; cases b7
  rw [b1, List.getElem?_append_right (Nat.le_refl _)] at hj
  simp at hj
  subst hj
  obtain ⟨cq, i3, m3, p3, d1, d2, d3, d4, d5, d6, d7, d8, ⟨ops3, hrun3⟩⟩ := mount_regK hok2 h3
  rw [hi'] at d7; cases d7
  rw [d1, List.getElem?_append_right (Nat.le_refl _)] at hj3
  simp at hj3
  subst hj3
  -- The first component keeps its style.
  have same1 : m.Same m1 := by
    obtain ⟨m', e1, e2⟩ := mgr_run env ops1 hok.inv hm
    rw [← hrun1, b4] at e1; cases e1; exact e2
  have hkey : globalKey m css = globalKey m1 css := by rw [globalKey, globalKey, same1.1]
  obtain ⟨m2, hm2, same2⟩ := mgr_run env ops2 hok1.inv b4
  rw [← hrun2] at hm2
  have hkey2 : globalKey m2 css = globalKey m1 css := by rw [globalKey, globalKey, same2.1]
  have hp1 : IsK a1.st i (globalKey m1 css) p := by
    obtain ⟨c, c1, c2, c3⟩ := hok1.inv.reg i m1 b4 _ (regGet_mem b6)
    exact ⟨c, c1, c3, c2⟩
  have keep : ∀ (b : App) (ops : List Op), AppOk b → b.st = run env ops a1.st →
      b.comps[a.comps.length]? = some (some cp0) → b.st.contentOf cp0.h = some p ∧ b.st.mgrOf cp0.mh = some i := by
    intro b ops hb hrun hc
    obtain ⟨i2, _, p2, ct, f1, -, f3, f4, f5, -⟩ := hb.comp _ _ hc
    have e1 : b.st.contentOf cp0.h = some p := by
      rcases contentOf_run env ops hok1.inv (contentOf_lt b5) with e | ⟨-, e⟩ <;> rw [← hrun] at e
      · rw [e, b5]
      · rw [e] at f3; cases f3
    rw [f3] at e1; cases e1
    obtain ⟨ct', g1, g2, -⟩ := hp1.run (env := env) ops hok1.inv
    rw [← hrun, f4] at g1; cases g1
    rw [f5] at g2; cases g2
    exact ⟨f3, f1⟩
  have keep2 := keep a2 ops2 hok2 hrun2 hj2
  have keep3 := (keep a3 (ops2 ++ ops3) hok3 (by rw [hrun3, hrun2, run_append]) (by
    rw [d1, List.getElem?_append_left (List.getElem?_eq_some_iff.1 hj2).1]; exact hj2)).1
  rw [keep3, d5, hkey]
  constructor
  · intro e
    cases e
    refine Classical.byContradiction (fun hn => ?_)
    have h4 := events_closes es' hok1 h2 hp1 hn
    have h5 := h4.run (env := env) ops3 hok2.inv (hrun2 ▸ hp1.run ops2 hok1.inv)
    rw [← hrun3] at h5
    exact h5 m3 (List.mem_of_getElem? d4) _ (regGet_mem d6)
  · intro hal
    obtain ⟨ops, e1, e2⟩ := events_along es' hok1 h2 hal
    obtain ⟨m', e3, e4, e5⟩ := reg_run env ops hok1.inv b4 b6 e2 (by rw [← e1]; exact mgrOf_mem keep2.2)
    rw [← e1, hm2] at e3; cases e3
    rw [d8 p (by rw [hm2, Option.bind_some, hkey2]; exact e5)]

/-- Non-vacuity of `C50_exactly`, on both sides: the first `Global` is mounted, a second one
comes, with other css or with the same; it goes, and a third one is mounted with the css of
the first. In the one case the first and the third share a style, in the other they do not. -/
example :
    let start : List Event := [.other (.newMgr (c! "stylist") none true none)]
    let go := fun (css : Sheet) =>
      (events demoEnv demoOrder start (App.init demoPage)).bind (fun a =>
      (event demoEnv demoOrder a (.mount 0 demoRed 0 false)).bind (fun a1 =>
      (events demoEnv demoOrder [.mount 0 css 0 false, .unmount 1] a1).bind (fun a2 =>
      (event demoEnv demoOrder a2 (.mount 0 demoRed 0 false)).map (fun a3 =>
        ([a.comps.length, a2.comps.length], [a.st.mgrOf 0, a2.st.mgrOf 0],
          a3.comps.map (fun c => c.map (fun c => a3.st.contentOf c.h)))))))
    (go demoBlue) =
        some ([0, 2], [some 0, some 0], [some (some 0), none, some (some 0)]) ∧
      (go demoRed) =
        some ([0, 2], [some 0, some 0], [some (some 0), none, some (some 1)]) := by
  intro start go; exact ⟨by decide +kernel, by decide +kernel⟩

/-- Non-vacuity: two components share one element, and go on doing so while a third one
with other css comes and goes and they are rendered again with the same props. -/
example :
    (events demoEnv demoOrder (demoStart ++ [.mount 0 demoBlue 0 false, .update 0 0 demoRed 0 false, .unmount 3])
      (App.init demoPage)).map (fun a => (a.comps.map (fun c => c.map (fun c => a.st.className c.h)), a.st.dom.inDoc)) =
      some ([some (some (c! "stylist-global-style-0")), some (some (c! "stylist-global-style-0")),
          some (some (c! "app-global-style-1")), none],
        [.other 7, .style (c! "stylist-global-style-0") (c! ":root {\n    color: red;\n}\n"),
          .style (c! "app-global-style-1") (c! ":root {\n    color: red;\n}\n")]) := by
  decide +kernel

/-- Non-vacuity of the hypothesis: while components are only mounted, nothing is closed. -/
example (i : Nat) (k : Key) :
    AlongEvents demoEnv demoOrder (fun a e => ¬ Closes i k a e) demoStart (App.init demoPage) := by
  refine AlongEvents.of_all _ _ (fun e he a => ?_)
  simp only [demoStart, List.mem_cons, List.not_mem_nil, or_false] at he
  rcases he with rfl | rfl | rfl | rfl | rfl <;> simp [Closes, Unregisters]

/-! ## C53: rendering again does not change the class -/

/-- **C53.** A component calls `use_style` with some css; then anything happens – other
renders of any components, dropping of styles – except that this style is unregistered;
then `use_style` is called again with the same css under the same manager. It gives the
same class, and the page does not change. (A call of `use_style` is a sequence of
operations, `Yew.useStyle_ops`, so the histories here contain renders.) -/
theorem C53_same_class (env : Env) (d : Dom) (ops ops' : List Op) (mh mh' i h : Nat) (src src' : Source)
    (fault fault' : Bool) (m : Mgr) (ast : Sheet) (s s1 s2 s3 : St) (hs : s = run env ops (St.init d))
    (hi : s.mgrOf mh = some i) (hm : s.mgrs[i]? = some m) (hsrc : src.sheet? = some ast)
    (h1 : useStyle env mh src fault s = (s1, .style h)) (h2 : s2 = run env ops' s1)
    (hun : Along env (fun t op => ¬ Unregisters op t i (Kind.scoped.key m.pref ast)) ops' s1)
    (hi2 : s2.mgrOf mh' = some i) (hsrc' : src'.sheet? = some ast)
    (h3 : s3 = (useStyle env mh' src' fault' s2).1) :
    ∃ h', (useStyle env mh' src' fault' s2).2 = .style h' ∧
      (∃ id, s1.className h = some id ∧ s3.className h' = some id) ∧ s3.dom = s2.dom := by
  have hinv : Inv s := hs ▸ inv_run env ops (Inv.init d)
  rw [useStyle_ops hi] at h1
  simp only [Prod.mk.injEq] at h1
  obtain ⟨e1, e2⟩ := h1
  -- The first call.
  obtain ⟨t, ht⟩ : ∃ t, t = (step env (.cloneMgr mh) s).1 := ⟨_, rfl⟩
  obtain ⟨u, hu⟩ : ∃ u, u = (step env (.create s.mgrHandles.length .scoped src fault) t).1 := ⟨_, rfl⟩
  have htm : t.mgrOf s.mgrHandles.length = some i := by rw [ht]; simp only [step, hi]; simp [St.mgrOf]
  have hti : Inv t := ht ▸ inv_step env _ hinv
  obtain ⟨mt, hmt, hsame, -⟩ := (step_tr env hinv (.cloneMgr mh)).mgr hm
  rw [← ht] at hmt e2
  have htr : t = run env (ops ++ [.cloneMgr mh]) (St.init d) := by rw [run_append, ← hs, ht]; rfl
  have hmp : mt.pref = m.pref := hsame.1
  have hs1 : s1 = run env [.dropMgr s.mgrHandles.length] u := by rw [← e1, hu, ht]; rfl
  -- The second call.
  obtain ⟨t2, ht2⟩ : ∃ t2, t2 = (step env (.cloneMgr mh') s2).1 := ⟨_, rfl⟩
  have ht2m : t2.mgrOf s2.mgrHandles.length = some i := by rw [ht2]; simp only [step, hi2]; simp [St.mgrOf]
  have ht2r : t2 = run env ([.dropMgr s.mgrHandles.length] ++ ops' ++ [.cloneMgr mh']) u := by
    rw [run_append, run_append, ← hs1, ← h2, ht2]; rfl
  have hal : Along env (fun t op => ¬ Unregisters op t i (Kind.scoped.key mt.pref ast))
      ([.dropMgr s.mgrHandles.length] ++ ops' ++ [.cloneMgr mh']) u := by
    rw [hmp]
    have : ∀ (ops : List Op) (s : St), Along env (fun t op => ¬ Unregisters op t i (Kind.scoped.key m.pref ast)) ops s →
        Along env (fun t op => ¬ Unregisters op t i (Kind.scoped.key m.pref ast)) (ops ++ [.cloneMgr mh']) s := by
      intro ops
      induction ops with
      | nil => intro s _; exact ⟨not_unregisters (by simp), trivial⟩
      | cons op ops ih => intro s h; exact ⟨h.1, ih _ h.2⟩
    refine this _ _ ⟨not_unregisters (by simp), ?_⟩
    have e : (step env (.dropMgr s.mgrHandles.length) u).1 = s1 := by rw [hs1]; rfl
    rw [e]; exact hun
  obtain ⟨h', f1, ⟨id, text, f2, f3, -, -⟩, f4⟩ := C20_same_class env d (ops ++ [.cloneMgr mh])
    ([.dropMgr s.mgrHandles.length] ++ ops' ++ [.cloneMgr mh']) s.mgrHandles.length s2.mgrHandles.length i h
    .scoped .scoped src src' fault fault' mt ast ast t u t2 _ htr htm hmt hsrc
    (Prod.ext (by rw [hu]) e2) ht2r hal ht2m hsrc' rfl rfl
  have hinvu : Inv u := hu ▸ inv_step env _ hti
  have hinv1 : Inv s1 := hs1 ▸ inv_run env _ hinvu
  have hinv2 : Inv s2 := h2 ▸ inv_run env _ hinv1
  have hinvt2 : Inv t2 := ht2 ▸ inv_step env _ hinv2
  rw [useStyle_ops hi2] at h3 ⊢
  rw [← ht2]
  refine ⟨h', f1, ⟨id, ?_, ?_⟩, ?_⟩
  · simp only [St.className, Option.bind_eq_some_iff] at f2 ⊢
    obtain ⟨p, g1, g2⟩ := f2
    refine ⟨p, ?_, ?_⟩
    · rw [hs1]; exact contentOf_keep hinvu g1 (by simp)
    · rw [Option.map_eq_some_iff] at g2 ⊢
      obtain ⟨c, g2, g3⟩ := g2
      exact ⟨c, by rw [hs1]; exact heap_get_run env _ hinvu g2, g3⟩
  · have hx := inv_step env (.create s2.mgrHandles.length .scoped src' fault') hinvt2
    simp only [St.className, Option.bind_eq_some_iff] at f3 ⊢
    obtain ⟨p, g1, g2⟩ := f3
    have hrun : s3 = (step env (.dropMgr s2.mgrHandles.length)
        (step env (.create s2.mgrHandles.length .scoped src' fault') t2).1).1 := by rw [h3, ht2]; rfl
    refine ⟨p, ?_, ?_⟩
    · rw [hrun]; exact contentOf_keep hx g1 (by simp)
    · rw [Option.map_eq_some_iff] at g2 ⊢
      obtain ⟨c, g2, g3⟩ := g2
      exact ⟨c, by rw [hrun]; exact heap_get_run env [.dropMgr _] hx g2, g3⟩
  · have hx := inv_step env (.create s2.mgrHandles.length .scoped src' fault') hinvt2
    have hrun : s3 = (step env (.dropMgr s2.mgrHandles.length)
        (step env (.create s2.mgrHandles.length .scoped src' fault') t2).1).1 := by rw [h3, ht2]; rfl
    have hd2 : t2.dom = s2.dom := by rw [ht2]; simp [step, hi2]
    have hne : mh' ≠ s2.mgrHandles.length := by have := mgrOf_lt hi2; omega
    have hk1 : t2.mgrOf mh' = some i := ht2 ▸ mgrOf_step hinv2 hi2 (by simp)
    have hk2 := mgrOf_step (env := env) hinvt2 hk1 (op := .create s2.mgrHandles.length .scoped src' fault') (by simp)
    have hk3 := mgrOf_step (env := env) hinvt2 ht2m (op := .create s2.mgrHandles.length .scoped src' fault') (by simp)
    generalize (step env (.create s2.mgrHandles.length .scoped src' fault') t2).1 = v at *
    rw [hrun]
    have : ({ v with mgrHandles := v.mgrHandles.set s2.mgrHandles.length none } : St).mgrAlive i = true := by
      simp only [St.mgrAlive, List.elem_eq_mem, decide_eq_true_eq]
      have : (v.mgrHandles.set s2.mgrHandles.length none)[mh']? = some (some i) := by
        rw [List.getElem?_set_ne (fun e => hne e.symm)]
        simpa [St.mgrOf, Option.join_eq_some_iff] using hk2
      exact List.mem_of_getElem? this
    simp only [step, hk3, this, if_true]
    rw [f4, hd2]

/-- **C53**, for all renders of all components: as long as nobody unregisters it, at most
one style with this css is alive under the manager, at any time. -/
theorem C53_one_style (env : Env) (d : Dom) (as : List Act) (s : St) (hs : s = acts env as (St.init d)) (i : Nat) (k : Key)
    (hun : NeverUnregistered env i k as (St.init d)) (p q : Nat) (c c' : Content) (hp : s.heap[p]? = some c)
    (hq : s.heap[q]? = some c') (hpk : c.mgr = i ∧ c.key = k) (hqk : c'.mgr = i ∧ c'.key = k) (hpa : s.Alive p)
    (hqa : s.Alive q) : p = q :=
  (hs ▸ acts_ok as (Inv.init d) (Uniq.init i k d) hun).2.unique p q ⟨c, hp, hpk⟩ hpa ⟨c', hq, hqk⟩ hqa

/-- A history of renders: two components with the same css, each rendered twice; the
second render drops the first `Style`. -/
def demoActs : List Act :=
  [ .other (.newMgr (c! "stylist") none true none),
    .useStyle 0 (.text (c! "color: red;")) false,
    .useStyle 0 (.sheet demoRed) false,
    .useStyle 0 (.text (c! "color: red;")) false, .other (.drop 0),
    .useStyle 0 (.sheet demoRed) false, .other (.drop 1) ]

/-- Non-vacuity: the renders share one style. -/
example : (∀ i k, NeverUnregistered demoEnv i k demoActs (St.init demoPage)) ∧
    (acts demoEnv demoActs (St.init demoPage)).className 2 = some (c! "stylist-style-0") ∧
    (acts demoEnv demoActs (St.init demoPage)).className 3 = some (c! "stylist-style-0") ∧
    (acts demoEnv demoActs (St.init demoPage)).dom.inDoc =
      [.other 7, .style (c! "stylist-style-0") (c! ".stylist-style-0 {\n    color: red;\n}\n")] := by
  refine ⟨fun i k => ?_, by decide +kernel, by decide +kernel, by decide +kernel⟩
  refine ⟨?_, ?_, ?_, ?_, ?_, ?_, ?_, trivial⟩ <;> intro op h <;> cases h <;> exact not_unregisters (by simp)

end Yew
