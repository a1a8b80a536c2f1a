import Verif.Props.Yew
import Verif.Props.Hydrated

/-!
# `Global` components on a page that comes from a server

C93.
-/

namespace Yew

open Manager

/-! ## C93: a `Global` takes over the element that the server sent -/

/-- Loading style data makes the style of every entry, registered. -/
theorem loaded_entry {env : Env} {d : Dom} {ops : List Op} {s s1 : St} (hs : s = run env ops (St.init d)) {mh i : Nat}
    (hi : s.mgrOf mh = some i) {data : List Entry} (h1 : step env (.load mh data) s = (s1, .unit)) {e : Entry} (he : e ∈ data)
    (hnew : ∀ c ∈ s.heap, ¬ (c.mgr = i ∧ c.key = e.key)) :
    ∃ (m : Mgr) (p : Nat) (c : Content), s1.mgrs[i]? = some m ∧ regGet m.reg e.key = some p ∧ s1.heap[p]? = some c ∧
      c.id = e.id ∧ c.key = e.key ∧ c.mgr = i ∧ c.origin = .hydrated ∧
      ∀ q, IsK s1 i e.key q → q < s.heap.length → False := by
  have hinv : Inv s := hs ▸ inv_run env ops (Inv.init d)
  have hinv1 : Inv s1 := by
    have := inv_step env (.load mh data) hinv
    rw [h1] at this; exact this
  obtain ⟨c1, -⟩ := C35_effect env d ops s s1 hs mh i hi data h1
  have c2 := (C35_panics_iff_conflict env d ops s hs mh i hi data).2.1 (by rw [h1]) e he
  rw [← c1] at c2
  obtain ⟨m1, hm1, c2⟩ := Option.bind_eq_some_iff.1 c2
  obtain ⟨p, hp, c2⟩ := Option.bind_eq_some_iff.1 c2
  obtain ⟨c, hc, hcid⟩ := Option.map_eq_some_iff.1 c2
  obtain ⟨c', k1, k2, k3⟩ := hinv1.reg i m1 hm1 _ (regGet_mem hp)
  rw [hc] at k1
  cases k1
  obtain ⟨s', r, hr, h2⟩ := step_load env hinv hi data
  rw [h1] at h2
  have e1 : s1 = s' := congrArg Prod.fst h2
  subst e1
  obtain ⟨news, n1, -, -, -, -, n2⟩ := hr.eff
  have old : ∀ q, IsK s1 i e.key q → q < s.heap.length → False := by
    rintro q ⟨cq, q1, q2, q3⟩ hq
    rw [n1, List.getElem?_append_left hq] at q1
    exact hnew cq (List.mem_of_getElem? q1) ⟨q2, q3⟩
  refine ⟨m1, p, c, hm1, hp, hc, hcid, k2, k3, ?_, old⟩
  have hge : s.heap.length ≤ p := Nat.le_of_not_lt (fun hlt => old p ⟨c, hc, k3, k2⟩ hlt)
  rw [n1, List.getElem?_append_right hge] at hc
  exact (n2 c (List.mem_of_getElem? hc)).1

/-- **C93.** A browser; an application with any history `es1` loads style data in which the
entry `e` is the global style with `css`, before anybody asked for that style. The page has
one element with the id of the entry, from the server. Then anything happens, except that
somebody who is no `Global` component asks for this style. Afterwards:

* as long as the style was not unregistered and the manager is held by anybody, the element
  of the server is in the document, every mounted `Global` with this css has the id of the
  entry as its class, and no other style with the css is alive: none gets an element of its
  own;
* as long as any `Global` has the style of the entry, the element is in the document;
* once a `Global` with the css was unmounted or got other css, and no `Global` with it is
  mounted, the element is gone, and no style with the css is alive. -/
theorem C93_hydrated_global (env : Env) (hw : env.wasm = true) (d : Dom) (o : Order) (es1 es2 : List Event) (a0 a1 a : App)
    (h0 : events env o es1 (App.init d) = some a0) (mh : Nat) (data : List Entry)
    (h1 : event env o a0 (.other (.load mh data)) = some a1) (hout : (step env (.load mh data) a0.st).2 = .unit)
    (h2 : events env o es2 a1 = some a) (i : Nat) (m : Mgr) (css : Sheet) (e : Entry) (hi : a0.st.mgrOf mh = some i)
    (hm : a0.st.mgrs[i]? = some m) (he : e ∈ data) (hk : e.key = globalKey m css)
    (hnew : ∀ c ∈ a0.st.heap, ¬ (c.mgr = i ∧ c.key = globalKey m css))
    (hg : AlongEvents env o (OnlyGlobals i (globalKey m css)) es2 a1)
    (hid : ∀ c ∈ a.st.heap, cssIdent c.id = true) (hn : (a.st.heap.map Content.id).Nodup)
    (x : Child) (hx : withId e.id d.inDoc = [x]) :
    (AlongEvents env o (fun a e => ¬ Closes i (globalKey m css) a e) es2 a1 → (∃ mh', a.st.mgrOf mh' = some i) →
      withId e.id a.st.dom.inDoc = [x] ∧
      (∀ (j : Nat) (cp : Comp), a.comps[j]? = some (some cp) → a.st.mgrOf cp.mh = some i → cp.css = css →
        a.st.className cp.h = some e.id) ∧
      ∀ (q : Nat) (c : Content), a.st.heap[q]? = some c → c.mgr = i → c.key = globalKey m css → a.st.Alive q → c.id = e.id) ∧
    (∀ (j : Nat) (cp : Comp), a.comps[j]? = some (some cp) → a.st.className cp.h = some e.id →
      withId e.id a.st.dom.inDoc = [x]) ∧
    (¬ AlongEvents env o (fun a e => ¬ Closes i (globalKey m css) a e) es2 a1 →
      some (some i, css) ∉ props env o (es1 ++ .other (.load mh data) :: es2) (App.init d) [] →
      withId e.id a.st.dom.inDoc = [] ∧
      ∀ (q : Nat) (c : Content), a.st.heap[q]? = some c → c.mgr = i → c.key = globalKey m css → ¬ a.st.Alive q) := by
  rw [← hk] at hnew hg ⊢
  obtain ⟨hok0, ⟨ops0, hops0⟩, hprops0, -⟩ := events_init h0
  obtain ⟨hok1, -, hprops1, -⟩ := event_ok hok0 h1
  obtain ⟨hok, ⟨ops2, hops2⟩, hprops, hhold⟩ := events_ok es2 hok1 h2
  have ha1 : a1.st = (step env (.load mh data) a0.st).1 ∧ a1.comps = a0.comps := by
    simp only [event] at h1
    split at h1
    · cases h1
    · simp only [Option.some.injEq] at h1
      subst h1
      exact ⟨rfl, rfl⟩
  have hstep : step env (.load mh data) a0.st = (a1.st, .unit) := by rw [ha1.1, ← hout]
  obtain ⟨m1, p, c, l1, l2, l3, l4, l5, l6, l7, l8⟩ := loaded_entry hops0 hi hstep he hnew
  have hrun : a.st = run env (ops0 ++ .load mh data :: ops2) (St.init d) := by
    rw [run_append, ← hops0, hops2]
    simp only [run]
    rw [ha1.1]
  have hpage : PageInv d a.st :=
    hrun ▸ PageInv.run hw _ (Inv.init d) (hrun ▸ hid) (hrun ▸ hn) (PageInv.init d)
  have hc : a.st.heap[p]? = some c := by rw [hops2]; exact heap_get_run env ops2 hok1.inv l3
  have hkp : IsK a.st i e.key p := ⟨c, hc, l6, l5⟩
  have halive : a.st.Alive p → withId e.id a.st.dom.inDoc = [x] := by
    intro hal
    have := hpage.kept p c hc (Or.inl l7) hal
    rw [l4, hx] at this
    exact this
  have hprops' : propsOf a = props env o (es1 ++ .other (.load mh data) :: es2) (App.init d) [] := by
    have app : ∀ (es : List Event) (a b : App) (ps : List (Option Props)), events env o es a = some b →
        ∀ es', props env o (es ++ es') a ps = props env o es' b (props env o es a ps) := by
      intro es
      induction es with
      | nil => intro a b ps h es'; simp only [events, Option.some.injEq] at h; subst h; rfl
      | cons e es ih =>
        intro a b ps h es'
        simp only [events, Option.bind_eq_some_iff] at h
        obtain ⟨a1, g1, g2⟩ := h
        simp only [List.cons_append, props, g1]
        exact ih a1 b _ g2 es'
    rw [app es1 _ _ _ h0, props, h1, hprops, hprops1, hprops0]
  -- Before the data is loaded, there is no style with the css.
  have hno : ∀ q, ¬ IsK a0.st i e.key q := by
    rintro q ⟨cq, q1, q2⟩
    exact hnew cq (List.mem_of_getElem? q1) q2
  have hh1 : Hold True (Own a1.comps) i e.key a1.st := by
    refine ⟨?_, fun _ _ => Or.inl trivial⟩
    intro h q hq hkq
    exfalso
    have hand : a1.st.handles = a0.st.handles := by
      have := load_handles (step_tr env hok0.inv (.load mh data))
      rw [ha1.1]; exact this
    have : a0.st.contentOf h = some q := by rw [St.contentOf, ← hand]; exact hq
    exact l8 q hkq (hok0.inv.handle q (contentOf_mem this))
  -- What a component with this css has.
  have hcomp : ∀ (j : Nat) (cp : Comp), a.comps[j]? = some (some cp) → ∀ q, a.st.contentOf cp.h = some q →
      (IsK a.st i e.key q ↔ some (some i, css) = ((a.comps[j]?).join.map (fun c => (a.st.mgrOf c.mh, c.css)))) := by
    intro j cp hj q hq
    rw [(hok.comp j cp hj).uses hq]
    have hms : ∃ m2, a.st.mgrs[i]? = some m2 ∧ m2.pref = m.pref := by
      obtain ⟨m2, g1, g2⟩ := mgr_run env (.load mh data :: ops2) hok0.inv hm
      refine ⟨m2, ?_, g2.1⟩
      rw [hops2, ← g1]
      simp only [run]
      rw [ha1.1]
    obtain ⟨m2, g1, g2⟩ := hms
    simp only [hj, Option.join_some, Option.map_some, Option.some.injEq, Prod.mk.injEq]
    constructor
    · rintro ⟨b1, m', b2, b3⟩
      rw [g1] at b2; cases b2
      rw [hk] at b3
      simp only [globalKey, Key.mk.injEq, true_and] at b3
      exact ⟨b1.symm, b3.2.symm⟩
    · rintro ⟨b1, b2⟩
      refine ⟨b1.symm, m2, g1, ?_⟩
      rw [hk, globalKey, globalKey, g2, b2]
  refine ⟨?_, ?_, ?_⟩
  · rintro hcl ⟨mh', hmh'⟩
    obtain ⟨ops, q1, q2⟩ := events_along es2 hok1 h2 hcl
    obtain ⟨m2, r1, -, r3⟩ := reg_run env ops hok1.inv l1 l2 q2 (by rw [← q1]; exact mgrOf_mem hmh')
    rw [← q1] at r1
    have hreg : RegK a.st i e.key p := ⟨m2, r1, regGet_mem r3⟩
    have hu0 : Uniq i e.key a0.st :=
      ⟨fun q _ h => absurd h (hno q), fun _ q h => absurd h (hno q)⟩
    have hu1 : Uniq i e.key a1.st := by
      rw [ha1.1]; exact hu0.step hok0.inv (not_unregisters (by simp))
    have hu := events_uniq es2 hok1 h2 hu1 hcl
    refine ⟨halive hreg.alive, ?_, ?_⟩
    · intro j cp hj e1 e2
      obtain ⟨_, _, q, ct, -, -, hq, hct, -, -⟩ := hok.comp j cp hj
      have hkq := (hcomp j cp hj q hq).2 (by simp [hj, e1, e2])
      have := hu.unique q p hkq (Or.inl (contentOf_mem hq)) hkp hreg.alive
      subst this
      simp [St.className, hq, hc, l4]
    · intro q cq hcq e1 e2 hal
      have := hu.unique q p ⟨cq, hcq, e1, e2⟩ hal hkp hreg.alive
      subst this
      rw [hc] at hcq; cases hcq
      exact l4
  · intro j cp hj hcls
    obtain ⟨_, _, q, ct, -, -, hq, hct, -, -⟩ := hok.comp j cp hj
    have hidq : ct.id = e.id := by simpa [St.className, hq, hct] using hcls
    have : q = p := by
      apply Classical.byContradiction
      intro hne
      exact id_ne hn hc hct hne (by rw [hidq, l4])
    subst this
    exact halive (Or.inl (contentOf_mem hq))
  · intro hcl hp
    have hh := hhold True False i e.key hh1 hg (fun _ h => hcl h)
    have hdead : ∀ (q : Nat) (cq : Content), a.st.heap[q]? = some cq → cq.mgr = i → cq.key = e.key → ¬ a.st.Alive q := by
      intro q cq hcq e1 e2 hal
      have hkq : IsK a.st i e.key q := ⟨cq, hcq, e1, e2⟩
      have hx : ∃ y, Own a.comps y ∧ a.st.contentOf y = some q := by
        rcases alive_cases hok.inv hkq hal with ⟨y, hy⟩ | hr
        · exact ⟨y, hh.handle y q hy hkq, hy⟩
        · exact (hh.reg q hr).resolve_left id
      obtain ⟨y, ⟨j, cp, hj, rfl⟩, hy⟩ := hx
      have := (hcomp j cp hj q hy).1 hkq
      apply hp
      rw [← hprops', propsOf, List.mem_map]
      refine ⟨some cp, List.mem_of_getElem? hj, ?_⟩
      rw [hj] at this
      exact this.symm
    refine ⟨?_, hdead⟩
    have := hpage.gone p c hc (Or.inl l7) (hdead p c hc l6 l5)
    rw [l4, hx] at this
    exact this

/-- The application before it loads the data of `hydServerOps`. -/
def hydBefore : List Event :=
  [.other (.newMgr (c! "stylist") none true none), .other (.newMgr (c! "app") (some 0) true none)]

/-- Two `Global`s with the css of the server, one under another manager and one with other css;
one goes. -/
def hydAfter : List Event :=
  [.mount 0 demoRed 0 false, .mount 0 demoRed 0 false, .mount 1 demoRed 0 false, .mount 0 demoBlue 0 false, .unmount 1]

/-- Then the other one goes as well. -/
def hydGone : List Event := hydAfter ++ [.unmount 0]

/-- The application when the data is loaded. -/
def hydLoaded : App :=
  (events hydEnv demoOrder (hydBefore ++ [.other (.load 0 hydData)]) (App.init hydPage)).get (by decide +kernel)

set_option maxRecDepth 16000 in
/-- Non-vacuity: the hypotheses of C93 for this history, and those of its three parts. At
first nothing is unregistered. -/
example : hydEnv.wasm = true ∧
    (∃ a0 m e, events hydEnv demoOrder hydBefore (App.init hydPage) = some a0 ∧
      event hydEnv demoOrder a0 (.other (.load 0 hydData)) = some hydLoaded ∧
      (step hydEnv (.load 0 hydData) a0.st).2 = .unit ∧ a0.st.mgrOf 0 = some 0 ∧ a0.st.mgrs[0]? = some m ∧ e ∈ hydData ∧
      e.key = globalKey m demoRed ∧ a0.st.heap = [] ∧
      withId e.id hydPage.inDoc = [.style (c! "stylist-global-sss") (c! ":root {\n    color: red;\n}\n")]) ∧
    (∀ n ≤ 6, ∃ a, events hydEnv demoOrder (hydGone.take n) hydLoaded = some a ∧
      (∀ c ∈ a.st.heap, cssIdent c.id = true) ∧ (a.st.heap.map Content.id).Nodup ∧ a.st.mgrOf 0 = some 0) ∧
    (∀ k n, AlongEvents hydEnv demoOrder (OnlyGlobals 0 k) (hydGone.take n) hydLoaded) ∧
    (∀ k n, AlongEvents hydEnv demoOrder (fun a e => ¬ Closes 0 k a e) ((hydAfter.take 4).take n) hydLoaded) := by
  refine ⟨rfl, ⟨(events hydEnv demoOrder hydBefore (App.init hydPage)).get (by decide +kernel),
    { pref := c! "stylist", container := some 0, append := true, log := none, reg := [], borrowed := false },
    ⟨⟨true, c! "stylist", demoRed⟩, c! "stylist-global-sss", c! ":root {\n    color: red;\n}\n"⟩,
    by simp, by decide +kernel, by decide +kernel, by decide +kernel, by decide +kernel, by decide +kernel, rfl,
    by decide +kernel, by decide +kernel⟩, ?_, ?_, ?_⟩
  · intro n hn
    have : ∀ n < 7, ∃ h : (events hydEnv demoOrder (hydGone.take n) hydLoaded).isSome = true,
        (∀ c ∈ (Option.get _ h).st.heap, cssIdent c.id = true) ∧ ((Option.get _ h).st.heap.map Content.id).Nodup ∧
        (Option.get _ h).st.mgrOf 0 = some 0 := by
      decide +kernel
    obtain ⟨h, h1⟩ := this n (by omega)
    exact ⟨_, (Option.some_get h).symm, h1⟩
  · intro k n
    refine AlongEvents.of_all _ _ (fun e he a op hop => ?_)
    subst hop
    have := List.mem_of_mem_take he
    simp [hydGone, hydAfter] at this
  · intro k n
    refine AlongEvents.of_all _ _ (fun e he a => ?_)
    have := List.mem_of_mem_take he
    simp only [hydAfter, List.take, List.mem_cons, List.not_mem_nil, or_false] at this
    rcases this with rfl | rfl | rfl | rfl <;> simp [Closes]

set_option maxRecDepth 16000 in
/-- Then one of the two is unmounted; the other one still has the element of the server. When
it goes as well, the element is removed. -/
example :
    ¬ AlongEvents hydEnv demoOrder (fun a e => ¬ Closes 0 ⟨true, c! "stylist", demoRed⟩ a e) hydAfter hydLoaded ∧
    (events hydEnv demoOrder hydAfter hydLoaded).map (fun a => (a.st.dom.inDoc.filterMap Child.styleId?,
      (a.comps[0]?).join.bind (fun c => a.st.className c.h))) =
      some ([c! "stylist-s", c! "stylist-ss", c! "stylist-global-sss", c! "app-global-c", c! "stylist-global-cc"],
        some (c! "stylist-global-sss")) ∧
    some (some 0, demoRed) ∉ props hydEnv demoOrder (hydBefore ++ .other (.load 0 hydData) :: hydGone)
      (App.init hydPage) [] ∧
    (events hydEnv demoOrder hydGone hydLoaded).map (fun a => a.st.dom.inDoc.filterMap Child.styleId?) =
      some [c! "stylist-s", c! "stylist-ss", c! "app-global-c", c! "stylist-global-cc"] := by
  refine ⟨?_, by decide +kernel, by decide +kernel, by decide +kernel⟩
  intro h
  have go : ∀ (es : List Event) (a : App), (h : (events hydEnv demoOrder es a).isSome = true) → ∀ es',
      AlongEvents hydEnv demoOrder (fun a e => ¬ Closes 0 ⟨true, c! "stylist", demoRed⟩ a e) (es ++ es') a →
      AlongEvents hydEnv demoOrder (fun a e => ¬ Closes 0 ⟨true, c! "stylist", demoRed⟩ a e) es'
        (Option.get _ h) := by
    intro es
    induction es with
    | nil => intro a h es' hal; exact hal
    | cons e es ih =>
      intro a h es' hal
      cases h1 : event hydEnv demoOrder a e with
      | none => simp [events, h1] at h
      | some a1 =>
        have e1 : events hydEnv demoOrder (e :: es) a = events hydEnv demoOrder es a1 := by simp [events, h1]
        have := ih a1 (by rw [← e1]; exact h) es' (hal.2 a1 h1)
        simpa only [e1] using this
  have := (go (hydAfter.take 4) hydLoaded (by decide +kernel) [.unmount 1] h).1
  apply this
  have hkey : ((Option.get (events hydEnv demoOrder (hydAfter.take 4) hydLoaded) (by decide +kernel)).st.mgrs[0]?).map
      (fun m => globalKey m demoRed) = some ⟨true, c! "stylist", demoRed⟩ := by decide +kernel
  exact ⟨{ mh := 3, css := demoRed, tag := 0, h := 1 }, by decide +kernel, by decide +kernel,
    Option.map_eq_some_iff.1 hkey⟩

set_option maxRecDepth 16000 in
/-- The limit of **C93**: a style of the server that no `Global` ever asks for stays in the
document, whatever other `Global`s come and go. -/
theorem C93_limit_unused :
    (events hydEnv demoOrder (hydBefore ++ .other (.load 0 hydData) ::
      [.mount 0 demoBlue 0 false, .unmount 0]) (App.init hydPage)).map (fun a => a.st.dom) = some hydPage := by
  decide +kernel

end Yew
