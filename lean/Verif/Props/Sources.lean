import Verif.Proofs.Sources
import Verif.Props.Context

/-!
# Properties of style sources

C77.
-/

namespace Sources

open Manager
open Context (Place)
open Yew (mgrOf_lt mgrOf_step contentOf_keep)

/-! ## C77: a source remembers the manager of the place where it was written -/

theorem source_of {a : App} {k : Nat} {sheet : Sheet} {mi : Option Nat} (h : (view a)[k]? = some (some (sheet, mi))) :
    ∃ x, a.src k = some x ∧ x.sheet = sheet ∧ x.mgr.bind a.base.st.mgrOf = mi := by
  simp only [view, List.getElem?_map, Option.map_eq_some_iff] at h
  obtain ⟨o, h1, x, rfl, h2⟩ := h
  simp only [Prod.mk.injEq] at h2
  exact ⟨x, src_get.2 h1, h2⟩

theorem create_handle {env : Env} {s : St} {mh mh' i : Nat} (h : s.mgrOf mh = some i) (h' : s.mgrOf mh' = some i)
    (kind : Kind) (src : Source) (fault : Bool) :
    step env (.create mh kind src fault) s = step env (.create mh' kind src fault) s := by
  simp [step, create, h, h']

/-- **C77.** A source is written with `css!` in a styled component (or is a clone of one), and
anything happens: providers get other managers or go, the source is passed on. When it becomes
a class, this is the class of the style that `Style::new_with_manager` makes with the manager
that counted where and when the source was written, it panics exactly if that fails, and the
page is the same as after that, if somebody else still has the manager. The source keeps the
manager alive. -/
theorem C77_classes (env : Env) (o : Bool) (d : Dom) (es : List Event) (a : App)
    (h : events env o es (App.init d) = some a) (k : Nat) (sheet : Sheet) (i : Nat)
    (hk : (knownOf env o d es).written[k]? = some (some (sheet, some i))) (fault : Bool) :
    (∃ mh, a.base.st.mgrOf mh = some i) ∧
    ∀ mh, a.base.st.mgrOf mh = some i →
      (∀ s st, step env (.create mh .scoped (.sheet sheet) fault) a.base.st = (s, .style st) →
        ∃ a' cls, classes env a k fault = some (a', cls) ∧ s.className st = some cls ∧
          (a.elsewhere k i → a'.base.st.dom = s.dom)) ∧
      ((∀ st, (step env (.create mh .scoped (.sheet sheet) fault) a.base.st).2 ≠ .style st) →
        classes env a k fault = none) := by
  obtain ⟨hok, -, hv⟩ := events_init h
  obtain ⟨⟨sh, mg⟩, hx, rfl, hb⟩ := source_of (hv ▸ hk)
  have hinv := hok.base.inv
  cases mg with
  | none => cases hb
  | some h0 =>
    simp only [Option.bind_some] at hb
    refine ⟨⟨h0, hb⟩, fun mh hmh => ?_⟩
    rw [create_handle hmh hb]
    constructor
    · intro s st hs
      obtain ⟨m, hm⟩ := mgrOf_get hinv hb
      obtain ⟨p, c, m', g1, g2, g3, -, g5, -⟩ := create_style hinv hb hm (src := .sheet sh) rfl (h := st) (by rw [hs])
      have hsi : Inv s := by
        have := inv_step env (.create h0 .scoped (.sheet sh) fault) hinv
        rw [hs] at this; exact this
      rw [hs] at g1 g2 g3
      simp only at g1 g2 g3
      have hcls : s.className st = some c.id := by simp [St.className, g1, g2]
      have hcls' : (step env (.dropMgr h0) s).1.className st = some c.id := by
        have e1 := contentOf_keep (env := env) (op := .dropMgr h0) hsi g1 (by simp)
        have e2 := heap_get_run env [.dropMgr h0] hsi g2
        simp only [run] at e2
        simp [St.className, e1, e2]
      refine ⟨_, c.id, by simp only [classes, hx, hs, hcls']; rfl, hcls, ?_⟩
      rintro ⟨h1, hh1, hne⟩
      have hne' : h1 ≠ h0 := fun e => hne _ hx (by rw [e])
      have e0 : s.mgrOf h0 = some i := by
        have := mgrOf_step (env := env) (op := .create h0 .scoped (.sheet sh) fault) hinv hb (by simp)
        rw [hs] at this; exact this
      have e1 : s.mgrOf h1 = some i := by
        have := mgrOf_step (env := env) (op := .create h0 .scoped (.sheet sh) fault) hinv hh1 (by simp)
        rw [hs] at this; exact this
      simp only [App.gone, Context.dropMgr_clone (env := env) e0 e1 hne']
      have hd := Context.drop_registered (env := env) (s := Context.withMh (s.mgrHandles.set h0 none) s) g1 g3 (regGet_mem g5)
      simp only [hd]; rfl
    · intro hn
      simp only [classes, hx]
      generalize step env (.create h0 .scoped (.sheet sh) fault) a.base.st = r at hn
      obtain ⟨s, out⟩ := r
      cases out with
      | style st => exact absurd rfl (hn st)
      | _ => rfl

/-- **C77** for a source that was made without a manager: the default manager counts when it is
used. -/
theorem C77_plain (env : Env) (o : Bool) (d : Dom) (es : List Event) (a : App)
    (h : events env o es (App.init d) = some a) (k : Nat) (sheet : Sheet)
    (hk : (knownOf env o d es).written[k]? = some (some (sheet, none))) (fault : Bool) :
    (classes env a k fault).map (fun r => (r.1.base, r.2)) = Context.classes env a.base .outside (.sheet sheet) fault := by
  obtain ⟨hok, -, hv⟩ := events_init h
  obtain ⟨⟨sh, mg⟩, hx, rfl, hb⟩ := source_of (hv ▸ hk)
  cases mg with
  | some h0 =>
    obtain ⟨i, h1, -⟩ := hok.live k _ h0 (src_get.1 hx) rfl
    simp [h1] at hb
  | none =>
    simp only [classes, hx]
    cases Context.classes env a.base .outside (.sheet sh) fault with
    | none => rfl
    | some r => rfl

/-- **C77**, comparison: two sources are equal exactly if the same css was written at places
with the same manager, so a component that is rendered again with nothing changed gets an equal
source (and a `Global` with this source does not make its style again). -/
theorem C77_equal (env : Env) (o : Bool) (d : Dom) (es : List Event) (a : App)
    (h : events env o es (App.init d) = some a) (k k' : Nat) (x y : Src) (hx : a.src k = some x) (hy : a.src k' = some y) :
    same a x y = true ↔ (knownOf env o d es).written[k]? = (knownOf env o d es).written[k']? := by
  obtain ⟨hok, -, hv⟩ := events_init h
  rw [← hv, view_get (src_get.1 hx), view_get (src_get.1 hy)]
  have lx := hok.live k x
  have ly := hok.live k' y
  simp only [same, Bool.and_eq_true, decide_eq_true_eq, Option.some.injEq, Prod.mk.injEq]
  cases hmx : x.mgr with
  | none =>
    cases hmy : y.mgr with
    | none => simp
    | some h' =>
      obtain ⟨i, h1, -⟩ := ly h' (src_get.1 hy) hmy
      simp [h1]
  | some h0 =>
    obtain ⟨j, j1, -⟩ := lx h0 (src_get.1 hx) hmx
    cases hmy : y.mgr with
    | none => simp [j1]
    | some h' =>
      obtain ⟨i, h1, -⟩ := ly h' (src_get.1 hy) hmy
      simp [h1, j1]

/-- **C77**, `use_style`: here the place where it is called counts. The class is that of the
style that `Style::new_with_manager` makes with the manager of this place, whatever manager the
source has, and the page is the same as after that, if somebody else still has the manager of
the source. -/
theorem C77_use_style (env : Env) (o : Bool) (d : Dom) (es : List Event) (a : App)
    (h : events env o es (App.init d) = some a) (k : Nat) (sheet : Sheet) (mi : Option Nat)
    (hk : (knownOf env o d es).written[k]? = some (some (sheet, mi))) (fault : Bool) (w : Place) (i : Nat)
    (hw : Context.ManagerAt a.base (knownOf env o d es).given w i)
    (he : ∀ j, mi = some j → a.elsewhere k j) (mh : Nat) (hmh : a.base.st.mgrOf mh = some i)
    (s : St) (st : Nat) (hs : step env (.create mh .scoped (.sheet sheet) fault) a.base.st = (s, .style st)) :
    ∃ a', useStyle env a w k fault = some (a', st) ∧ a'.base.st.className st = s.className st ∧ a'.base.st.dom = s.dom := by
  obtain ⟨hok, hg, hv⟩ := events_init h
  obtain ⟨⟨sh, mg⟩, hx, rfl, hb⟩ := source_of (hv ▸ hk)
  have hinv := hok.base.inv
  obtain ⟨h0, c1, c2, c3⟩ := Context.place_handle_ok (env := env) (hg ▸ hw)
  have hlen := mgrOf_lt c2
  -- the states after the clone, and after the source's own handle went, differ in handles only
  have key : ∃ l, dropHandle env { a.base.st with mgrHandles := a.base.st.mgrHandles ++ [some i] } mg =
      Context.withMh (l ++ [some i]) a.base.st ∧ l.length = a.base.st.mgrHandles.length ∧ l[h0]? = some (some i) := by
    have g0 : a.base.st.mgrHandles[h0]? = some (some i) := by simpa [St.mgrOf, Option.join_eq_some_iff] using c2
    cases mg with
    | none => exact ⟨a.base.st.mgrHandles, rfl, rfl, g0⟩
    | some hs0 =>
      obtain ⟨j, l1, l2⟩ := hok.live k _ hs0 (src_get.1 hx) rfl
      simp only [Option.bind_some, l1] at hb
      obtain ⟨h1, e1, e2⟩ := he j hb.symm
      have hne : h1 ≠ hs0 := fun e => e2 _ hx (by rw [e])
      have hne0 : h0 ≠ hs0 := fun e => l2 (e ▸ c3)
      have q1 : ({ a.base.st with mgrHandles := a.base.st.mgrHandles ++ [some i] } : St).mgrOf hs0 = some j := by
        rw [St.mgrOf, List.getElem?_append_left (mgrOf_lt l1)]; exact l1
      have q2 : ({ a.base.st with mgrHandles := a.base.st.mgrHandles ++ [some i] } : St).mgrOf h1 = some j := by
        rw [St.mgrOf, List.getElem?_append_left (mgrOf_lt e1)]; exact e1
      refine ⟨a.base.st.mgrHandles.set hs0 none, ?_, by simp, ?_⟩
      · simp only [dropHandle, Context.dropMgr_clone (env := env) q1 q2 hne]
        simp [Context.withMh, List.set_append_left _ _ (mgrOf_lt l1)]
      · rw [List.getElem?_set_ne (fun e => hne0 e.symm)]; exact g0
  obtain ⟨l, k1, k2, k3⟩ := key
  have hinv1 : Inv (dropHandle env { a.base.st with mgrHandles := a.base.st.mgrHandles ++ [some i] } mg) := by
    have q : Context.Quiet env (fun _ => True) a.base.st
        (dropHandle env { a.base.st with mgrHandles := a.base.st.mgrHandles ++ [some i] } mg) :=
      (Context.Quiet.step (.cloneMgr h0) (out := .mgr a.base.st.mgrHandles.length) (by simp [step, c2]) (by simp) (by simp)).trans
        ((dropHandle_quiet _ mg).mono (fun _ _ => trivial))
    exact q.inv hinv
  rw [k1] at hinv1
  have hnew : (Context.withMh (l ++ [some i]) a.base.st).mgrOf a.base.st.mgrHandles.length = some i := by
    simp [Context.withMh, St.mgrOf, ← k2]
  have hx1 := Context.create_withMh (env := env) (kind := .scoped) (src := .sheet sh) (fault := fault) hinv hinv1 hmh hnew
  rw [hs] at hx1
  have e1 : (Context.withMh (l ++ [some i]) s).mgrOf a.base.st.mgrHandles.length = some i := by
    simp [Context.withMh, St.mgrOf, ← k2]
  have e2 : (Context.withMh (l ++ [some i]) s).mgrOf h0 = some i := by
    rw [St.mgrOf, Context.withMh, List.getElem?_append_left (by omega), k3]; rfl
  refine ⟨_, by simp only [useStyle, hx, c1, Context.cloneMgr_eq c2, k1, hx1]; rfl, ?_, ?_⟩
  · simp only [App.gone, Context.dropMgr_clone (env := env) e1 e2 (by omega)]; rfl
  · simp only [App.gone, Context.dropMgr_clone (env := env) e1 e2 (by omega)]; rfl

/-- Two providers with managers `one` and `two`; a source is written below the first and cloned
three times, another one without a manager; then the first provider gets the manager `two`. -/
def demoSources : List Event :=
  [ .app (.other (.newMgr (c! "one") none true none)),
    .app (.other (.newMgr (c! "two") none true none)),
    .app (.mount 0 none),
    .app (.mount 1 none),
    .css (.below 0) demoRed,
    .clone 0,
    .clone 1,
    .clone 0,
    .plain demoRed,
    .app (.rerender 0 1),
    .css (.below 0) demoRed ]

/-- Non-vacuity: what is known, and the classes of the sources. -/
example : ∃ a, events demoEnv false demoSources (App.init demoPage) = some a ∧
    (knownOf demoEnv false demoPage demoSources).given = [some 1, some 1] ∧
    (knownOf demoEnv false demoPage demoSources).written = [some (demoRed, some 0), some (demoRed, some 0),
      some (demoRed, some 0), some (demoRed, some 0), some (demoRed, none), some (demoRed, some 1)] ∧
    (classes demoEnv a 2 false).map Prod.snd = some (c! "one-style-0") ∧
    (classes demoEnv a 4 false).map Prod.snd = some (c! "stylist-style-0") ∧
    (classes demoEnv a 5 false).map Prod.snd = some (c! "two-style-0") ∧
    (∀ x y, a.src 0 = some x → a.src 3 = some y → same a x y = true) ∧
    (∀ x y, a.src 0 = some x → a.src 5 = some y → same a x y = false) := by
  let a := (events demoEnv false demoSources (App.init demoPage)).getD (App.init [])
  refine ⟨a, ?_, ?_, ?_, ?_, ?_, ?_, ?_, ?_⟩
  iterate 6 decide +kernel
  all_goals
    intro x y hx hy
    have e1 := hx.symm.trans (show a.src 0 = some ((a.src 0).getD ⟨[], none⟩) by decide +kernel)
    cases e1
  · have e2 := hy.symm.trans (show a.src 3 = some ((a.src 3).getD ⟨[], none⟩) by decide +kernel)
    cases e2
    decide +kernel
  · have e2 := hy.symm.trans (show a.src 5 = some ((a.src 5).getD ⟨[], none⟩) by decide +kernel)
    cases e2
    decide +kernel

/-- **C77**, the limits. The manager of a source only counts when the source becomes a class:
`use_style`, `Style` and `GlobalStyle` use the manager they are called with, so the same source
gives three different classes. -/
theorem C77_limit_other_uses :
    ∃ a, events demoEnv false demoSources (App.init demoPage) = some a ∧
      (knownOf demoEnv false demoPage demoSources).written[0]? = some (some (demoRed, some 0)) ∧
      (classes demoEnv a 0 false).map Prod.snd = some (c! "one-style-0") ∧
      (useStyle demoEnv a (.below 1) 0 false).map (fun r => r.1.base.st.className r.2) = some (some (c! "two-style-0")) ∧
      (style demoEnv a 1 (.withPrefix (c! "x")) 0 false).map (fun r => (r.2, r.1.base.st.className 0)) =
        some (.style 0, some (c! "x-style-0")) := by
  let a := (events demoEnv false demoSources (App.init demoPage)).getD (App.init [])
  refine ⟨a, ?_, ?_, ?_, ?_, ?_⟩ <;> decide +kernel

/-- A source that outlives the provider, with nobody else having the manager. -/
def demoLast : List Event :=
  [ .app (.other (.newMgr (c! "one") none true none)), .app (.mount 0 none), .app (.other (.dropMgr 0)),
    .css (.below 0) demoRed, .app (.unmount 0) ]

/-- **C77**, the other limit: a source that has the last handle of a manager becomes a class
without an element, since the manager goes with the source. -/
theorem C77_limit_last :
    ∃ a a', events demoEnv false demoLast (App.init demoPage) = some a ∧
      classes demoEnv a 0 false = some (a', c! "one-style-0") ∧ withId (c! "one-style-0") a'.base.st.dom.inDoc = [] := by
  let a := (events demoEnv false demoLast (App.init demoPage)).getD (App.init [])
  let a' := ((classes demoEnv a 0 false).getD (App.init [], [])).1
  refine ⟨a, a', ?_, ?_, ?_⟩ <;> decide +kernel

end Sources
