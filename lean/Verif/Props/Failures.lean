import Verif.Proofs.Failures

/-!
# Properties of what errors and panics say

C107.
-/

open Spec

namespace Panic

open Manager (Env St Mgr Source Kind Inv Op withId)
open Context (Place ManagerAt given)

/-- **C107**, without Yew: if `Style::new_with_manager` or one of its relatives is called in any
state, the result is not an `Ok` exactly if the css is refused, the browser refuses, or a debug
build refuses the generated text; `expect_display(what)` on the result, as the hooks do it, panics
with `what` and the display of the error, so in the first case with the whole report on the
css. -/
theorem C107_create (env : Env) (d : Dom) (ops : List Op) (s : St) (hs : s = Manager.run env ops (St.init d))
    (mh i : Nat) (m : Mgr) (kind : Kind) (src : Source) (fault : Bool) (what msg : Str)
    (hi : s.mgrOf mh = some i) (hm : s.mgrs[i]? = some m) :
    expectDisplay what (create env mh kind src fault s).2 = .panic msg ↔ Failure env s m kind fault what src msg := by
  have hinv : Inv s := hs ▸ Manager.inv_run env ops (Inv.init d)
  refine create_failure hinv kind src fault what msg hi hm (fun hw hn => ?_)
  have := Manager.has_container env hw ops (Inv.init d) (by simp [St.init]) m (hs ▸ List.mem_of_getElem? hm)
  rw [hn] at this; cases this

/-- **C107**, the errors themselves: the display of the error that is returned is the report on
the css, or the sentence on the browser. -/
theorem C107_error (env : Env) (d : Dom) (ops : List Op) (s : St) (hs : s = Manager.run env ops (St.init d))
    (mh i : Nat) (kind : Kind) (src : Source) (fault : Bool) (e : Error)
    (hi : s.mgrOf mh = some i) (he : (create env mh kind src fault s).2 = .err e) :
    (∃ css, src = .text css ∧ Refused css e.display) ∨
    ((∃ ast, src.sheet? = some ast) ∧ env.wasm = true ∧
      e.display = c! "Failed to Interact with Web API. Are you running in Browser?") := by
  have hinv : Inv s := hs ▸ Manager.inv_run env ops (Inv.init d)
  obtain ⟨m, hm⟩ := Manager.mgrOf_get hinv hi
  have h := (C107_create env d ops s hs mh i m kind src fault [] ([] ++ c! ": " ++ e.display) hi hm).1 (by rw [he]; rfl)
  generalize hx : ([] ++ c! ": " ++ e.display) = msg at h
  cases h with
  | parse css report h => simp at hx; exact .inl ⟨css, rfl, hx ▸ h⟩
  | debug _ ast report h => simp at hx
  | web _ ast h1 h2 h3 h4 => simp at hx; exact .inr ⟨⟨ast, h1⟩, h4, hx⟩

section
variable (env : Env) (o : Bool) (d : Dom) (es : List Context.Event) (a : Context.App) (p : Bool)
  (h : Context.events env o es (Context.App.init d) = some a) (w : Place) (i : Nat)
  (hw : ManagerAt a (given env o es (Context.App.init d) []) w i) (m : Mgr) (hm : a.st.mgrs[i]? = some m)
include h hw hm

/-- **C107**, `use_style`: it panics exactly for these reasons, with these words. -/
theorem C107_use_style (src : Source) (fault : Bool) (msg : Str) :
    (useStyle env ⟨a, p⟩ w src fault).2 = .panic msg ↔
      Failure env a.st m .scoped fault (c! "failed to create style") src msg := by
  obtain ⟨h0, -, h2, h3⟩ := place_handle h hw
  exact (styleAt_eq (Context.events_ok es (Context.AppOk.init d) h).1.inv h2 h2 (place_ok h3) hm
    (app_container h hm) .scoped src fault _).2.1 msg

/-- **C107**, a class from `css!`: its css has been read already, so that only a refusal by the
browser (or by the check of debug builds) is left. -/
theorem C107_css (sheet : Sheet) (fault : Bool) (msg : Str) :
    (intoStyle env ⟨a, p⟩ w sheet fault).2 = .panic msg ↔
      Failure env a.st m .scoped fault (c! "Failed to create style") (.sheet sheet) msg := by
  obtain ⟨h0, -, h2, h3⟩ := place_handle h hw
  exact (styleAt_eq (Context.events_ok es (Context.AppOk.init d) h).1.inv h2 h2 (place_ok h3) hm
    (app_container h hm) .scoped _ fault _).2.1 msg

/-- **C107**, `Global`. -/
theorem C107_global (sheet : Sheet) (fault : Bool) (msg : Str) :
    (global env ⟨a, p⟩ w sheet fault).2 = .panic msg ↔
      Failure env a.st m .global fault (c! "Failed to create style.") (.sheet sheet) msg := by
  obtain ⟨h0, -, h2, h3⟩ := place_handle h hw
  exact (styleAt_eq (Context.events_ok es (Context.AppOk.init d) h).1.inv h2 h2 (place_ok h3) hm
    (app_container h hm) .global _ fault _).2.1 msg

/-- **C107.** When `use_style` does not panic, it does what `Context.useStyle` does, to which the
other properties refer. -/
theorem C107_use_style_ok (src : Source) (fault : Bool) (b : App) (st : Nat) :
    useStyle env ⟨a, p⟩ w src fault = (b, .ok st) ↔
      b.poisoned = p ∧ Context.useStyle env a w src fault = some (b.base, st) := by
  obtain ⟨h0, h1, h2, h3⟩ := place_handle h hw
  have hinv := (Context.events_ok es (Context.AppOk.init d) h).1.inv
  obtain ⟨e1, -, -, e4⟩ := styleAt_eq hinv h2 h2 (place_ok (p := p) h3) hm (app_container h hm) .scoped src fault
    (c! "failed to create style")
  have hlen := Context.create_mgrHandles (env := env) hinv (mh := h0) (kind := .scoped) (src := src) (fault := fault)
  obtain ⟨c1, c2⟩ := Context.useStyle_eq hinv h1 h2 h2 src fault
  change (styleAt env ⟨a, p⟩ w .scoped src fault (c! "failed to create style")) = (b, .ok st) ↔ _
  generalize styleAt env ⟨a, p⟩ w .scoped src fault (c! "failed to create style") = r at e1 e4
  obtain ⟨r1, r2⟩ := r
  simp only at e1 e4
  subst e1
  rw [Prod.mk.injEq, e4]
  generalize Manager.step env (.create h0 .scoped src fault) a.st = q at hlen c1 c2
  obtain ⟨q1, q2⟩ := q
  simp only at hlen c1 c2 ⊢
  constructor
  · rintro ⟨rfl, rfl⟩
    refine ⟨rfl, ?_⟩
    rw [c1 q1 st rfl, hlen]
  · rintro ⟨rfl, hu⟩
    by_cases hq : ∃ x, q2 = .style x
    · obtain ⟨x, rfl⟩ := hq
      rw [c1 q1 x rfl, hlen] at hu
      obtain ⟨b1, b2⟩ := b
      simp only [Option.some.injEq, Prod.mk.injEq] at hu ⊢
      exact ⟨by rw [hu.1], by rw [hu.2]⟩
    · rw [c2 (fun x hx => hq ⟨x, hx⟩)] at hu
      cases hu

/-- **C107.** After such a panic (of `use_style`, `css!` or `Global`, by `kind` and `what`) the
providers and the managers are the same, no style has been registered, recorded or handed out,
and the page is the same, provided that the id that was tried is a CSS identifier and not on the
page (as in C26). -/
theorem C107_after (kind : Kind) (src : Source) (fault : Bool) (what msg : Str) (b : App)
    (hp : styleAt env ⟨a, p⟩ w kind src fault what = (b, .panic msg)) :
    b.poisoned = p ∧ b.base.dflt = a.dflt ∧ b.base.provs = a.provs ∧ b.base.st.mgrs = a.st.mgrs ∧
    b.base.st.handles = a.st.handles ∧ b.base.st.logs = a.st.logs ∧
    (∀ x, b.base.st.mgrOf x = a.st.mgrOf x) ∧
    ((∀ c, b.base.st.heap = a.st.heap ++ [c] → cssIdent c.id = true ∧ withId c.id a.st.dom.inDoc = []) →
      b.base.st.dom = a.st.dom) := by
  obtain ⟨h0, h1, h2, h3⟩ := place_handle h hw
  obtain ⟨hok, -, -, ops, hq, -⟩ := Context.events_ok es (Context.AppOk.init d) h
  have hinv := hok.inv
  obtain ⟨e1, e2, -, e4⟩ := styleAt_eq hinv h2 h2 (place_ok (p := p) h3) hm (app_container h hm) kind src fault what
  rw [hp] at e1 e2 e4
  simp only at e1 e2 e4
  subst e1
  have hmgr : ∀ (t : St) x, (({ t with mgrHandles := a.st.mgrHandles ++ [none] } : St)).mgrOf x = a.st.mgrOf x := by
    intro t x
    simp only [St.mgrOf, List.getElem?_append]
    split
    · rfl
    · rename_i hx
      rw [List.getElem?_eq_none (Nat.le_of_not_lt hx)]
      cases hk : x - a.st.mgrHandles.length with
      | zero => rfl
      | succ n => simp
  have ht := Manager.step_tr env hinv (.create h0 kind src fault)
  have hnot : ∀ st, (Manager.step env (.create h0 kind src fault) a.st).2 ≠ .style st := fun st hst => by
    have := (e4 st).2 hst; cases this
  simp only [hmgr]
  rcases hr : Manager.step env (.create h0 kind src fault) a.st with ⟨s', out⟩
  rw [hr] at ht hnot
  simp only at ht hnot ⊢
  cases out with
  | err e =>
    refine ⟨trivial, trivial, trivial, ?_, ?_, ?_, fun _ => trivial, ?_⟩
    · cases ht <;> rfl
    · cases ht <;> rfl
    · cases ht <;> rfl
    · intro hid
      exact (Manager.C26_no_trace env d ops a.st s' hq h0 kind src fault e hr hid).2.2.2.2.1
  | panic =>
    refine ⟨trivial, trivial, trivial, ?_, ?_, ?_, fun _ => trivial, fun _ => ?_⟩ <;> cases ht <;> rfl
  | style st => exact absurd rfl (hnot st)
  | invalid =>
    have := create_forget env kind src fault h2 hm
    rw [hr] at this
    have := congrArg Prod.snd this
    simp only at this
    cases hc : (create env h0 kind src fault a.st).2 <;> rw [hc] at this <;> cases this
  | _ => cases ht

end

/-- **C107**, `<Global css="..." />`: a string that is refused panics when the prop is made, with
the report, before any manager is asked, and nothing changes. -/
theorem C107_prop (css msg : Str) :
    (intoPropValue css = .panic msg ↔ ∃ report, Refused css report ∧ msg = c! "couldn't parse style string: " ++ report) ∧
    (intoPropValue css = .panic msg → ∀ env a w fault, globalText env a w css fault = (a, .panic msg)) := by
  constructor
  · rcases parse_cases css with ⟨s, h1, h2⟩ | ⟨e, h1, -, h2, h3, h4⟩
    · simp only [intoPropValue, h1, expectDisplay]
      refine ⟨fun h => (by cases h), ?_⟩
      rintro ⟨report, h, -⟩
      exact absurd h (not_refused h2 report)
    · simp only [intoPropValue, h1, expectDisplay, Res.panic.injEq]
      constructor
      · rintro rfl; exact ⟨_, h3, rfl⟩
      · rintro ⟨report, h, rfl⟩; rw [h4 _ h]; rfl
  · intro h env a w fault
    simp [globalText, h]

/-- **C107**, the default manager: asking for it panics exactly if it does not exist yet and
cannot be made, as there is no document or no head. The first time the message says so. -/
theorem C107_default (env : Env) (o : Bool) (d : Dom) (es : List Context.Event) (a : Context.App) (p : Bool)
    (h : Context.events env o es (Context.App.init d) = some a) (hh : ∀ k ∈ env.head, k < a.st.dom.length) (msg : Str) :
    (defaultMgr env ⟨a, p⟩).2 = .panic msg ↔
      a.dflt = none ∧ ((p = true ∧ msg = c! "Lazy instance has previously been poisoned") ∨
        (p = false ∧ env.wasm = true ∧ env.head = none ∧ msg =
          c! "Failed to create default manager.: Failed to Interact with Web API. Are you running in Browser?")) := by
  have hok := (Context.events_ok es (Context.AppOk.init d) h).1
  cases hd : a.dflt with
  | some mh =>
    obtain ⟨i, m, h1, -⟩ := hok.dflt mh hd
    simp [defaultMgr, hd, cloneMgr, Context.cloneMgr_eq h1]
  | none =>
    cases p with
    | true =>
      simp [defaultMgr, hd]
      exact eq_comm
    | false =>
      have h2 : env.head.filter (fun i => decide (i < a.st.dom.length)) = env.head := by
        cases h : env.head with
        | none => rfl
        | some k => simp [Option.filter, hh k h]
      cases hwasm : env.wasm with
      | false =>
        simp [defaultMgr, hd, build, Manager.newMgr, hwasm, St.writerFree, expectDisplay, cloneMgr, Context.cloneMgr, Manager.step,
          St.mgrOf]
      | true =>
        cases hhead : env.head with
        | none =>
          rw [hhead] at h2
          simp [defaultMgr, hd, build, Manager.newMgr, hwasm, St.writerFree, expectDisplay, hhead, Error.display, eq_comm]
        | some k =>
          rw [hhead] at h2
          simp [defaultMgr, hd, build, Manager.newMgr, hwasm, St.writerFree, expectDisplay, cloneMgr, Context.cloneMgr,
            Manager.step, St.mgrOf, hhead, h2]

/-- A page without `<head>`: nothing can be made outside of providers, and only the first panic
names the cause. -/
def noHead : Env := { Manager.demoEnv with head := none }

/-- **C107, limit.** The second time, and every time after that, the message on the default
manager does not name the cause. -/
theorem C107_limit_default :
    let first := useStyle noHead ⟨Context.App.init [], false⟩ .outside (.text (c! "color: red;")) false
    first.2 = .panic (c! "Failed to create default manager.: Failed to Interact with Web API. Are you running in Browser?") ∧
    (useStyle noHead first.1 .outside (.text (c! "color: red;")) false).2 =
      .panic (c! "Lazy instance has previously been poisoned") := by
  decide +kernel

/-- The hypotheses of C107 are met: below the first of two providers, `use_style` with css that is
refused, with css that is accepted in a browser that refuses, and with css that is accepted. -/
example : ∃ a m, Context.events Manager.demoEnv false Context.demoEvents (Context.App.init Manager.demoPage) = some a ∧
    ManagerAt a (given Manager.demoEnv false Context.demoEvents (Context.App.init Manager.demoPage) []) (.below 0) 0 ∧
    a.st.mgrs[0]? = some m ∧
    (useStyle Manager.demoEnv ⟨a, false⟩ (.below 0) (.text (c! "a: b;\n@import x;")) false).2 = .panic
      (c! "failed to create style: Failed to Parse CSS, due to:\n0: at line 2, in Many0:\n@import x;\n^\n\n1: at line 1, in Trimmed:\na: b;\n^\n\n2: at line 1, in StyleSheet:\na: b;\n^\n\n") ∧
    (useStyle Manager.demoEnv ⟨a, false⟩ (.below 0) (.text (c! "color: green;")) true).2 = .panic
      (c! "failed to create style: Failed to Interact with Web API. Are you running in Browser?") ∧
    (useStyle Manager.demoEnv ⟨a, false⟩ (.below 0) (.text (c! "color: green;")) false).2 = .ok 1 := by
  refine ⟨(Context.events Manager.demoEnv false Context.demoEvents (Context.App.init Manager.demoPage)).getD (Context.App.init []),
    ((Context.events Manager.demoEnv false Context.demoEvents (Context.App.init Manager.demoPage)).getD (Context.App.init [])).st.mgrs[0]'(by decide +kernel),
    ?_, ?_, ?_, ?_, ?_, ?_⟩
  case refine_2 => simp only [ManagerAt]; decide +kernel
  all_goals decide +kernel

end Panic
