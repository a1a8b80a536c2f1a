import Verif.Spec.Failures
import Verif.Proofs.Report
import Verif.Props.Errors
import Verif.Props.Context

/-!
# What errors and panics say: lemmas
-/

open Spec

namespace Panic

open Manager (Env St Mgr Key Content Entry Source Kind makeId regGet regInsert mount Inv Err)
open Context (Place)

/-! ## Reading css -/

theorem parse_cases (css : Str) :
    (∃ s, parse css = .ok s ∧ Css.parse css = some s) ∨
    (∃ e, parse css = .err e ∧ (∃ r src, e = .parse r src) ∧ Css.parse css = none ∧ Refused css e.display ∧
      ∀ report, Refused css report → report = e.display) := by
  cases h : Report.sheet css with
  | ok s => exact .inl ⟨s, by simp [parse, h], (Report.sheet_ok css s).1 h⟩
  | error es =>
    refine .inr ⟨.parse (Report.entries css 0 es) es, by simp [parse, h], ⟨_, _, rfl⟩, ?_, ⟨es, by simp [Report.parse, h, Error.display]⟩, ?_⟩
    · cases hc : Css.parse css with
      | none => rfl
      | some s => rw [(Report.sheet_ok css s).2 hc] at h; cases h
    · rintro report ⟨es', h'⟩
      simp only [Report.parse, h, Except.error.injEq, Prod.mk.injEq] at h'
      exact h'.2.symm

theorem refused_iff (css : Str) : (∃ report, Refused css report) ↔ Css.parse css = none := by
  rcases parse_cases css with ⟨s, -, h⟩ | ⟨e, -, -, h, h', -⟩
  · rw [h]
    refine ⟨?_, fun h => by cases h⟩
    rintro ⟨report, es, h'⟩
    cases hs : Report.sheet css with
    | ok s => simp [Report.parse, hs] at h'
    | error es => rw [(Report.sheet_ok css s).2 h] at hs; cases hs
  · exact ⟨fun _ => h, fun _ => ⟨_, h'⟩⟩

theorem not_refused {css : Str} {s : Sheet} (h : Css.parse css = some s) (report : Str) : ¬ Refused css report := by
  intro hr
  have := (refused_iff css).1 ⟨_, hr⟩
  rw [h] at this; cases this

/-! ## The model with messages is the model without, and more -/

/-- Without the details. -/
def Error.kind : Error → Err
  | .parse _ _ => .parse
  | .web => .web
  | .readFailed => .readFailed

/-- Without the message. -/
def Res.forget {α : Type} : Res α → Manager.Res α
  | .ok a => .ok a
  | .err e => .err e.kind
  | .panic _ => .panic

theorem register_forget (i : Nat) (key : Key) (p : Nat) (s : St) :
    Manager.register i key p s = ((register i key p s).1, (register i key p s).2.forget) := by
  unfold Manager.register register
  cases s.mgrs[i]? with
  | none => rfl
  | some m => cases h : regGet m.reg key <;> simp [h, Res.forget]

theorem register_no_err {i : Nat} {key : Key} {p : Nat} {s s' : St} {e : Error} : register i key p s ≠ (s', .err e) := by
  unfold register
  cases s.mgrs[i]? with
  | none => simp
  | some m => cases h : regGet m.reg key <;> simp [h]

theorem createBody_forget (env : Env) (fault : Bool) (i : Nat) (key : Key) (s : St) :
    Manager.createBody env fault i key s = ((createBody env fault i key s).1, (createBody env fault i key s).2.forget) := by
  simp only [Manager.createBody, createBody]
  cases hm : s.mgrs[i]? with
  | none => rfl
  | some m =>
    cases hg : regGet m.reg key with
    | some p => simp only [hg]; rfl
    | none =>
      simp only [hg]
      generalize htext : key.ast.toStyleStr (if key.isGlobal = true then none else some (makeId key (env.entropy s.ctr))) = text
      have hbody : ∀ (b : St × Manager.Res Nat) (b' : St × Res Nat), b = (b'.1, b'.2.forget) →
          (if (env.debugParser && (Css.parse text).isNone) = true then (({ s with ctr := s.ctr + 1 } : St), Manager.Res.panic) else b) =
          ((match (if env.debugParser = true then expectDisplay (c! "debug: Stylist failed to parse the style with interpolated values") (parse text) else .ok []) with
            | .panic msg => (({ s with ctr := s.ctr + 1 } : St), Res.panic msg)
            | .err e => ({ s with ctr := s.ctr + 1 }, .err e)
            | .ok _ => b').1,
          (match (if env.debugParser = true then expectDisplay (c! "debug: Stylist failed to parse the style with interpolated values") (parse text) else .ok []) with
            | .panic msg => (({ s with ctr := s.ctr + 1 } : St), Res.panic msg)
            | .err e => ({ s with ctr := s.ctr + 1 }, .err e)
            | .ok _ => b').2.forget) := by
        intro b b' hb
        cases env.debugParser with
        | false => simpa using hb
        | true =>
          rcases parse_cases text with ⟨t, h1, h2⟩ | ⟨e, h1, -, h2, -⟩
          · simpa [h1, h2, expectDisplay] using hb
          · simp [h1, h2, expectDisplay, Res.forget]
      apply hbody
      cases m.log with
      | some l =>
        dsimp only
        cases s.logs[l]? with
        | none => rfl
        | some log =>
          dsimp only
          split
          · rfl
          · rw [register_forget]
            generalize hr : register i key _ _ = r
            obtain ⟨r1, r2⟩ := r
            cases r2 with
            | ok a => rfl
            | err e => exact absurd hr register_no_err
            | panic msg => rfl
      | none =>
        dsimp only
        cases mount env fault m _ s.dom with
        | none => rfl
        | some d =>
          dsimp only
          rw [register_forget]
          generalize hr : register i key _ _ = r
          obtain ⟨r1, r2⟩ := r
          cases r2 with
          | ok a => rfl
          | err e => exact absurd hr register_no_err
          | panic msg => rfl

theorem getOrRegister_forget (env : Env) (fault : Bool) (i : Nat) (key : Key) (s : St) :
    Manager.getOrRegister env fault i key s =
      ((getOrRegister env fault i key s).1, (getOrRegister env fault i key s).2.forget) := by
  unfold Manager.getOrRegister getOrRegister Manager.withBorrow withBorrow
  cases s.mgrs[i]? with
  | none => rfl
  | some m =>
    dsimp only
    split
    · rfl
    · rw [createBody_forget]

/-- What the caller sees. -/
def Res.out : Res Nat → Manager.Out
  | .ok h => .style h
  | .err e => .err e.kind
  | .panic _ => .panic

theorem create_forget (env : Env) {mh i : Nat} (kind : Kind) (src : Source) (fault : Bool) {s : St} {m : Mgr}
    (hi : s.mgrOf mh = some i) (hm : s.mgrs[i]? = some m) :
    Manager.step env (.create mh kind src fault) s =
      ((create env mh kind src fault s).1, (create env mh kind src fault s).2.out) := by
  simp only [Manager.step, Manager.create, create, hi, hm]
  cases src with
  | sheet a =>
    simp only [Source.sheet?, tryInto]
    rw [getOrRegister_forget]
    generalize getOrRegister env fault i _ s = r
    obtain ⟨r1, r2⟩ := r
    cases r2 <;> rfl
  | text css =>
    rcases parse_cases css with ⟨t, h1, h2⟩ | ⟨e, h1, ⟨r, x, rfl⟩, h2, -⟩
    · simp only [Source.sheet?, tryInto, h1, h2]
      rw [getOrRegister_forget]
      generalize getOrRegister env fault i _ s = r
      obtain ⟨r1, r2⟩ := r
      cases r2 <;> rfl
    · simp [Source.sheet?, tryInto, h1, h2, Res.out, Error.kind]

/-! ## Creating a style -/

theorem nextText_eq (env : Env) (s : St) (i : Nat) (m : Mgr) (kind : Kind) (ast : Sheet) :
    (Manager.newContent env s i (kind.key m.pref ast)).text = nextText env s m kind ast := by
  cases kind <;> simp [Manager.newContent, Kind.key, nextText]

/-- The message of the check of debug builds. -/
theorem getOrRegister_debug {env : Env} {s : St} (hi : Inv s) {i : Nat} {m : Mgr} (hm : s.mgrs[i]? = some m)
    (fault : Bool) (key : Key) (hg : regGet m.reg key = none) (hd : env.debugParser = true) {e : Error}
    (he : parse (Manager.newContent env s i key).text = .err e) :
    (getOrRegister env fault i key s).2 =
      .panic (c! "debug: Stylist failed to parse the style with interpolated values" ++ c! ": " ++ e.display) := by
  have hget : (s.modMgr i (fun m => { m with borrowed := true })).mgrs[i]? = some { m with borrowed := true } := by
    simp [St.modMgr, hm]
  have hb : m.borrowed = false := hi.borrow m (List.mem_of_getElem? hm)
  have h3 : (s.modMgr i (fun m => { m with borrowed := true })).ctr = s.ctr := rfl
  simp only [Manager.newContent] at he
  simp only [getOrRegister, withBorrow, hm, hb, createBody, hget, hg, h3, hd, he, if_true, expectDisplay, Bool.false_eq_true, if_false]

theorem Failure.det_parse {env : Env} {s : St} {m : Mgr} {kind : Kind} {fault : Bool} {what css msg : Str} {e : Error}
    (hc : Css.parse css = none) (hu : ∀ report, Refused css report → report = e.display)
    (h : Failure env s m kind fault what (.text css) msg) : msg = what ++ c! ": " ++ e.display := by
  cases h with
  | parse _ report h => rw [hu _ h]
  | debug _ ast _ h => rw [show (Source.text css).sheet? = Css.parse css from rfl, hc] at h; cases h
  | web _ ast h => rw [show (Source.text css).sheet? = Css.parse css from rfl, hc] at h; cases h

/-- A style is not made, exactly for the reasons there are, and the message says so. -/
theorem create_failure {env : Env} {s : St} (hinv : Inv s) {mh i : Nat} {m : Mgr} (kind : Kind) (src : Source) (fault : Bool)
    (what msg : Str) (hi : s.mgrOf mh = some i) (hm : s.mgrs[i]? = some m)
    (hcont : env.wasm = true → m.container ≠ none) :
    expectDisplay what (create env mh kind src fault s).2 = .panic msg ↔ Failure env s m kind fault what src msg := by
  have hf := create_forget env kind src fault hi hm
  have main : ∀ ast, src.sheet? = some ast → (∀ css, src = .text css → ∀ report, ¬ Refused css report) →
      tryInto src = .ok ast →
      (expectDisplay what (create env mh kind src fault s).2 = .panic msg ↔ Failure env s m kind fault what src msg) := by
    intro ast hsrc hnr hinto
    have hcr : (create env mh kind src fault s).2 = match (getOrRegister env fault i (kind.key m.pref ast) s).2 with
        | .ok _ => .ok (getOrRegister env fault i (kind.key m.pref ast) s).1.handles.length
        | .err e => .err e
        | .panic msg => .panic msg := by
      simp only [create, hi, hm, hinto]
      generalize getOrRegister env fault i _ s = r
      obtain ⟨r1, r2⟩ := r
      cases r2 <;> rfl
    have hg2 := congrArg Prod.snd (getOrRegister_forget env fault i (kind.key m.pref ast) s)
    simp only at hg2
    have hnew : ∀ {ast'}, src.sheet? = some ast' → ast' = ast := fun h => by rw [hsrc] at h; exact (Option.some.inj h).symm
    rcases Manager.getOrRegister_eq env hinv hm fault (kind.key m.pref ast) with ⟨p, h1, h2⟩ | ⟨h1, h2⟩
    · -- there is such a style
      rw [h2] at hg2
      have hnn : ¬ NewStyle m kind ast := by
        intro h
        have := Manager.regGet_eq_none.2 h
        rw [h1] at this; cases this
      have : (create env mh kind src fault s).2 ≠ .panic msg ∧ ∀ e, (create env mh kind src fault s).2 ≠ .err e := by
        rw [hcr]
        cases hr : (getOrRegister env fault i (kind.key m.pref ast) s).2 with
        | ok a => simp
        | err e => rw [hr] at hg2; cases hg2
        | panic e => rw [hr] at hg2; cases hg2
      constructor
      · intro h
        cases hr : (create env mh kind src fault s).2 with
        | ok a => rw [hr] at h; cases h
        | err e => exact absurd hr (this.2 e)
        | panic x => rw [hr] at h; cases h; exact absurd hr this.1
      · intro h
        cases h with
        | parse css report h => exact absurd h (hnr css rfl report)
        | debug _ ast' _ h h' => exact absurd (hnew h ▸ h') hnn
        | web _ ast' h h' => exact absurd (hnew h ▸ h') hnn
    · have hN : NewStyle m kind ast := Manager.regGet_eq_none.1 h1
      rw [nextText_eq] at h2
      rcases h2 with ⟨h3, h4, h2⟩ | ⟨h5, h2⟩
      · -- the check of debug builds
        rcases parse_cases (nextText env s m kind ast) with ⟨t, h6, h7⟩ | ⟨e, h6, -, h7, h8, h9⟩
        · rw [h4] at h7; cases h7
        · have hmsg := getOrRegister_debug hinv hm fault (kind.key m.pref ast) h1 h3 (nextText_eq env s i m kind ast ▸ h6)
          rw [hcr, hmsg]
          simp only [expectDisplay, Res.panic.injEq]
          constructor
          · rintro rfl
            exact .debug src ast _ hsrc hN h3 h8
          · intro h
            cases h with
            | parse css report h => exact absurd h (hnr css rfl report)
            | debug _ ast' report a1 a2 a3 a4 =>
              cases hnew a1
              rw [h9 _ a4]; rfl
            | web _ ast' a1 a2 a3 =>
              cases hnew a1
              exact absurd h8 (a3 h3 _)
      · have hnd : ∀ ast' report, src.sheet? = some ast' → env.debugParser = true →
            ¬ Refused (nextText env s m kind ast') report := by
          intro ast' report a1 a2 a3
          cases hnew a1
          exact h5 a2 ((refused_iff _).1 ⟨_, a3⟩)
        have hnotok : (∃ p, (getOrRegister env fault i (kind.key m.pref ast) s).2 = .ok p) →
            (env.wasm = true → m.log = none →
              ¬ (fault = true ∨ (m.append = false ∧ ∃ k, m.container = some k ∧ s.dom.childrenOf k ≠ []))) →
            (expectDisplay what (create env mh kind src fault s).2 = .panic msg ↔ Failure env s m kind fault what src msg) := by
          rintro ⟨p, hp⟩ hno
          rw [hcr, hp]
          simp only [expectDisplay]
          constructor
          · intro h; cases h
          · intro h
            cases h with
            | parse css report h => exact absurd h (hnr css rfl report)
            | debug _ ast' report a1 a2 a3 a4 => exact absurd a4 (hnd _ _ a1 a3)
            | web _ ast' a1 a2 a3 a4 a5 a6 => exact absurd a6 (hno a4 a5)
        have hok : ∀ t p, Manager.getOrRegister env fault i (kind.key m.pref ast) s = (t, .ok p) →
            ∃ p, (getOrRegister env fault i (kind.key m.pref ast) s).2 = .ok p := by
          intro t p h
          rw [h] at hg2
          cases hr : (getOrRegister env fault i (kind.key m.pref ast) s).2 with
          | ok a => exact ⟨a, rfl⟩
          | err e => rw [hr] at hg2; cases hg2
          | panic e => rw [hr] at hg2; cases hg2
        rcases h2 with ⟨l, log, h3, h4, h2⟩ | ⟨h3, h4, h2⟩ | ⟨dd, h3, h4, h2⟩
        · exact hnotok (hok _ _ h2) (fun _ h => by rw [h3] at h; cases h)
        · -- the browser
          have hmn := Manager.mount_none.1 h4
          have hw : (getOrRegister env fault i (kind.key m.pref ast) s).2 = .err .web := by
            rw [h2] at hg2
            cases hr : (getOrRegister env fault i (kind.key m.pref ast) s).2 with
            | ok a => rw [hr] at hg2; cases hg2
            | err e =>
              rw [hr] at hg2
              cases e <;> first | rfl | cases hg2
            | panic e => rw [hr] at hg2; cases hg2
          rw [hcr, hw]
          simp only [expectDisplay, Error.display, Res.panic.injEq]
          constructor
          · rintro rfl
            have := Failure.web (what := what) src ast hsrc hN (fun h r => hnd ast r hsrc h) hmn.1 h3 (by
              rcases hmn.2 with h | h | h
              · exact .inl h
              · exact absurd h (hcont hmn.1)
              · exact .inr h)
            simpa using this
          · intro h
            cases h with
            | parse css report h => exact absurd h (hnr css rfl report)
            | debug _ ast' report a1 a2 a3 a4 => exact absurd a4 (hnd _ _ a1 a3)
            | web _ ast' a1 a2 a3 a4 a5 a6 => simp
        · refine hnotok (hok _ _ h2) (fun hw _ h => ?_)
          have : mount env fault m (Manager.newContent env s i (kind.key m.pref ast)) s.dom = none :=
            Manager.mount_none.2 ⟨hw, h.elim .inl (fun h => .inr (.inr h))⟩
          rw [this] at h4; cases h4
  cases src with
  | sheet a => exact main a rfl (fun css h => by cases h) rfl
  | text css =>
    rcases parse_cases css with ⟨t, h1, h2⟩ | ⟨e, h1, -, h2, h3, h4⟩
    · refine main t h2 ?_ h1
      rintro _ ⟨⟩ report
      exact not_refused h2 report
    · have hc : (create env mh kind (.text css) fault s).2 = .err e := by simp [create, hi, hm, tryInto, h1]
      rw [hc]
      simp only [expectDisplay, Res.panic.injEq]
      constructor
      · rintro rfl; exact .parse _ _ h3
      · intro h; exact (Failure.det_parse h2 h4 h).symm

/-! ## In an application -/

theorem expectDisplay_no_err {α : Type} (what : Str) (r : Res α) (e : Error) : expectDisplay what r ≠ .err e := by
  cases r <;> simp [expectDisplay]

/-- A style made with the manager of a place, when there is one. -/
theorem styleAt_eq {env : Env} {a : Context.App} {p : Bool} {w : Place} {h0 mh i : Nat} {m : Mgr} (hinv : Inv a.st)
    (h1 : a.st.mgrOf h0 = some i) (h2 : a.st.mgrOf mh = some i)
    (hw : ∀ r, r = Context.cloneMgr env a h0 → contextMgr env ⟨a, p⟩ w = match r with
      | some (b, mh') => (⟨b, p⟩, .ok mh')
      | none => (⟨a, p⟩, .panic []))
    (hm : a.st.mgrs[i]? = some m) (hcont : env.wasm = true → m.container ≠ none) (kind : Kind) (src : Source)
    (fault : Bool) (what : Str) :
    (styleAt env ⟨a, p⟩ w kind src fault what).1 =
      ⟨{ a with st := { (Manager.step env (.create mh kind src fault) a.st).1 with
          mgrHandles := a.st.mgrHandles ++ [none] } }, p⟩ ∧
    (∀ msg, (styleAt env ⟨a, p⟩ w kind src fault what).2 = .panic msg ↔ Failure env a.st m kind fault what src msg) ∧
    (∀ e, (styleAt env ⟨a, p⟩ w kind src fault what).2 ≠ .err e) ∧
    (∀ h, (styleAt env ⟨a, p⟩ w kind src fault what).2 = .ok h ↔
      (Manager.step env (.create mh kind src fault) a.st).2 = .style h) := by
  have hmh : (Context.withMh (a.st.mgrHandles ++ [some i]) a.st).mgrOf a.st.mgrHandles.length = some i := by
    simp [Context.withMh, St.mgrOf]
  have hi' : Inv (Context.withMh (a.st.mgrHandles ++ [some i]) a.st) := by
    have := Manager.inv_step env (.cloneMgr h0) hinv
    simp only [Manager.step, h1] at this
    exact this
  have hm' : (Context.withMh (a.st.mgrHandles ++ [some i]) a.st).mgrs[i]? = some m := hm
  have hx := Context.create_withMh (env := env) (kind := kind) (src := src) (fault := fault) hinv hi' h2 hmh
  have hlen := Context.create_mgrHandles (env := env) hinv (mh := mh) (kind := kind) (src := src) (fault := fault)
  have hl0 := Yew.mgrOf_lt h1
  have hf := create_forget env kind src fault hmh hm'
  rw [hx] at hf
  have hctx := hw _ rfl
  rw [Context.cloneMgr_eq h1] at hctx
  simp only at hctx
  have e0 : styleAt env ⟨a, p⟩ w kind src fault what =
      (⟨{ a with st := (Manager.step env (.dropMgr a.st.mgrHandles.length)
          (create env a.st.mgrHandles.length kind src fault (Context.withMh (a.st.mgrHandles ++ [some i]) a.st)).1).1 }, p⟩,
        expectDisplay what (create env a.st.mgrHandles.length kind src fault (Context.withMh (a.st.mgrHandles ++ [some i]) a.st)).2) := by
    simp only [styleAt, hctx]
    rfl
  have hs := congrArg Prod.fst hf
  have ho := congrArg Prod.snd hf
  simp only at hs ho
  refine ⟨?_, ?_, ?_, ?_⟩
  · rw [e0, ← hs]
    generalize Manager.step env (.create mh kind src fault) a.st = r at hlen
    obtain ⟨r1, r2⟩ := r
    simp only at hlen ⊢
    have e1 : (Context.withMh (a.st.mgrHandles ++ [some i]) r1).mgrOf a.st.mgrHandles.length = some i := by
      simp [Context.withMh, St.mgrOf]
    have e2 : (Context.withMh (a.st.mgrHandles ++ [some i]) r1).mgrOf h0 = some i := by
      rw [St.mgrOf, Context.withMh, List.getElem?_append_left hl0]; exact h1
    rw [Context.dropMgr_clone e1 e2 (by omega)]
    simp [Context.withMh]
  · intro msg
    rw [e0]
    have := create_failure hi' kind src fault what msg hmh hm' hcont
    rw [this]
    constructor
    · intro h
      cases h with
      | parse css report h => exact .parse css report h
      | debug _ ast report b1 b2 b3 b4 => exact .debug _ ast report b1 b2 b3 b4
      | web _ ast b1 b2 b3 b4 b5 b6 => exact .web _ ast b1 b2 b3 b4 b5 b6
    · intro h
      cases h with
      | parse css report h => exact .parse css report h
      | debug _ ast report b1 b2 b3 b4 => exact .debug _ ast report b1 b2 b3 b4
      | web _ ast b1 b2 b3 b4 b5 b6 => exact .web _ ast b1 b2 b3 b4 b5 b6
  · intro e
    rw [e0]
    exact expectDisplay_no_err _ _ _
  · intro h
    rw [e0, ho]
    cases (create env a.st.mgrHandles.length kind src fault (Context.withMh (a.st.mgrHandles ++ [some i]) a.st)).2 <;>
      simp [expectDisplay, Res.out]

theorem place_ok {env : Env} {a : Context.App} {p : Bool} {w : Place} {h0 : Nat}
    (hw : (∃ j q, w = .below j ∧ a.provs[j]? = some (some q) ∧ q.ctx = h0) ∨ (w = .outside ∧ a.dflt = some h0)) :
    ∀ r, r = Context.cloneMgr env a h0 → contextMgr env ⟨a, p⟩ w = match r with
      | some (b, mh') => (⟨b, p⟩, .ok mh')
      | none => (⟨a, p⟩, .panic []) := by
  rintro r rfl
  rcases hw with ⟨j, q, rfl, h1, rfl⟩ | ⟨rfl, h1⟩
  · simp only [contextMgr, h1, cloneMgr]
    cases Context.cloneMgr env a q.ctx with
    | none => rfl
    | some x => obtain ⟨b, mh'⟩ := x; rfl
  · simp only [contextMgr, defaultMgr, h1, cloneMgr]
    cases Context.cloneMgr env a h0 with
    | none => rfl
    | some x => obtain ⟨b, mh'⟩ := x; rfl

/-- A handle of the manager that counts at a place. -/
theorem place_handle {env : Env} {o : Bool} {d : Dom} {es : List Context.Event} {a : Context.App}
    (h : Context.events env o es (Context.App.init d) = some a) {w : Place} {i : Nat}
    (hw : Context.ManagerAt a (Context.given env o es (Context.App.init d) []) w i) :
    ∃ h0, Context.contextMgr env a w = Context.cloneMgr env a h0 ∧ a.st.mgrOf h0 = some i ∧
      ((∃ j q, w = .below j ∧ a.provs[j]? = some (some q) ∧ q.ctx = h0) ∨ (w = .outside ∧ a.dflt = some h0)) := by
  obtain ⟨-, hg, -⟩ := Context.events_ok es (Context.AppOk.init d) h
  have hg0 : Context.givenOf (Context.App.init d) = [] := rfl
  rw [hg0] at hg
  rw [← hg] at hw
  cases w with
  | outside =>
    obtain ⟨mh, h1, h2⟩ := hw
    exact ⟨mh, by simp [Context.contextMgr, Context.defaultMgr, h1], h2, .inr ⟨rfl, h1⟩⟩
  | below j =>
    simp only [Context.ManagerAt] at hw
    rw [Context.givenOf, List.getElem?_map] at hw
    cases hp : a.provs[j]? with
    | none => rw [hp] at hw; cases hw
    | some op =>
      rw [hp] at hw
      cases op with
      | none => cases hw
      | some q =>
        simp only [Option.map_some, Option.bind_some, Option.some.injEq] at hw
        exact ⟨q.ctx, by simp [Context.contextMgr, hp], hw, .inl ⟨j, q, rfl, hp, rfl⟩⟩

/-- In a browser every manager has a container. -/
theorem app_container {env : Env} {o : Bool} {d : Dom} {es : List Context.Event} {a : Context.App}
    (h : Context.events env o es (Context.App.init d) = some a) {i : Nat} {m : Mgr} (hm : a.st.mgrs[i]? = some m)
    (hw : env.wasm = true) : m.container ≠ none := by
  intro hn
  obtain ⟨-, -, -, ops, hq, -⟩ := Context.events_ok es (Context.AppOk.init d) h
  have := Manager.has_container env hw ops (Inv.init d) (by simp [St.init]) m
    (List.mem_of_getElem? (by rw [← show a.st = Manager.run env ops (St.init d) from hq]; exact hm))
  rw [hn] at this; cases this

end Panic
