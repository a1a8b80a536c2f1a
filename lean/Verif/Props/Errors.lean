import Verif.Proofs.Errors
import Verif.Props.Manager

/-!
# Errors

C76.
-/

namespace Manager

/-! ## C76: errors name their cause -/

/-- **C76**, css that cannot be read: creating a style is a parse error exactly if it is
created from a text that does not parse, whatever happened before and whatever the browser
does; and then nothing changes. -/
theorem C76_parse (env : Env) (d : Dom) (ops : List Op) (s : St) (hs : s = run env ops (St.init d))
    (mh i : Nat) (kind : Kind) (src : Source) (fault : Bool) (hi : s.mgrOf mh = some i) :
    ((step env (.create mh kind src fault) s).2 = .err .parse ↔ ∃ css, src = .text css ∧ Css.parse css = none) ∧
    ((step env (.create mh kind src fault) s).2 = .err .parse → (step env (.create mh kind src fault) s).1 = s) := by
  have hinv : Inv s := hs ▸ inv_run env ops (Inv.init d)
  obtain ⟨m, hm⟩ := mgrOf_get hinv hi
  cases hsrc : src.sheet? with
  | none =>
    have h1 : step env (.create mh kind src fault) s = (s, .err .parse) := by
      simp [step, create, hi, hm, hsrc]
    rw [h1]
    refine ⟨⟨fun _ => ?_, fun _ => rfl⟩, fun _ => rfl⟩
    cases src with
    | sheet a => cases hsrc
    | text css => exact ⟨css, rfl, hsrc⟩
  | some ast =>
    have h1 : (step env (.create mh kind src fault) s).2 ≠ .err .parse := by
      rcases getOrRegister_eq env hinv hm fault (kind.key m.pref ast) with ⟨p, -, h1⟩ | ⟨-, h1⟩
      · simp [step, create, hi, hm, hsrc, h1]
      · rcases h1 with ⟨-, -, h1⟩ | ⟨-, ⟨l, log, -, -, h1⟩ | ⟨-, -, h1⟩ | ⟨dd, -, -, h1⟩⟩ <;>
          simp [step, create, hi, hm, hsrc, h1]
    refine ⟨⟨fun h => absurd h h1, ?_⟩, fun h => absurd h h1⟩
    rintro ⟨css, rfl, h⟩
    rw [show (Source.text css).sheet? = Css.parse css from rfl, h] at hsrc
    cases hsrc

/-- **C76**, the browser: for css that parses, creating a style is a web error exactly if
there is no such style yet, the manager puts styles on the page of a browser, and either the
browser refuses or the manager prepends (C30) and the container is not empty. With
`debug_parser`, texts that do not parse are a panic instead. -/
theorem C76_web (env : Env) (d : Dom) (ops : List Op) (s : St) (hs : s = run env ops (St.init d))
    (mh i : Nat) (m : Mgr) (kind : Kind) (src : Source) (fault : Bool) (ast : Sheet) (hi : s.mgrOf mh = some i)
    (hm : s.mgrs[i]? = some m) (hsrc : src.sheet? = some ast) :
    (step env (.create mh kind src fault) s).2 = .err .web ↔
      env.wasm = true ∧ m.log = none ∧ kind.key m.pref ast ∉ m.reg.map Prod.fst ∧
      (fault = true ∨ (m.append = false ∧ ∃ k, m.container = some k ∧ s.dom.childrenOf k ≠ [])) ∧
      (env.debugParser = true → ∃ t, Css.parse (ast.toStyleStr (if kind = .global then none
        else some (makeId (kind.key m.pref ast) (env.entropy s.ctr)))) = some t) := by
  have hinv : Inv s := hs ▸ inv_run env ops (Inv.init d)
  have hcont : env.wasm = true → m.container ≠ none := by
    intro hw h
    have := has_container env hw ops (Inv.init d) (by simp [St.init]) m (hs ▸ List.mem_of_getElem? hm)
    rw [h] at this; cases this
  have htext : (newContent env s i (kind.key m.pref ast)).text = ast.toStyleStr (if kind = .global then none
        else some (makeId (kind.key m.pref ast) (env.entropy s.ctr))) := by
    cases kind <;> simp [newContent, Kind.key]
  rw [← htext, ← regGet_eq_none]
  have hp : ∀ x : Option Sheet, (∃ t, x = some t) ↔ x ≠ none := fun x => Option.ne_none_iff_exists'.symm
  simp only [hp]
  rcases getOrRegister_eq env hinv hm fault (kind.key m.pref ast) with ⟨p, h1, h2⟩ | ⟨h1, h2⟩
  · simp [step, create, hi, hm, hsrc, h2, h1]
  · rcases h2 with ⟨h3, h4, h2⟩ | ⟨h5, ⟨l, log, h3, h4, h2⟩ | ⟨h3, h4, h2⟩ | ⟨dd, h3, h4, h2⟩⟩
    · simp [step, create, hi, hm, hsrc, h2, h3, h4]
    · simp [step, create, hi, hm, hsrc, h2, h3]
    · have hmn := mount_none.1 h4
      simp only [step, create, hi, hm, hsrc, h2, true_iff]
      refine ⟨hmn.1, h3, h1, ?_, h5⟩
      rcases hmn.2 with h | h | h
      · exact .inl h
      · exact absurd h (hcont hmn.1)
      · exact .inr h
    · simp only [step, create, hi, hm, hsrc, h2]
      refine ⟨fun h => by simp at h, fun ⟨a1, a2, a3, a4, a5⟩ => ?_⟩
      have : mount env fault m (newContent env s i (kind.key m.pref ast)) s.dom = none :=
        mount_none.2 ⟨a1, a4.elim .inl (fun h => .inr (.inr h))⟩
      rw [this] at h4; cases h4

/-- **C76**, building a manager is an error, a web error, exactly if it is in a browser, has
no container, and the document has no head. -/
theorem C76_build (env : Env) (s : St) (pref : Str) (container : Option Nat) (append : Bool) (writer : Option Nat)
    (hw : ∀ l ∈ writer, ∃ log, s.logs[l]? = some log ∧ log.writerTaken = false)
    (hc : ∀ k ∈ container, k < s.dom.length) (hh : ∀ k ∈ env.head, k < s.dom.length) (e : Err) :
    (step env (.newMgr pref container append writer) s).2 = .err e ↔
      e = .web ∧ env.wasm = true ∧ container = none ∧ env.head = none := by
  have h1 : (s.writerFree writer && container.all (fun i => decide (i < s.dom.length))) = true := by
    rw [Bool.and_eq_true]
    constructor
    · cases writer with
      | none => rfl
      | some l =>
        obtain ⟨log, h2, h3⟩ := hw l rfl
        simp [St.writerFree, h2, h3]
    · cases container with
      | none => rfl
      | some k => simpa using hc k rfl
  have h2 : env.head.filter (fun i => decide (i < s.dom.length)) = env.head := by
    cases h : env.head with
    | none => rfl
    | some k => simp [Option.filter, hh k h]
  simp only [step, newMgr, h1, h2, if_true]
  cases env.wasm with
  | false => simp
  | true =>
    cases container with
    | some k => simp
    | none =>
      cases env.head with
      | none => cases e <;> simp
      | some k => simp

/-- **C76**, nothing else is an error: of all operations only creating a style and building a
manager return one. -/
theorem C76_others (env : Env) (d : Dom) (ops : List Op) (s : St) (hs : s = run env ops (St.init d)) (op : Op)
    (e : Err) (h : (step env op s).2 = .err e) :
    e ≠ .readFailed ∧ ((∃ mh kind src fault, op = .create mh kind src fault) ∨
      ∃ pref append writer container, op = .newMgr pref container append writer) := by
  have hinv : Inv s := hs ▸ inv_run env ops (Inv.init d)
  have ht := step_tr env hinv op
  rw [h] at ht
  generalize (step env op s).1 = s' at ht
  generalize hout : Out.err e = out at ht
  cases ht with
  | newMgrErr => cases hout; exact ⟨by simp, .inr ⟨_, _, _, _, rfl⟩⟩
  | createSyntax => cases hout; exact ⟨by simp, .inl ⟨_, _, _, _, rfl⟩⟩
  | createFail => cases hout; exact ⟨by simp, .inl ⟨_, _, _, _, rfl⟩⟩
  | load mh i data s s' r out h1 h2 h3 =>
    exfalso
    rw [← hout] at h3
    have : ∀ e, r ≠ .err e := by
      clear h3 hs hinv h h1
      induction h2 with
      | same _ _ _ _ _ _ _ _ _ _ _ _ _ ih => exact ih
      | fresh _ _ _ _ _ _ _ _ _ ih => exact ih
      | _ => simp
    cases r with
    | err e => exact this e rfl
    | ok => cases h3
    | panic => cases h3
  | _ => cases hout

/-- Non-vacuity: both errors, and none for a style that exists, in the same state. -/
example : (step demoEnv (.create 0 .scoped (.text (c! "color")) true) demoState).2 = .err .parse ∧
    (step demoEnv (.create 0 .scoped (.text (c! "color: blue;")) true) demoState).2 = .err .web ∧
    (step demoEnv (.create 0 .scoped (.text (c! "color: red;")) true) demoState).2 = .style 4 ∧
    (step { demoEnv with head := none } (.newMgr (c! "a") none true none) demoState).2 = .err .web := by decide

/-- A sheet as a macro makes it from an interpolated value with a brace. -/
def brokenSheet : Sheet := [.block [] [.attr (c! "color") [c! "}"]]]

/-- What C76 does not say: the documentation has an error for reading style data after the
renderer panicked, or if the writer was dropped without being given to a manager. It is never
returned: reading gives what was recorded until then, or nothing. -/
theorem C76_limit_read :
    outs { serverEnv with debugParser := true } [.renderStatic, .newMgr (c! "a") none true (some 0),
      .create 0 .scoped (.text (c! "color: red;")) false, .create 0 .scoped (.sheet brokenSheet) false, .readData 0,
      .renderStatic, .readData 1] (St.init []) =
    [.writer 0, .mgr 0, .style 0, .panic,
      .data [⟨⟨false, c! "a", demoRed⟩, c! "a-style-0", c! ".a-style-0 {\n    color: red;\n}\n"⟩],
      .writer 1, .data []] := by decide +kernel

end Manager
