import Verif.Spec.Builder
import Verif.Props.Manager
import Verif.Proofs.Context
import Verif.Proofs.Yew

/-!
# A manager is what its builder was told

C121.
-/

namespace Manager

theorem builder_told (calls : List BuilderCall) : calls.foldl Builder.set Builder.new =
    { pref := toldPrefix calls, container := toldContainer calls, append := toldAppend calls, log := toldWriter calls } := by
  have key : ∀ (calls : List BuilderCall) (b : Builder), calls.foldl Builder.set b =
      { pref := ((calls.filterMap BuilderCall.pref?).getLast?).getD b.pref
        container := ((calls.filterMap BuilderCall.container?).getLast?).or b.container
        append := ((calls.filterMap BuilderCall.append?).getLast?).getD b.append
        log := ((calls.filterMap BuilderCall.writer?).getLast?).or b.log } := by
    intro calls
    induction calls with
    | nil => intro b; simp
    | cons c cs ih =>
      intro b
      rw [List.foldl_cons, ih]
      cases c <;>
        simp [Builder.set, BuilderCall.pref?, BuilderCall.container?, BuilderCall.append?, BuilderCall.writer?,
          List.getLast?_cons]
      all_goals
        generalize List.getLast? _ = o
        cases o <;> rfl
  rw [key]
  simp [Builder.new, toldPrefix, toldContainer, toldAppend, toldWriter]

/-- **C121**, order: only the last call of each kind counts. -/
theorem C121_order (env : Env) (s : St) (calls calls' : List BuilderCall)
    (h : toldPrefix calls = toldPrefix calls' ∧ toldContainer calls = toldContainer calls' ∧
      toldAppend calls = toldAppend calls' ∧ toldWriter calls = toldWriter calls') :
    buildWith env calls s = buildWith env calls' s := by
  simp only [buildWith, buildOp, builder_told, h.1, h.2.1, h.2.2.1, h.2.2.2]

/-- The prefix is told twice, the container between. -/
def builtCalls : List BuilderCall := [.pref (c! "a"), .container 1, .pref (c! "b")]

example : buildWith demoEnv builtCalls (St.init demoPage) =
    buildWith demoEnv [.container 0, .pref (c! "b"), .append false, .container 1, .append true] (St.init demoPage) :=
  C121_order demoEnv _ builtCalls _ (by decide)

/-- **C121**, success: nodes that are told, and the head, are nodes of the page, and the writer has not
been given to another manager. Then building fails if and only if in a browser no container was told and
the document has no head. In any case the page stays as it is. -/
theorem C121_builds (env : Env) (s : St) (calls : List BuilderCall)
    (hc : ∀ k ∈ toldContainer calls, k < s.dom.length) (hh : ∀ k ∈ env.head, k < s.dom.length)
    (hw : ∀ l ∈ toldWriter calls, ∃ log, s.logs[l]? = some log ∧ log.writerTaken = false) :
    ((buildWith env calls s).2 = .err .web ↔ env.wasm = true ∧ toldContainer calls = none ∧ env.head = none) ∧
    ((buildWith env calls s).2 ≠ .err .web → ∃ mh, (buildWith env calls s).2 = .mgr mh) ∧
    (buildWith env calls s).1.dom = s.dom := by
  have h1 : s.writerFree (toldWriter calls) = true := by
    cases h : toldWriter calls with
    | none => rfl
    | some l =>
      obtain ⟨log, h2, h3⟩ := hw l h
      simp [St.writerFree, h2, h3]
  have h2 : (toldContainer calls).all (fun i => decide (i < s.dom.length)) = true := by
    cases h : toldContainer calls with
    | none => rfl
    | some k => simpa using hc k h
  have h3 : env.head.filter (fun i => decide (i < s.dom.length)) = env.head := by
    cases h : env.head with
    | none => rfl
    | some k => simpa [Option.filter] using hh k h
  simp only [buildWith, buildOp, builder_told, step, newMgr, h1, h2, h3, Bool.and_self, if_true]
  cases env.wasm <;> cases toldContainer calls <;> cases env.head <;> simp

/-- A document without a head: only a manager that was told a container. -/
example : (buildWith { demoEnv with head := none } [.pref (c! "b")] (St.init demoPage)).2 = .err .web ∧
    (buildWith { demoEnv with head := none } builtCalls (St.init demoPage)).2 ≠ .err .web := by
  refine ⟨(C121_builds _ (St.init demoPage) _ (by decide) (by decide) (by decide)).1.2 (by decide), fun h => ?_⟩
  have := (C121_builds { demoEnv with head := none } (St.init demoPage) builtCalls (by decide) (by decide) (by decide)).1.1 h
  revert this
  decide

/-- The manager that was told. -/
def mgrTold (env : Env) (calls : List BuilderCall) : Mgr :=
  { pref := toldPrefix calls, container := usedContainer env calls, append := toldAppend calls, log := toldWriter calls,
    reg := [], borrowed := false }

/-- What a manager is made of. -/
theorem built {env : Env} {s s1 : St} {calls : List BuilderCall} {mh : Nat} (hb : buildWith env calls s = (s1, .mgr mh))
    (hh : ∀ k ∈ env.head, k < s.dom.length) :
    s1.mgrOf mh = some s.mgrs.length ∧ mh = s.mgrHandles.length ∧ s1.mgrHandles = s.mgrHandles ++ [some s.mgrs.length] ∧
    s1.mgrs[s.mgrs.length]? = some (mgrTold env calls) := by
  have h3 : env.head.filter (fun i => decide (i < s.dom.length)) = env.head := by
    cases h : env.head with
    | none => rfl
    | some k => simpa [Option.filter] using hh k h
  simp only [buildWith, buildOp, builder_told, step, newMgr, h3] at hb
  split at hb
  · have hcon : (if env.wasm then (toldContainer calls).or env.head else toldContainer calls) = usedContainer env calls := by
      rw [usedContainer]
      cases toldContainer calls <;> cases env.wasm <;> cases env.head <;> rfl
    rw [hcon] at hb
    split at hb
    · simp at hb
    · simp only [Prod.mk.injEq, Out.mgr.injEq] at hb
      obtain ⟨rfl, rfl⟩ := hb
      exact ⟨by simp [St.mgrOf], rfl, rfl, by simp [mgrTold]⟩
  · simp at hb

/-- **C121**, what the manager says: in every later state, every value of the manager has the prefix that
was told last, or `stylist`, and the container that was told last, or the head of the document. -/
theorem C121_told (env : Env) (d : Dom) (ops : List Op) (s s1 : St) (hs : s = run env ops (St.init d))
    (hh : ∀ k ∈ env.head, k < s.dom.length) (calls : List BuilderCall) (mh : Nat)
    (hb : buildWith env calls s = (s1, .mgr mh)) :
    ∃ i, s1.mgrOf mh = some i ∧
      ∀ (ops' : List Op) (s2 : St) (mh' : Nat), s2 = run env ops' s1 → s2.mgrOf mh' = some i →
        s2.mgrPrefix mh' = some (toldPrefix calls) ∧ s2.mgrContainer mh' = some (usedContainer env calls) := by
  obtain ⟨h1, -, -, h2⟩ := built hb hh
  refine ⟨_, h1, ?_⟩
  intro ops' s2 mh' h3 h4
  have hinv : Inv s := hs ▸ inv_run env ops (Inv.init d)
  have hinv1 : Inv s1 := by
    have : s1 = (buildWith env calls s).1 := by rw [hb]
    rw [this]; exact inv_step env _ hinv
  obtain ⟨m, h5, h6⟩ := mgr_run env ops' hinv1 h2
  rw [← h3] at h5
  simp [St.mgrPrefix, St.mgrContainer, h4, h5, h6.1, h6.2.1, mgrTold]

/-- A second value of the manager, after another manager was built. -/
example : (run demoEnv [.newMgr (c! "c") (some 0) true none, .cloneMgr 0]
    (buildWith demoEnv builtCalls (St.init demoPage)).1).mgrPrefix 2 = some (c! "b") := by
  obtain ⟨i, h1, h2⟩ := C121_told demoEnv demoPage [] _ (buildWith demoEnv builtCalls (St.init demoPage)).1 rfl (by decide)
    builtCalls 0 (Prod.ext rfl (by decide))
  have h3 : (buildWith demoEnv builtCalls (St.init demoPage)).1.mgrOf 0 = some 0 := by decide
  rw [h3] at h1
  cases h1
  exact (h2 [.newMgr (c! "c") (some 0) true none, .cloneMgr 0] _ 2 rfl (by decide)).1

/-- **C121**, classes: without hydration, a style made with the manager has a class of the prefix that was
told last, unless the call gives another one. -/
theorem C121_class (env : Env) (d : Dom) (ops ops' : List Op) (s s1 s2 s3 : St) (hs : s = run env ops (St.init d))
    (hh : ∀ k ∈ env.head, k < s.dom.length) (calls : List BuilderCall) (mh : Nat)
    (hb : buildWith env calls s = (s1, .mgr mh)) (h2 : s2 = run env ops' s1)
    (hload : ∀ mh data, Op.load mh data ∉ ops ++ ops') (i mh' h : Nat) (hi : s1.mgrOf mh = some i)
    (hi' : s2.mgrOf mh' = some i) (kind : Kind) (src : Source) (ast : Sheet) (fault : Bool) (hsrc : src.sheet? = some ast)
    (h3 : step env (.create mh' kind src fault) s2 = (s3, .style h)) :
    ∃ n < s3.ctr, s3.className h =
      some (kind.prefixOr (toldPrefix calls) ++ (if kind.forPage then c! "-global-" else c! "-") ++ env.entropy n) := by
  obtain ⟨b1, -, -, b2⟩ := built hb hh
  rw [b1] at hi
  cases hi
  have hinv : Inv s := hs ▸ inv_run env ops (Inv.init d)
  have hs1 : s1 = (buildWith env calls s).1 := by rw [hb]
  have hinv1 : Inv s1 := by rw [hs1]; exact inv_step env _ hinv
  obtain ⟨m, h5, h6⟩ := mgr_run env ops' hinv1 b2
  rw [← h2] at h5
  simp only [buildWith, buildOp] at hs1
  generalize hop : Op.newMgr _ _ _ _ = op at hs1
  obtain ⟨n, e1, e2, -⟩ := C66_class_name env d (ops ++ (op :: ops')) s2 s3
    (by rw [run_append, ← hs, run, ← hs1, h2]) (by
      intro mh data hm
      rcases List.mem_append.1 hm with hm | hm
      · exact hload mh data (List.mem_append_left _ hm)
      · rcases List.mem_cons.1 hm with hm | hm
        · rw [← hop] at hm; cases hm
        · exact hload mh data (List.mem_append_right _ hm)) mh' h _ kind src fault m ast hi' h5 hsrc h3
  rw [h6.1] at e2
  exact ⟨n, e1, e2⟩

/-- The state after building with `builtCalls`. -/
def builtState : St := (buildWith demoEnv builtCalls (St.init demoPage)).1

/-- A style of that manager. -/
def builtStyled : St := (step demoEnv (.create 0 .scoped (.sheet demoRed) false) builtState).1

example : ∃ n < builtStyled.ctr, builtStyled.className 0 = some (c! "b" ++ c! "-" ++ counterEntropy n) :=
  C121_class demoEnv demoPage [] [] _ builtState builtState builtStyled rfl (by decide) builtCalls 0 (Prod.ext rfl (by decide)) rfl
    (by simp) 0 0 0 (by decide) (by decide) .scoped (.sheet demoRed) demoRed false rfl (Prod.ext rfl (by decide))

/-- A manager that prepends: the style is there already, or its container was empty. -/
theorem prepends (env : Env) (hw : env.wasm = true) (d : Dom) (ops : List Op) (s s' : St)
    (hs : s = run env ops (St.init d)) (mh i k h : Nat) (m : Mgr) (kind : Kind) (src : Source) (fault : Bool)
    (hi : s.mgrOf mh = some i) (hm : s.mgrs[i]? = some m) (happ : m.append = false) (hlog : m.log = none)
    (hcont : m.container = some k) (h1 : step env (.create mh kind src fault) s = (s', .style h)) :
    (s'.heap = s.heap ∧ s'.dom = s.dom) ∨
    (s'.heap.length = s.heap.length + 1 ∧ ∃ id text, s'.className h = some id ∧ s'.styleText h = some text ∧
      s.dom.childrenOf k = [] ∧ s'.dom.childrenOf k = [.style id text] ∧
      ∀ k', k' ≠ k → s'.dom.childrenOf k' = s.dom.childrenOf k') := by
  have hinv : Inv s := hs ▸ inv_run env ops (Inv.init d)
  have ht := step_tr env hinv (.create mh kind src fault)
  rw [h1] at ht
  simp only at ht
  generalize hout : Out.style h = out at ht
  cases ht with
  | createHit => exact Or.inl ⟨rfl, rfl⟩
  | createStatic _ _ _ _ _ i' m' ast l log c e1 e2 e3 e4 e5 e6 e7 =>
    rw [hi] at e1; cases e1
    rw [hm] at e2; cases e2
    rw [hlog] at e7; cases e7
  | createMount _ _ _ _ _ i' m' ast c d' e1 e2 e3 e4 e5 e6 e7 e8 =>
    rw [hi] at e1; cases e1
    rw [hm] at e2; cases e2
    cases hout
    refine Or.inr ⟨by simp [St.modReg, St.modMgr], c.id, c.text, ?_, ?_, ?_⟩
    · simp [St.className, St.contentOf, St.modReg, St.modMgr]
    · simp [St.styleText, St.contentOf, St.modReg, St.modMgr]
    · have hlt := hinv.container m (List.mem_of_getElem? hm) k hcont
      simp only [mount, hw, hcont, happ, if_true] at e8
      split at e8
      · cases e8
      · have hempty : s.dom.childrenOf k = [] := by
          cases hc : s.dom.childrenOf k with
          | nil => rfl
          | cons a l =>
            exfalso
            have hf : s.dom.firstChild k = some (.child k 0) := by simp [Dom.firstChild, hc]
            simp [hf, Dom.insertBefore, Dom.NodeRef.parent] at e8
        have hf : s.dom.firstChild k = none := by simp [Dom.firstChild, hempty]
        simp only [hf, Bool.false_eq_true, if_false] at e8
        cases e8
        refine ⟨hempty, ?_, ?_⟩
        · show (s.dom.appendChild k (.style c.id c.text)).childrenOf k = _
          rw [Dom.appendChild, childrenOf_setChildren _ _ _ _ hlt, if_pos rfl, hempty, List.nil_append]
        · intro k' hk'
          show (s.dom.appendChild k (.style c.id c.text)).childrenOf k' = _
          rw [Dom.appendChild, childrenOf_setChildren _ _ _ _ hlt, if_neg (fun h => hk' h.symm)]
  | _ => cases hout

/-- Outside of a browser a style does not change the page. -/
theorem native_page (env : Env) (hw : env.wasm = false) {s s' : St} {mh h : Nat} {kind : Kind} {src : Source} {fault : Bool}
    (hinv : Inv s) (h1 : step env (.create mh kind src fault) s = (s', .style h)) : s'.dom = s.dom := by
  have ht := step_tr env hinv (.create mh kind src fault)
  rw [h1] at ht
  simp only at ht
  generalize hout : Out.style h = out at ht
  cases ht with
  | createHit => rfl
  | createStatic => rfl
  | createMount _ _ _ _ _ i' m' ast c d' e1 e2 e3 e4 e5 e6 e7 e8 =>
    simp only [mount, hw, Bool.false_eq_true, if_false, Option.some.injEq] at e8
    exact e8.symm
  | _ => cases hout

/-- A style is new if and only if it was not registered. -/
theorem heap_new {env : Env} {s s' : St} {mh h i : Nat} {m : Mgr} {ast : Sheet} {kind : Kind} {src : Source} {fault : Bool}
    (hinv : Inv s) (hi : s.mgrOf mh = some i) (hm : s.mgrs[i]? = some m) (hsrc : src.sheet? = some ast)
    (h1 : step env (.create mh kind src fault) s = (s', .style h)) :
    (regGet m.reg (kind.key m.pref ast) ≠ none → s'.heap = s.heap) ∧
    (regGet m.reg (kind.key m.pref ast) = none → s'.heap.length = s.heap.length + 1) := by
  have ht := step_tr env hinv (.create mh kind src fault)
  rw [h1] at ht
  simp only at ht
  generalize hout : Out.style h = out at ht
  cases ht with
  | createHit _ _ _ _ _ i' m' ast' p e1 e2 e3 e4 =>
    rw [hi] at e1; cases e1
    rw [hm] at e2; cases e2
    rw [hsrc] at e3; cases e3
    exact ⟨fun _ => rfl, fun h => by rw [h] at e4; cases e4⟩
  | createStatic _ _ _ _ _ i' m' ast' l log c e1 e2 e3 e4 e5 e6 e7 =>
    rw [hi] at e1; cases e1
    rw [hm] at e2; cases e2
    rw [hsrc] at e3; cases e3
    exact ⟨fun h => absurd e4 h, fun _ => by simp [St.modReg, St.modMgr]⟩
  | createMount _ _ _ _ _ i' m' ast' c d' e1 e2 e3 e4 e5 e6 e7 e8 =>
    rw [hi] at e1; cases e1
    rw [hm] at e2; cases e2
    rw [hsrc] at e3; cases e3
    exact ⟨fun h => absurd e4 h, fun _ => by simp [St.modReg, St.modMgr]⟩
  | _ => cases hout

/-- **C121**, places: outside of a browser, and with a writer, a style does not change the page. With a
writer the style is there already, or comes at the end of the style data of this writer, with the prefix
that was told, its class and its text. Without, in a browser, the style is there already, or the last child of the container that was told last, or of the head, and everything else
is as before. If it was told to prepend, this is so only in a container that was empty (for others see
C30). -/
theorem C121_place (env : Env) (d : Dom) (ops ops' : List Op) (s s1 s2 s3 : St) (hs : s = run env ops (St.init d))
    (hh : ∀ k ∈ env.head, k < s.dom.length) (calls : List BuilderCall) (mh : Nat)
    (hb : buildWith env calls s = (s1, .mgr mh)) (h2 : s2 = run env ops' s1) (i mh' h : Nat) (hi : s1.mgrOf mh = some i)
    (hi' : s2.mgrOf mh' = some i) (kind : Kind) (src : Source) (ast : Sheet) (fault : Bool) (hsrc : src.sheet? = some ast)
    (h3 : step env (.create mh' kind src fault) s2 = (s3, .style h)) :
    (env.wasm = false → s3.dom = s2.dom) ∧
    (∀ l, toldWriter calls = some l → s3.dom = s2.dom ∧ ∃ log, s2.logs[l]? = some log ∧
      ((s3.heap = s2.heap ∧ s3.logs = s2.logs) ∨
       (s3.heap.length = s2.heap.length + 1 ∧ ∃ id text, s3.className h = some id ∧ s3.styleText h = some text ∧
         (s3.logs[l]?).map Log.entries = some (log.entries ++ [⟨kind.key (toldPrefix calls) ast, id, text⟩]) ∧
         ∀ l', l' ≠ l → s3.logs[l']? = s2.logs[l']?))) ∧
    (toldWriter calls = none → toldAppend calls = true → env.wasm = true → ∀ k, usedContainer env calls = some k →
      (s3.heap = s2.heap ∧ s3.dom = s2.dom) ∨
      (s3.heap.length = s2.heap.length + 1 ∧ ∃ id text, s3.className h = some id ∧ s3.styleText h = some text ∧
        s3.dom.childrenOf k = s2.dom.childrenOf k ++ [.style id text] ∧
        ∀ k', k' ≠ k → s3.dom.childrenOf k' = s2.dom.childrenOf k')) ∧
    (toldWriter calls = none → toldAppend calls = false → env.wasm = true → ∀ k, usedContainer env calls = some k →
      (s3.heap = s2.heap ∧ s3.dom = s2.dom) ∨
      (s3.heap.length = s2.heap.length + 1 ∧ ∃ id text, s3.className h = some id ∧ s3.styleText h = some text ∧
        s2.dom.childrenOf k = [] ∧ s3.dom.childrenOf k = [.style id text] ∧
        ∀ k', k' ≠ k → s3.dom.childrenOf k' = s2.dom.childrenOf k')) := by
  obtain ⟨b1, -, -, b2⟩ := built hb hh
  rw [b1] at hi
  cases hi
  have hinv : Inv s := hs ▸ inv_run env ops (Inv.init d)
  have hs1 : s1 = (buildWith env calls s).1 := by rw [hb]
  have hinv1 : Inv s1 := by rw [hs1]; exact inv_step env _ hinv
  obtain ⟨m, h5, h6⟩ := mgr_run env ops' hinv1 b2
  rw [← h2] at h5
  simp only [buildWith, buildOp] at hs1
  generalize hop : Op.newMgr _ _ _ _ = op at hs1
  have hrun : s2 = run env (ops ++ (op :: ops')) (St.init d) := by rw [run_append, ← hs, run, ← hs1, h2]
  have hinv2 : Inv s2 := h2 ▸ inv_run env ops' hinv1
  refine ⟨?_, ?_, ?_, ?_⟩
  · intro hw
    exact native_page env hw hinv2 h3
  · intro l hl
    have hml : m.log = some l := by rw [h6.2.2.2]; exact hl
    obtain ⟨log, h7, -⟩ := hinv2.log m (List.mem_of_getElem? h5) l hml
    have h8 := C31_records env d _ s2 s3 hrun mh' _ l h m log kind src ast fault hi' h5 hml h7 hsrc h3
    refine ⟨h8.1, log, h7, ?_⟩
    rcases h8.2 with ⟨g1, g2⟩ | ⟨g1, g2⟩
    · exact Or.inl ⟨(heap_new hinv2 hi' h5 hsrc h3).1 g1, g2⟩
    · rw [h6.1] at g2
      exact Or.inr ⟨(heap_new hinv2 hi' h5 hsrc h3).2 g1, g2⟩
  · intro hw ha hwasm k hk
    exact C29_appends env hwasm d _ s2 s3 hrun mh' _ k h m kind src fault hi' h5 (by rw [h6.2.2.1]; exact ha)
      (by rw [h6.2.2.2]; exact hw) (by rw [h6.2.1]; exact hk) h3
  · intro hw ha hwasm k hk
    exact prepends env hwasm d _ s2 s3 hrun mh' _ k h m kind src fault hi' h5 (by rw [h6.2.2.1]; exact ha)
      (by rw [h6.2.2.2]; exact hw) (by rw [h6.2.1]; exact hk) h3

example : ∃ id text, builtStyled.dom.childrenOf 1 = [.style id text] := by
  have h := (C121_place demoEnv demoPage [] [] _ builtState builtState builtStyled rfl (by decide) builtCalls 0
    (Prod.ext rfl (by decide)) rfl 0 0 0 (by decide) (by decide) .scoped (.sheet demoRed) demoRed false rfl
    (Prod.ext rfl (by decide))).2.2.1 rfl rfl rfl 1 rfl
  rcases h with ⟨h, -⟩ | ⟨-, id, text, -, -, h, -⟩
  · exact absurd h (by decide)
  · exact ⟨id, text, h⟩

/-- Told to prepend into the empty container. -/
def builtFirst : St := (buildWith demoEnv [.append false, .container 1] (St.init demoPage)).1

example : builtFirst.dom.childrenOf 1 = [] ∧ ∃ id text,
    (step demoEnv (.create 0 .scoped (.sheet demoRed) false) builtFirst).1.dom.childrenOf 1 = [.style id text] := by
  have h := (C121_place demoEnv demoPage [] [] _ builtFirst builtFirst _ rfl (by decide) [.append false, .container 1] 0
    (Prod.ext rfl (by decide)) rfl 0 0 0 (by decide) (by decide) .scoped (.sheet demoRed) demoRed false rfl
    (Prod.ext rfl (by decide))).2.2.2 rfl rfl rfl 1 rfl
  rcases h with ⟨h, -⟩ | ⟨-, id, text, -, -, h, h', -⟩
  · exact absurd h (by decide)
  · exact ⟨h, id, text, h'⟩

/-- A server: the writer of the second style data, with a prefix. -/
def builtServer : St :=
  (buildWith { demoEnv with wasm := false } [.writer 1, .pref (c! "b")]
    (run { demoEnv with wasm := false } [.renderStatic, .renderStatic] (St.init demoPage))).1

example : ∃ id text, ((step { demoEnv with wasm := false } (.create 0 .scoped (.sheet demoRed) false) builtServer).1.logs[1]?).map
    Log.entries = some [⟨Kind.scoped.key (c! "b") demoRed, id, text⟩] := by
  have h := (C121_place { demoEnv with wasm := false } demoPage [.renderStatic, .renderStatic] [] _ builtServer builtServer _ rfl
    (by decide) [.writer 1, .pref (c! "b")] 0 (Prod.ext rfl (by decide)) rfl 0 0 0 (by decide) (by decide) .scoped (.sheet demoRed)
    demoRed false rfl (Prod.ext rfl (by decide))).2.1 1 rfl
  obtain ⟨-, log, h1, ⟨h2, -⟩ | ⟨-, id, text, -, -, h2, -⟩⟩ := h
  · exact absurd h2 (by decide)
  · have h3 : builtServer.logs[1]? = some ⟨[], false, true, false⟩ := by decide
    rw [h3] at h1
    cases h1
    exact ⟨id, text, h2⟩

/-- A value refers to the manager that it referred to when it came up. -/
theorem mgrOf_back {env : Env} {mh : Nat} : ∀ (ops : List Op) {s : St}, Inv s → mh < s.mgrHandles.length →
    ∀ {i : Nat}, (run env ops s).mgrOf mh = some i → s.mgrOf mh = some i
  | [], _, _, _, _, h => h
  | op :: ops, s, hi, hlt, i, h => by
    have hc := Yew.mgrHandles_cases (step_tr env hi op)
    have hlt' : mh < (step env op s).1.mgrHandles.length := by
      rcases hc with ⟨n, hn⟩ | ⟨x, -, hn⟩ <;> rw [hn] <;> simp <;> omega
    have h1 := mgrOf_back ops (inv_step env op hi) hlt' h
    rcases hc with ⟨n, hn⟩ | ⟨x, -, hn⟩
    · rw [St.mgrOf, hn, List.getElem?_append_left hlt] at h1
      exact h1
    · rw [St.mgrOf, hn, List.getElem?_set] at h1
      split at h1
      · split at h1 <;> cases h1
      · exact h1

/-- **C121**, equality: a manager that is built is not equal to any that was there before, and a clone is
equal to its original, as long as both values are there. -/
theorem C121_equal (env : Env) (d : Dom) (ops ops' : List Op) (s s1 s2 : St) (hs : s = run env ops (St.init d))
    (hh : ∀ k ∈ env.head, k < s.dom.length) (calls : List BuilderCall) (mh : Nat)
    (hb : buildWith env calls s = (s1, .mgr mh)) (h2 : s2 = run env ops' s1) :
    (∀ old, old < s.mgrHandles.length → ∀ e, s2.mgrEq mh old = some e → e = false) ∧
    (∀ (s3 s4 : St) (ops'' : List Op) (a b : Nat), step env (.cloneMgr a) s2 = (s3, .mgr b) → s4 = run env ops'' s3 →
      ∀ e, s4.mgrEq a b = some e → e = true) := by
  obtain ⟨b1, b0, b3, b2⟩ := built hb hh
  have hinv : Inv s := hs ▸ inv_run env ops (Inv.init d)
  have hs1 : s1 = (buildWith env calls s).1 := by rw [hb]
  have hinv1 : Inv s1 := by rw [hs1]; exact inv_step env _ hinv
  have hinv2 : Inv s2 := h2 ▸ inv_run env ops' hinv1
  constructor
  · intro old hold e he
    simp only [St.mgrEq] at he
    split at he
    · rename_i i j hi hj
      rw [h2] at hi hj
      have h3 := mgrOf_back ops' hinv1 (by rw [b3, b0]; simp) hi
      have h4 := mgrOf_back ops' hinv1 (by rw [b3]; simp; omega) hj
      rw [b1] at h3
      cases h3
      have h5 : s.mgrOf old = some j := by
        rw [St.mgrOf, b3, List.getElem?_append_left hold] at h4
        exact h4
      obtain ⟨m, h6⟩ := mgrOf_get hinv h5
      have := (List.getElem?_eq_some_iff.1 h6).1
      cases he
      simp; omega
    · cases he
  · intro s3 s4 ops'' a b hc h4 e he
    have ht := step_tr env hinv2 (.cloneMgr a)
    have hinv3 : Inv s3 := by
      have := inv_step env (.cloneMgr a) hinv2
      rw [hc] at this; exact this
    rw [hc] at ht
    simp only at ht
    cases ht with
    | cloneMgr _ i _ hi =>
      simp only [St.mgrEq] at he
      split at he
      · rename_i i' j hi' hj
        rw [h4] at hi' hj
        have hlt := Yew.mgrOf_lt hi
        have h5 := mgrOf_back ops'' hinv3 (by simp; omega) hi'
        have h6 := mgrOf_back ops'' hinv3 (by simp) hj
        have h7 : some i = some i' := by
          rw [St.mgrOf, List.getElem?_append_left hlt] at h5
          exact hi.symm.trans h5
        have h8 : some i = some j := by
          simpa [St.mgrOf] using h6
        cases h7; cases h8; cases he
        simp
      · cases he

/-- Two managers built alike are two; a clone is the same one. -/
example : (buildWith demoEnv builtCalls builtState).1.mgrEq 1 0 = some false ∧
    (step demoEnv (.cloneMgr 1) (buildWith demoEnv builtCalls builtState).1).1.mgrEq 1 2 = some true := by
  have hs : builtState = run demoEnv [.newMgr (c! "b") (some 1) true none] (St.init demoPage) := by decide
  have h := C121_equal demoEnv demoPage _ [] _ _ _ hs (by decide) builtCalls 1 (Prod.ext rfl (by decide)) rfl
  constructor
  · obtain ⟨e, he⟩ : ∃ e, (buildWith demoEnv builtCalls builtState).1.mgrEq 1 0 = some e := ⟨_, rfl⟩
    rw [he, h.1 0 (by decide) e he]
  · obtain ⟨e, he⟩ : ∃ e, (step demoEnv (.cloneMgr 1) (buildWith demoEnv builtCalls builtState).1).1.mgrEq 1 2 = some e := ⟨_, rfl⟩
    rw [he, h.2 _ _ [] 1 2 (Prod.ext rfl (by decide)) rfl e he]

end Manager
