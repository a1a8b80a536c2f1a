import Verif.Props.Manager

/-!
# The counter of ids is as long as it is

C21 holds for the first `2 ^ 64` styles of a process that counts, and for no more.
-/

namespace Manager

/-- The css `a:x...x;` with `k` times `x`. -/
def manySheet (k : Nat) : Sheet := [.block [] [.attr (c! "a") [List.replicate k 'x']]]

/-- A manager, and styles for the sheets with the given numbers. -/
def manyOps (n : Nat) : List Op :=
  .newMgr (c! "stylist") (some 0) true none :: (List.range n).map fun k => .create 0 .scoped (.sheet (manySheet k)) false

theorem manySheet_inj {a b : Nat} (h : manySheet a = manySheet b) : a = b := by
  simp only [manySheet, List.cons.injEq, and_true, ScopeContent.block.injEq, RBC.attr.injEq, true_and] at h
  have := congrArg List.length h
  simpa using this

theorem manySheet_text (k : Nat) (cls : Str) : (manySheet k).toStyleStr (some cls) =
    c! "." ++ cls ++ c! " {\n    a: " ++ List.replicate k 'x' ++ c! ";\n}\n" := by
  simp [manySheet, Sheet.toStyleStr, Sheet.write, ScopeContent.toRBC, RBC.write, RBC.writes, Ctx.start,
    Ctx.new, Ctx.withBlockCondition, condStr, Ctx.closeUntilCommonParent, Ctx.uniqueConditions,
    Ctx.commonConditions, Ctx.openParentConditions, Ctx.openParent, Ctx.conditions,
    Ctx.startLoop, Ctx.finishChain, Ctx.finish, Ctx.finishLoop, Ctx.writeMinPadding,
    Ctx.writePaddingImpl, Ctx.writePadding]

/-- The state after `n` styles. -/
structure Many (n : Nat) (s : St) : Prop where
  ctr : s.ctr = n
  len : s.heap.length = n
  hlen : s.handles.length = n
  mgr : ∃ m, s.mgrOf 0 = some 0 ∧ s.mgrs[0]? = some m ∧ m.pref = c! "stylist" ∧ m.container = some 0 ∧ m.append = true ∧
    m.log = none ∧ ∀ e ∈ m.reg, ∃ k < n, e.1 = ⟨false, c! "stylist", manySheet k⟩
  content : ∀ h < n, ∃ c, s.contentOf h = some h ∧ s.heap[h]? = some c ∧
    c.id = c! "stylist" ++ c! "-" ++ counterEntropy h ∧ c.text = (manySheet h).toStyleStr (some c.id)

theorem many_step {env : Env} (he : env.entropy = counterEntropy) (hd : env.debugParser = false) {n : Nat} {s : St}
    (hi : Inv s) (h : Many n s) : Many (n + 1) (step env (.create 0 .scoped (.sheet (manySheet n)) false) s).1 := by
  obtain ⟨h1, h2, h3, ⟨m, m1, m2, m3, m4, m5, m6, m7⟩, h5⟩ := h
  have hnew : regGet m.reg (Kind.scoped.key m.pref (manySheet n)) = none := by
    rw [regGet, Option.map_eq_none_iff, List.find?_eq_none]
    intro e hm heq
    obtain ⟨k, hk, hk'⟩ := m7 e hm
    have heq : e.1 = Kind.scoped.key m.pref (manySheet n) := by simpa using heq
    rw [heq] at hk'
    simp only [Kind.key, Key.mk.injEq] at hk'
    have := manySheet_inj hk'.2.2
    omega
  have hmount : ∀ c, ∃ d, mount env false m c s.dom = some d := by
    intro c
    simp only [mount, m4, m5]
    cases env.wasm
    · exact ⟨_, rfl⟩
    · exact ⟨_, rfl⟩
  rcases getOrRegister_eq env hi m2 false (Kind.scoped.key m.pref (manySheet n)) with ⟨p, g1, -⟩ | ⟨-, g1⟩
  · rw [hnew] at g1; cases g1
  · rcases g1 with ⟨g1, -⟩ | ⟨-, ⟨l, log, g1, -⟩ | ⟨-, g1, -⟩ | ⟨d, -, -, g1⟩⟩
    · rw [hd] at g1; cases g1
    · rw [m6] at g1; cases g1
    · obtain ⟨d, hd'⟩ := hmount (newContent env s 0 (Kind.scoped.key m.pref (manySheet n)))
      rw [hd'] at g1; cases g1
    · simp only [step, create, m1, m2, Source.sheet?, g1]
      refine ⟨by simp [St.modReg, St.modMgr, h1], by simp [St.modReg, St.modMgr, h2], by simp [St.modReg, St.modMgr, h3], ?_, ?_⟩
      · refine ⟨{ m with reg := m.reg ++ [(Kind.scoped.key m.pref (manySheet n), s.heap.length)] }, m1,
          by simp [St.modReg, St.modMgr, m2], m3, m4, m5, m6, ?_⟩
        intro e he
        rcases List.mem_append.1 he with he | he
        · obtain ⟨k, hk, hk'⟩ := m7 e he
          exact ⟨k, by omega, hk'⟩
        · rw [List.mem_singleton] at he
          subst he
          exact ⟨n, by omega, by simp [Kind.key, m3]⟩
      · intro h hlt
        by_cases hn : h < n
        · obtain ⟨c, c1, c2, c3⟩ := h5 h hn
          refine ⟨c, ?_, ?_, c3⟩
          · simp only [St.contentOf, St.modReg, St.modMgr] at c1 ⊢
            rw [List.getElem?_append_left (by omega)]
            exact c1
          · simp only [St.modReg, St.modMgr]
            rw [List.getElem?_append_left (by omega)]
            exact c2
        · have : h = n := by omega
          subst this
          refine ⟨newContent env s 0 (Kind.scoped.key m.pref (manySheet h)), ?_, ?_, ?_, ?_⟩
          · simp [St.contentOf, St.modReg, St.modMgr, ← h3]
            omega
          · simp [St.modReg, St.modMgr, ← h2]
          · simp [newContent, makeId, Kind.key, m3, he, h1]
          · simp [newContent, Kind.key]

theorem many_run {env : Env} (he : env.entropy = counterEntropy) (hd : env.debugParser = false) {d : Dom} (hl : 0 < d.length)
    (n : Nat) : Many n (run env (manyOps n) (St.init d)) := by
  induction n with
  | zero =>
    have : ∃ s, step env (.newMgr (c! "stylist") (some 0) true none) (St.init d) = (s, .mgr 0) ∧ Many 0 s := by
      refine ⟨{ St.init d with
          mgrs := [{ pref := c! "stylist", container := some 0, append := true, log := none, reg := [], borrowed := false }]
          mgrHandles := [some 0] }, ?_, ?_⟩
      · have h0 : (decide (0 < List.length d)) = true := by simpa using hl
        cases hw : env.wasm <;> simp [step, newMgr, St.init, St.writerFree, St.takeWriter, hl, hw]
      · exact ⟨rfl, rfl, rfl, ⟨_, rfl, rfl, rfl, rfl, rfl, rfl, by simp⟩, by omega⟩
    obtain ⟨s, h1, h2⟩ := this
    simpa [manyOps, run, h1] using h2
  | succ n ih =>
    have hr : run env (manyOps (n + 1)) (St.init d) =
        (step env (.create 0 .scoped (.sheet (manySheet n)) false) (run env (manyOps n) (St.init d))).1 := by
      rw [show manyOps (n + 1) = manyOps n ++ [.create 0 .scoped (.sheet (manySheet n)) false] by
        simp [manyOps, List.range_succ], run_append, run, run]
    rw [hr]
    exact many_step he hd (inv_run env _ (Inv.init d)) ih

theorem many_limit {env : Env} (he : env.entropy = counterEntropy) (hd : env.debugParser = false) {d : Dom}
    (hl : 0 < d.length) {N : Nat} (hN : 0 < N) (hmod : counterEntropy N = counterEntropy 0) :
    ∃ (ops : List Op) (s : St) (h h' : Nat) (cls text text' : Str), s = run env ops (St.init d) ∧ s.ctr = N + 1 ∧
      s.className h = some cls ∧ s.className h' = some cls ∧ s.styleText h = some text ∧ s.styleText h' = some text' ∧
      text ≠ text' := by
  have hm := many_run he hd hl (N + 1)
  generalize hs : run env (manyOps (N + 1)) (St.init d) = s at hm
  obtain ⟨c, a1, a2, a3, a4⟩ := hm.content 0 (by omega)
  obtain ⟨c', b1, b2, b3, b4⟩ := hm.content N (by omega)
  have hid : c'.id = c.id := by rw [a3, b3, hmod]
  refine ⟨_, s, 0, N, c.id, c.text, c'.text, hs.symm, hm.ctr, ?_, ?_, ?_, ?_, ?_⟩
  · simp [St.className, a1, a2]
  · simp [St.className, b1, b2, hid]
  · simp [St.styleText, a1, a2]
  · simp [St.styleText, b1, b2]
  · rw [a4, b4, hid]
    intro h
    have := congrArg List.length h
    rw [manySheet_text, manySheet_text] at this
    simp at this
    omega

/-- **C21**, its limit: on every page with a node, a process that counts can make one style more than
`2 ^ 64` so that two styles of one manager that are alive have the same class and different texts. -/
theorem C21_limit (env : Env) (he : env.entropy = counterEntropy) (hd : env.debugParser = false) (d : Dom)
    (hl : 0 < d.length) :
    ∃ (ops : List Op) (s : St) (h h' : Nat) (cls text text' : Str), s = run env ops (St.init d) ∧ s.ctr = 2 ^ 64 + 1 ∧
      s.className h = some cls ∧ s.className h' = some cls ∧ s.styleText h = some text ∧ s.styleText h' = some text' ∧
      text ≠ text' :=
  many_limit he hd hl (Nat.two_pow_pos 64) (by rw [counterEntropy, counterEntropy, Nat.mod_self])

/-- For instance on the page of the demo. -/
example : ∃ ops : List Op, (run demoEnv ops (St.init demoPage)).ctr = 2 ^ 64 + 1 := by
  obtain ⟨ops, s, h, h', cls, text, text', h1, h2, -⟩ := C21_limit demoEnv rfl rfl demoPage (by decide)
  exact ⟨ops, h1 ▸ h2⟩

end Manager
