import Verif.Proofs.Counts
import Verif.Props.Manager

/-!
# Reference counts

C111. Styles and managers are freed by reference counting, and a style refers to its manager.
A reachable memory is `run env ops (Mem.init d)`: any history of operations of the public API.
-/

namespace Counts

open Manager Spec.Counts

theorem outs_eq (env : Env) : ∀ (ops : List Op) {m : Mem}, Exact Locals.none m → Inv m.st →
    outs env ops m = Manager.outs env ops m.st
  | [], _, _, _ => rfl
  | op :: ops, m, h, hi => by
    obtain ⟨h1, h2, h3⟩ := step_exact env h hi op
    have h4 := outs_eq env ops h3 (by rw [h1]; exact inv_step env op hi)
    simp only [outs, Manager.outs]
    rw [h4, h2, h1]

theorem exact_run (env : Env) (d : Dom) (ops : List Op) : Exact Locals.none (run env ops (Mem.init d)) :=
  (run_exact env ops (Exact.init d) (Inv.init d)).1

theorem inv_run' (env : Env) (d : Dom) (ops : List Op) : Inv (run env ops (Mem.init d)).st := by
  rw [(run_exact env ops (Exact.init d) (Inv.init d)).2]
  exact inv_run env ops (Inv.init d)

/-- Two managers, one of them cloned and writing to style data; a style that is created twice
and one that outlives its manager. -/
def countedOps : List Op :=
  [.renderStatic, .newMgr (c! "a") (some 0) true none, .newMgr (c! "b") (some 1) true (some 0), .cloneMgr 1,
    .create 0 .scoped (.sheet demoRed) false, .create 0 .scoped (.sheet demoRed) false,
    .create 1 .global (.sheet demoRed) false, .unregister 0, .drop 0, .dropMgr 0]

/-- Counting references gives the same as looking for them: the values, the page, the records
and all results are those of `Model/Manager`, for which the other properties of managers and
styles are stated. -/
theorem C111_counting (env : Env) (d : Dom) (ops : List Op) :
    (run env ops (Mem.init d)).st = Manager.run env ops (St.init d) ∧
      outs env ops (Mem.init d) = Manager.outs env ops (St.init d) :=
  ⟨(run_exact env ops (Exact.init d) (Inv.init d)).2, outs_eq env ops (Exact.init d) (Inv.init d)⟩

example : outs demoEnv countedOps (Mem.init demoPage) =
    [.writer 0, .mgr 0, .mgr 1, .mgr 2, .style 0, .style 1, .style 2, .unit, .unit, .unit] ∧
    (run demoEnv countedOps (Mem.init demoPage)).st.handles = [none, some 0, some 1] ∧
    (run demoEnv countedOps (Mem.init demoPage)).st.mgrHandles = [none, some 1, some 1] := by decide +kernel

/-- Every count is the number of references that exist, and no count was ever lowered below 0.
-/
theorem C111_exact (env : Env) (d : Dom) (ops : List Op) (m : Mem) (hm : m = run env ops (Mem.init d)) :
    (∀ p, m.content p = owners m.st p) ∧
    (∀ p, m.key p = (if owners m.st p = 0 then 0 else 1) + entries m.st p) ∧
    (∀ i, m.mgr i = clones m.st i) ∧
    (∀ i, m.weak i = (if clones m.st i = 0 then 0 else 1) + howMany m.st.heap.length (livesIn m.st i)) ∧
    (∀ l, m.log l = ends m.st l + howMany m.st.mgrs.length (writesTo m.st l)) ∧
    m.under = false := by
  subst hm
  have h := exact_run env d ops
  have hc : ∀ p, (run env ops (Mem.init d)).content p = owners (run env ops (Mem.init d)).st p := h.content
  have hm : ∀ i, (run env ops (Mem.init d)).mgr i = clones (run env ops (Mem.init d)).st i := h.mgr
  refine ⟨hc, fun p => ?_, hm, fun i => ?_, fun l => ?_, h.under⟩
  · rw [← hc p]; exact h.key p
  · have : livesIn (run env ops (Mem.init d)).st i =
        living (run env ops (Mem.init d)).content (run env ops (Mem.init d)).st.heap i := by
      funext p; simp only [livesIn, living, hc]
    rw [← hm i, this]; exact h.weak i
  · have : writesTo (run env ops (Mem.init d)).st l =
        holding (run env ops (Mem.init d)).mgr (run env ops (Mem.init d)).st.mgrs l := by
      funext i; simp only [writesTo, holding, hm]
    rw [this]; exact h.log l

/-- Style 0 has lost its entry and its manager but not its second `Style`. -/
example : let m := run demoEnv countedOps (Mem.init demoPage)
    m.content 0 = 1 ∧ m.key 0 = 1 ∧ m.content 1 = 2 ∧ m.key 1 = 2 ∧ m.mgr 0 = 0 ∧ m.weak 0 = 1 ∧ m.mgr 1 = 2 ∧
      m.weak 1 = 2 ∧ m.log 0 = 2 := by decide +kernel

theorem howMany_ne_zero {n : Nat} {f : Nat → Bool} : howMany n f ≠ 0 ↔ ∃ q, q < n ∧ f q = true := by
  simp only [howMany, Ne, List.length_eq_zero_iff, List.filter_eq_nil_iff, List.mem_range]
  constructor
  · intro h
    apply Classical.byContradiction
    intro hn
    exact h (fun q hq hf => hn ⟨q, hq, hf⟩)
  · rintro ⟨q, hq, hf⟩ h
    exact h q hq hf

theorem clones_ne_zero {s : St} {i : Nat} : clones s i ≠ 0 ↔ ∃ mh, s.mgrOf mh = some i := by
  simp only [clones, Ne, List.count_eq_zero, Classical.not_not]
  constructor
  · intro h
    obtain ⟨k, hk⟩ := List.getElem?_of_mem h
    exact ⟨k, by simp [St.mgrOf, hk]⟩
  · rintro ⟨k, hk⟩
    exact mgrOf_mem hk

/-- Nothing is freed too early and nothing too late. The memory of a style is there exactly as
long as the style has an owner, that of its key too. A manager is there exactly as long as
somebody has it, and what is left of it as long as that or one of its styles. Style data is
there exactly as long as its writer, its reader or a manager that writes to it. -/
theorem C111_freed (env : Env) (d : Dom) (ops : List Op) (m : Mem) (hm : m = run env ops (Mem.init d)) :
    (∀ p, m.content p ≠ 0 ↔ m.st.Alive p) ∧
    (∀ p, m.key p ≠ 0 ↔ m.st.Alive p) ∧
    (∀ i, m.mgr i ≠ 0 ↔ ∃ mh, m.st.mgrOf mh = some i) ∧
    (∀ i, m.weak i ≠ 0 ↔ (∃ mh, m.st.mgrOf mh = some i) ∨
      ∃ (p : Nat) (c : Content), m.st.Alive p ∧ m.st.heap[p]? = some c ∧ c.mgr = i) ∧
    (∀ l, m.log l ≠ 0 ↔
      (∃ log, m.st.logs[l]? = some log ∧ (log.writerTaken = false ∨ log.readerTaken = false)) ∨
      ∃ (mh i : Nat) (g : Mgr), m.st.mgrOf mh = some i ∧ m.st.mgrs[i]? = some g ∧ g.log = some l) := by
  obtain ⟨h1, h2, h3, h4, h5, -⟩ := C111_exact env d ops m hm
  have hal : ∀ p, owners m.st p ≠ 0 ↔ m.st.Alive p := fun p => by rw [owners_eq]; exact alive_iff.symm
  refine ⟨fun p => ?_, fun p => ?_, fun i => ?_, fun i => ?_, fun l => ?_⟩
  · rw [h1, hal]
  · rw [h2, ← hal]
    by_cases h0 : owners m.st p = 0
    · have : entries m.st p = 0 := by simp only [owners] at h0; omega
      simp [h0, this]
    · simp [h0]
  · rw [h3, clones_ne_zero]
  · rw [h4, ← clones_ne_zero]
    have hw : howMany m.st.heap.length (livesIn m.st i) ≠ 0 ↔
        ∃ (p : Nat) (c : Content), m.st.Alive p ∧ m.st.heap[p]? = some c ∧ c.mgr = i := by
      rw [howMany_ne_zero]
      constructor
      · rintro ⟨q, hq, hf⟩
        simp only [livesIn, ne_eq, Bool.and_eq_true, decide_eq_true_eq, Option.map_eq_some_iff] at hf
        obtain ⟨h6, c, h7, h8⟩ := hf
        exact ⟨q, c, (hal q).1 h6, h7, h8⟩
      · rintro ⟨q, c, h6, h7, h8⟩
        refine ⟨q, (List.getElem?_eq_some_iff.1 h7).1, ?_⟩
        simp only [livesIn, ne_eq, Bool.and_eq_true, decide_eq_true_eq, Option.map_eq_some_iff]
        exact ⟨(hal q).2 h6, c, h7, h8⟩
    rw [← hw]
    by_cases h0 : clones m.st i = 0 <;> simp [h0]
  · rw [h5]
    have he : ends m.st l ≠ 0 ↔
        ∃ log, m.st.logs[l]? = some log ∧ (log.writerTaken = false ∨ log.readerTaken = false) := by
      simp only [ends]
      cases m.st.logs[l]? with
      | none => simp
      | some log =>
        cases hw : log.writerTaken <;> cases hr : log.readerTaken <;> simp [hw, hr]
    have hw : howMany m.st.mgrs.length (writesTo m.st l) ≠ 0 ↔
        ∃ (mh i : Nat) (g : Mgr), m.st.mgrOf mh = some i ∧ m.st.mgrs[i]? = some g ∧ g.log = some l := by
      rw [howMany_ne_zero]
      constructor
      · rintro ⟨i, hq, hf⟩
        simp only [writesTo, Bool.and_eq_true, decide_eq_true_eq, Option.bind_eq_some_iff] at hf
        obtain ⟨h6, g, h7, h8⟩ := hf
        obtain ⟨mh, h9⟩ := clones_ne_zero.1 h6
        exact ⟨mh, i, g, h9, h7, h8⟩
      · rintro ⟨mh, i, g, h6, h7, h8⟩
        refine ⟨i, (List.getElem?_eq_some_iff.1 h7).1, ?_⟩
        simp only [writesTo, Bool.and_eq_true, decide_eq_true_eq, Option.bind_eq_some_iff]
        exact ⟨clones_ne_zero.2 ⟨mh, h6⟩, g, h7, h8⟩
    rw [← he, ← hw]
    omega

/-- What is left of manager 0 is there for style 0 only. -/
example : let m := run demoEnv countedOps (Mem.init demoPage)
    m.mgr 0 = 0 ∧ m.weak 0 ≠ 0 ∧ m.st.contentOf 1 = some 0 ∧ (∀ mh, mh < 3 → m.st.mgrOf mh ≠ some 0) := by
  decide +kernel

/-- There are no cycles: when every `Style`, `GlobalStyle` and `StyleManager` has been dropped,
in whatever order, everything is freed; of style data only what a writer or a reader that is
still there refers to is left. -/
theorem C111_no_leak (env : Env) (d : Dom) (ops : List Op) (m : Mem) (hm : m = run env ops (Mem.init d))
    (hs : ∀ h, m.st.contentOf h = none) (hg : ∀ mh, m.st.mgrOf mh = none) :
    (∀ p, m.content p = 0) ∧ (∀ p, m.key p = 0) ∧ (∀ i, m.mgr i = 0) ∧ (∀ i, m.weak i = 0) ∧
      ∀ l, m.log l = ends m.st l := by
  have hex := C111_exact env d ops m hm
  obtain ⟨h1, h2, h3, h4, h5⟩ := C111_freed env d ops m hm
  have hinv : Inv m.st := hm ▸ inv_run' env d ops
  have hno : ∀ i, ¬ ∃ mh, m.st.mgrOf mh = some i := fun i ⟨mh, h⟩ => by rw [hg mh] at h; cases h
  have hdead : ∀ p, ¬ m.st.Alive p := by
    intro p
    rw [alive_iff, Classical.not_not, refs_eq_zero]
    refine ⟨fun hp => ?_, fun g hg' hp => ?_⟩
    · obtain ⟨k, hk⟩ := List.getElem?_of_mem hp
      have := hs k
      simp [St.contentOf, hk] at this
    · obtain ⟨i, hi⟩ := List.getElem?_of_mem hg'
      have hmem := hinv.dead i g hi (by rintro e; rw [e] at hp; simp at hp)
      obtain ⟨k, hk⟩ := List.getElem?_of_mem hmem
      exact hno i ⟨k, by simp [St.mgrOf, hk]⟩
  refine ⟨fun p => ?_, fun p => ?_, fun i => ?_, fun i => ?_, fun l => ?_⟩
  · exact Classical.byContradiction (fun h => hdead p ((h1 p).1 h))
  · exact Classical.byContradiction (fun h => hdead p ((h2 p).1 h))
  · exact Classical.byContradiction (fun h => hno i ((h3 i).1 h))
  · refine Classical.byContradiction (fun h => ?_)
    rcases (h4 i).1 h with h | ⟨p, c, h, -⟩
    · exact hno i h
    · exact hdead p h
  · rw [hex.2.2.2.2.1 l]
    have : howMany m.st.mgrs.length (writesTo m.st l) = 0 := by
      refine Classical.byContradiction (fun h => ?_)
      obtain ⟨i, -, hf⟩ := howMany_ne_zero.1 h
      simp only [writesTo, Bool.and_eq_true, decide_eq_true_eq] at hf
      exact hno i (clones_ne_zero.1 hf.1)
    omega

/-- The managers go before the styles, the styles before the managers. -/
example : ∀ ops ∈ [[Op.dropMgr 1, .dropMgr 2, .drop 1, .drop 2], [Op.drop 2, .drop 1, .dropMgr 2, .dropMgr 1]],
    let m := run demoEnv (countedOps ++ ops) (Mem.init demoPage)
    (∀ h, m.st.contentOf h = none) ∧ (∀ mh, m.st.mgrOf mh = none) := by
  intro ops ho
  have key : ∀ l : List (Option Nat), l.all Option.isNone = true → ∀ n : Nat, (l[n]?).join = none := by
    intro l hl n
    cases hn : l[n]? with
    | none => rfl
    | some a =>
      have := List.all_eq_true.1 hl a (List.mem_of_getElem? hn)
      simpa using this
  rcases List.mem_cons.1 ho with rfl | ho
  · exact ⟨key _ (by decide +kernel), key _ (by decide +kernel)⟩
  · rcases List.mem_cons.1 ho with rfl | ho
    · exact ⟨key _ (by decide +kernel), key _ (by decide +kernel)⟩
    · cases ho

/-- A style is mounted, in an application without hydration, exactly as long as its count is
not 0. -/
theorem C111_mounted (env : Env) (hw : env.wasm = true) (d : Dom)
    (ops : List Op) (m : Mem) (hm : m = run env ops (Mem.init d)) (hids : FreshIds env m.st.ctr)
    (hload : ∀ c ∈ m.st.heap, c.origin = .created) (hpref : ∀ c ∈ m.st.heap, cssIdent c.key.pref = true)
    (hmgr : ∀ g ∈ m.st.mgrs, g.log = none ∧ ∃ i, g.container = some i ∧ Attached d i)
    (hb : ∀ c ∈ m.st.heap, withId c.id d.inDoc = []) :
    (∀ (p : Nat) (c : Content), m.st.heap[p]? = some c →
      withId c.id m.st.dom.inDoc = if m.content p ≠ 0 then [c.element] else []) ∧
    ((∀ h, m.st.contentOf h = none) → (∀ mh, m.st.mgrOf mh = none) →
      ∀ id text, Child.style id text ∈ m.st.dom.inDoc → Child.style id text ∈ d.inDoc) := by
  have hst : m.st = Manager.run env ops (St.init d) := by rw [hm]; exact (C111_counting env d ops).1
  obtain ⟨h1, h2⟩ := C22_application env hw d ops m.st hst hids hload hpref hmgr hb
  have hf := (C111_freed env d ops m hm).1
  refine ⟨fun p c hc => ?_, fun hs hg id text he => ?_⟩
  · rw [h1 p c hc]
    by_cases ha : m.st.Alive p
    · rw [if_pos ha, if_pos ((hf p).2 ha)]
    · rw [if_neg ha, if_neg (fun h => ha ((hf p).1 h))]
  · rcases h2 id text he with h | ⟨p, c, -, ha, -⟩
    · exact h
    · exact absurd ((C111_no_leak env d ops m hm hs hg).1 p) ((hf p).2 ha)

/-- A style with two handles, one alive through the registry only, one unregistered and
dropped. -/
example : let m := run demoEnv (Manager.demoOps ++ [.unregister 1, .drop 1, .drop 2]) (Mem.init demoPage)
    (∀ (p : Nat) (c : Content), m.st.heap[p]? = some c →
      withId c.id m.st.dom.inDoc = if m.content p ≠ 0 then [c.element] else []) ∧
    m.content 0 = 3 ∧ m.content 1 = 0 ∧ m.content 2 = 1 := by
  refine ⟨(C111_mounted demoEnv rfl demoPage _ _ rfl (freshIds_counter rfl (by decide +kernel)) (by decide +kernel) (by decide +kernel) ?_
    (by decide +kernel)).1, by decide +kernel, by decide +kernel, by decide +kernel⟩
  intro m hm
  have h : ∀ m ∈ (run demoEnv (Manager.demoOps ++ [.unregister 1, .drop 1, .drop 2]) (Mem.init demoPage)).st.mgrs,
    m.log = none ∧ (m.container = some 0 ∨ m.container = some 1) := by decide +kernel
  obtain ⟨h1, h2 | h2⟩ := h m hm
  · exact ⟨h1, 0, h2, ⟨true, [.other 7]⟩, rfl, rfl⟩
  · exact ⟨h1, 1, h2, ⟨true, []⟩, rfl, rfl⟩

end Counts
