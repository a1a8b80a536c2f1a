import Verif.Props.Builder
import Verif.Props.Served

/-!
# A manager is what its builder was told, whatever other threads do

C121.
-/

namespace Locks
open Manager

/-- A call that is finished, in the history that explains a state. -/
theorem call_at {env : Env} {d : Dom} {x : Sys} (h : J env d x) {a b : List Done} {e : Done} (hb : x.done = a ++ e :: b) :
    ∃ (π : Nat → Nat) (k : Nat) (s1 : St),
      Manager.step (env.reordered π) e.op (Manager.run (env.reordered π) (a.map Done.op) (St.init d)) = (s1, e.out) ∧
      Manager.run (env.reordered π) (b.map Done.op) s1 = { x.st with ctr := k } := by
  obtain ⟨sched, calls, hs⟩ := h.sim
  obtain ⟨π, hinj, houts, k, -, hrun, hlt, -⟩ := C67_sequential env d sched (abs x calls) hs.symm
  have hd : (abs x calls).done = a ++ e :: b := hb
  rw [hd, List.map_append] at hrun houts
  rw [Manager.run_append] at hrun
  rw [outs_append, List.map_append] at houts
  have hlen : ∀ (ops : List Op) (s : St), (outs (env.reordered π) ops s).length = ops.length := by
    intro ops
    induction ops with
    | nil => intro s; rfl
    | cons o ops ih => intro s; simp [outs, ih]
  have h2 := (List.append_inj houts (by rw [hlen]; simp)).2
  simp only [List.map_cons, outs, List.cons.injEq] at h2
  simp only [List.map_cons, Manager.run] at hrun
  exact ⟨π, k, _, Prod.ext rfl h2.1, hrun⟩

/-- **C121** for servers with threads: a thread has built a manager, at any time. Whatever all threads do
before, meanwhile and afterwards, as long as the value `mh` that it got is there, `mh` and every other
value of the manager have the prefix and the container that were told. -/
theorem C121_threads (env : Env) (d : Dom) (hh : ∀ k ∈ env.head, k < d.length) (sched : List (Nat × Op)) (x : Sys)
    (hx : x = (Sys.init d).run env sched) (t : Nat) (calls : List BuilderCall) (mh : Nat)
    (hb : ⟨t, buildOp calls, .mgr mh⟩ ∈ x.done) (i : Nat) (hi : x.st.mgrOf mh = some i) (mh' : Nat)
    (hi' : x.st.mgrOf mh' = some i) :
    x.st.mgrPrefix mh' = some (toldPrefix calls) ∧ x.st.mgrContainer mh' = some (usedContainer env calls) := by
  have hJ : J env d x := hx ▸ (J.init env d).run sched
  obtain ⟨a, b, hab⟩ := List.append_of_mem hb
  obtain ⟨π, k, s1, h1, h2⟩ := call_at hJ hab
  generalize hs : Manager.run (env.reordered π) (a.map Done.op) (St.init d) = s at h1
  have hinv : Inv s := hs ▸ inv_run _ _ (Inv.init d)
  have hlen : s.dom.length = d.length := by
    have := congrArg List.length (attached_run (env.reordered π) (a.map Done.op) (Inv.init d))
    rw [hs] at this
    simpa [St.init] using this
  have hh' : ∀ k ∈ (env.reordered π).head, k < s.dom.length := by rw [hlen]; exact hh
  obtain ⟨j, h3, h4⟩ := C121_told (env.reordered π) d (a.map Done.op) s s1 hs.symm hh' calls mh h1
  have hinv1 : Inv s1 := by
    have := inv_step (env.reordered π) (buildOp calls) hinv
    rw [h1] at this
    exact this
  obtain ⟨-, b0, b3, -⟩ := built (show buildWith (env.reordered π) calls s = (s1, .mgr mh) from h1) hh'
  have h5 : s1.mgrOf mh = some i :=
    mgrOf_back (b.map Done.op) hinv1 (by rw [b3, b0]; simp) (show (Manager.run _ _ s1).mgrOf mh = some i by rw [h2]; exact hi)
  rw [h3] at h5
  cases h5
  exact h4 (b.map Done.op) { x.st with ctr := k } mh' h2.symm hi'

/-- Two threads build managers; the first has a clone of its own while the second makes a style. -/
def builtSched : List (Nat × Op) :=
  [(1, .renderStatic), (2, .renderStatic), (1, buildOp [.pref (c! "a"), .writer 0, .pref (c! "b")]),
    (2, buildOp [.pref (c! "c"), .writer 1])] ++ [(2, .create 1 .scoped (.text (c! "color:red;")) false)] ++
    [(1, .cloneMgr 0)]

example : ((Sys.init demoPage).run checkedServer builtSched).st.mgrPrefix 2 = some (c! "b") :=
  (C121_threads checkedServer demoPage (by decide) builtSched _ rfl 1 [.pref (c! "a"), .writer 0, .pref (c! "b")] 0
    (List.mem_of_getElem? (i := 2) rfl) 0 (by decide +kernel) 2 (by decide +kernel)).1

end Locks
