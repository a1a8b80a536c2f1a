import Verif.Proofs.Threads
import Verif.Props.Manager

/-!
# Properties of managers in several threads

C67. A schedule is any sequence of choices of a thread, with the call it makes next if it
is in no call; `Threads.run env sched (Threads.init d)` is what the threads have done by
then.
-/

namespace Manager

/-- The environment in which `get_entropy` returns what it returned in `env`, in another
order. -/
def Env.reordered (env : Env) (π : Nat → Nat) : Env := { env with entropy := fun n => env.entropy (π n) }

/-! ## C67: threads -/

/-- **C67.** Whatever the schedule, the calls that are finished gave the results, and the
managers, styles, pages and style data are those, of a history in which the same calls are
made one after the other in the order in which they were finished, where `get_entropy`
returns the same values in another order. If no call is in progress, then the counter is
the same, too, and the order is a permutation of the values drawn so far. -/
theorem C67_sequential (env : Env) (d : Dom) (sched : List (Nat × Op)) (c : Threads)
    (hc : c = Threads.run env sched (Threads.init d)) :
    ∃ π : Nat → Nat, (∀ a b, π a = π b → a = b) ∧
      outs (env.reordered π) (c.done.map Done.op) (St.init d) = c.done.map Done.out ∧
      ∃ k ≤ c.st.ctr, Manager.run (env.reordered π) (c.done.map Done.op) (St.init d) = { c.st with ctr := k } ∧
        (∀ a < k, π a < c.st.ctr) ∧
        ((∀ t, c.pc t = none) → k = c.st.ctr) := by
  obtain ⟨used, h⟩ := TInv.run (env := env) (d := d) sched (TInv.init env d)
  rw [← hc] at h
  have hget : ∀ (a : Nat) (n : Nat), used[a]? = some n → n < c.st.ctr :=
    fun a n ha => h.lt n (List.mem_of_getElem? ha)
  have hinj : ∀ (a b n : Nat), used[a]? = some n → used[b]? = some n → a = b := by
    intro a b n ha hb
    exact (List.getElem?_inj (List.getElem?_eq_some_iff.1 ha).1 h.nodup).1 (ha.trans hb.symm)
  obtain ⟨h1, h2⟩ := h.seq (fun k => env.entropy ((used[k]?).getD (c.st.ctr + k))) (by
    intro k n hk; rw [hk]; rfl)
  have hsub : used.length ≤ c.st.ctr := by
    have := List.Nodup.length_le_of_subset h.nodup (l₂ := List.range c.st.ctr)
      (fun n hn => List.mem_range.2 (h.lt n hn))
    simpa using this
  refine ⟨fun k => (used[k]?).getD (c.st.ctr + k), ?_, h2, used.length, hsub, h1, ?_, ?_⟩
  · intro a b hab
    simp only at hab
    cases ha : used[a]? with
    | none =>
      cases hb : used[b]? with
      | none => rw [ha, hb] at hab; simp at hab; omega
      | some n => rw [ha, hb] at hab; have := hget b n hb; simp at hab; omega
    | some m =>
      cases hb : used[b]? with
      | none => rw [ha, hb] at hab; have := hget a m ha; simp at hab; omega
      | some n => rw [ha, hb] at hab; simp at hab; subst hab; exact hinj a b m ha hb
  · intro a ha
    simp only [List.getElem?_eq_getElem ha, Option.getD_some]
    exact h.lt _ (List.getElem_mem ha)
  · intro hidle
    have hall : ∀ n, n ∈ used ↔ n ∈ List.range c.st.ctr := by
      intro n
      rw [List.mem_range]
      refine ⟨h.lt n, fun hn => ?_⟩
      rcases h.cover n hn with h | ⟨t, p, hp, -⟩
      · exact h
      · rw [hidle t] at hp; cases hp
    have := (List.perm_ext_iff_of_nodup h.nodup List.nodup_range).2 hall
    simpa using this.length_eq

/-- **C67**: in that history the calls of each thread are in the order in which the thread
made them; at most its last call is missing, if it is in progress. -/
theorem C67_program_order (env : Env) (d : Dom) (sched : List (Nat × Op)) (c : Threads)
    (hc : c = Threads.run env sched (Threads.init d)) (t : Nat) :
    (c.calls.filter (fun x => x.1 = t)).map Prod.snd =
      (c.done.filter (fun x => x.t = t)).map Done.op ++ (c.pc t).toList.map Pending.op := by
  obtain ⟨used, h⟩ := TInv.run (env := env) (d := d) sched (TInv.init env d)
  rw [← hc] at h
  exact h.order t

/-- **C67**: no two styles created in any threads have the same id, as long as the counter
has not wrapped or, with the feature `random`, the strings drawn are different. -/
theorem C67_distinct_classes (env : Env) (d : Dom) (sched : List (Nat × Op))
    (c : Threads) (hc : c = Threads.run env sched (Threads.init d)) (hids : FreshIds env c.st.ctr) (p q : Nat)
    (x y : Content) (hp : c.st.heap[p]? = some x) (hq : c.st.heap[q]? = some y) (ho : x.origin = .created)
    (ho' : y.origin = .created) (hid : x.id = y.id) : p = q := by
  obtain ⟨π, h1, -, k, -, h2, h3, -⟩ := C67_sequential env d sched c hc
  refine distinct_ids (env.reordered π) d (c.done.map Done.op) { c.st with ctr := k } h2.symm ?_ hp hq ho ho' hid
  intro a b ha hb key key' he
  exact h1 a b (hids.inj (h3 a ha) (h3 b hb) he)

/-- **C67**: at any time, reading the style data of a manager with a static writer, in
whatever thread, gives exactly the styles that this manager has created so far, in order. -/
theorem C67_style_data (env : Env) (d : Dom) (sched : List (Nat × Op)) (c : Threads)
    (hc : c = Threads.run env sched (Threads.init d)) (i l : Nat) (m : Mgr) (hm : c.st.mgrs[i]? = some m)
    (hlog : m.log = some l) :
    ∃ log, c.st.logs[l]? = some log ∧ log.poisoned = false ∧
      log.entries = (createdBy i c.st.heap).map Content.entry := by
  obtain ⟨π, -, -, k, -, h2, -, -⟩ := C67_sequential env d sched c hc
  have hinv : Inv { c.st with ctr := k } := h2 ▸ inv_run _ _ (Inv.init d)
  have hli : LogInv { c.st with ctr := k } := h2 ▸ LogInv.run _ (Inv.init d) (LogInv.init d)
  obtain ⟨log, h1, -⟩ := hinv.log m (List.mem_of_getElem? hm) l hlog
  exact ⟨log, h1, hinv.poison log (List.mem_of_getElem? h1), hli.log i m l log hm hlog h1⟩

/-- The result of a finished call is that of one step of the history. -/
theorem done_step {env : Env} {d : Dom} {l : List Done} (h : outs env (l.map Done.op) (St.init d) = l.map Done.out)
    {x : Done} (hx : x ∈ l) : ∃ ops, x.out = (step env x.op (Manager.run env ops (St.init d))).2 := by
  obtain ⟨pre, post, rfl⟩ := List.append_of_mem hx
  have hlen : ∀ (ops : List Op) (s : St), (outs env ops s).length = ops.length := by
    intro ops
    induction ops with
    | nil => intro s; rfl
    | cons o ops ih => intro s; simp [outs, ih]
  simp only [List.map_append, List.map_cons] at h
  rw [outs_append] at h
  have := (List.append_inj h (by rw [hlen]; simp)).2
  simp only [outs, List.cons.injEq] at this
  exact ⟨_, this.1.symm⟩

/-- **C67**: a call panics only if it loads style data (see C35), or if it creates a style
with `debug_parser` and the generated text does not parse (see C16), never because of what
other threads do. -/
theorem C67_no_panic (env : Env) (d : Dom) (sched : List (Nat × Op)) (c : Threads)
    (hc : c = Threads.run env sched (Threads.init d)) (x : Done) (hx : x ∈ c.done) (h : x.out = .panic) :
    (∃ mh data, x.op = .load mh data) ∨
    (env.debugParser = true ∧ ∃ mh kind src fault ast, x.op = .create mh kind src fault ∧ src.sheet? = some ast ∧
      ∃ cls, Css.parse (ast.toStyleStr cls) = none) := by
  obtain ⟨π, -, h1, -⟩ := C67_sequential env d sched c hc
  obtain ⟨ops, h2⟩ := done_step h1 hx
  exact C27_no_panic (env.reordered π) d ops _ rfl x.op (h2 ▸ h)

/-- **C67**: managers belong to the thread that made them. The managers are those made by
the successful calls of `newMgr`, in order. If the thread of manager `i` is in no call, it
can make every call that uses `i` or a style of `i`; in any other thread, that is in no call,
such a call does not happen. -/
theorem C67_own_managers (env : Env) (d : Dom) (sched : List (Nat × Op)) (c : Threads)
    (hc : c = Threads.run env sched (Threads.init d)) :
    (c.done.filter Done.makesMgr).length = c.st.mgrs.length ∧
    ∀ (i : Nat) (x : Done), (c.done.filter Done.makesMgr)[i]? = some x →
      ∀ op, op.boundTo c.st = some i → ∀ t, c.pc t = none →
        (x.t = t → (c.step env (t, op)).calls = c.calls ++ [(t, op)]) ∧
        (x.t ≠ t → c.step env (t, op) = c) := by
  have h := makers_run (env := env) (d := d) sched (TInv.init env d) rfl
  rw [← hc] at h
  refine ⟨?_, ?_⟩
  · have := congrArg List.length h
    simpa [Threads.makers] using this
  · intro i x hx op hop t ht
    have h1 : x.t = c.owner i := by
      have h2 := congrArg (fun l => l[i]?) h
      simp only [Threads.makers, List.getElem?_map, hx, Option.map_some] at h2
      cases hr : (List.range c.st.mgrs.length)[i]? with
      | none => rw [hr] at h2; cases h2
      | some j =>
        rw [hr] at h2
        have := List.getElem?_eq_some_iff.1 hr
        obtain ⟨h3, h4⟩ := this
        simp only [List.getElem_range] at h4
        subst h4
        exact Option.some.inj h2
    rw [h1]
    unfold Threads.step
    rw [ht]
    refine ⟨fun he => ?_, fun he => ?_⟩
    · rw [if_pos (by rw [hop]; simpa using he)]
      unfold Threads.call
      cases op with
      | create mh kind src fault =>
        simp only
        cases lookup mh kind src fault c.st <;> rfl
      | _ => rfl
    · rw [if_neg (by rw [hop]; simpa using he)]

/-- Two threads, each with a static manager. Thread 1 starts to create a style first, but
thread 2 creates its style, and the data of thread 1 is read in thread 3, before thread 1
is done. -/
def demoSchedule : List (Nat × Op) :=
  [ (1, .renderStatic), (2, .renderStatic),
    (1, .newMgr (c! "a") none true (some 0)), (2, .newMgr (c! "b") none true (some 1)),
    (1, .create 0 .scoped (.sheet demoRed) false), (2, .create 1 .scoped (.sheet demoRed) false),
    (2, .renderStatic), (3, .readData 0), (1, .renderStatic), (2, .styleData 1), (3, .readData 1),
    -- A manager cannot be used in another thread.
    (2, .create 0 .scoped (.sheet demoRed) false) ]

/-- Non-vacuity: the classes are numbered in the order of the starts, everything else is in
the order of the ends. -/
example : (Threads.run serverEnv demoSchedule (Threads.init [])).done.map Done.out =
    [ .writer 0, .writer 1, .mgr 0, .mgr 1, .style 0, .data [], .style 1,
      .data [⟨⟨false, c! "b", demoRed⟩, c! "b-style-1", c! ".b-style-1 {\n    color: red;\n}\n"⟩],
      .data [⟨⟨false, c! "b", demoRed⟩, c! "b-style-1", c! ".b-style-1 {\n    color: red;\n}\n"⟩] ] ∧
    (Threads.run serverEnv demoSchedule (Threads.init [])).st.heap.map Content.id = [c! "b-style-1", c! "a-style-0"] ∧
    (Threads.run serverEnv demoSchedule (Threads.init [])).st.ctr = 2 := by
  decide +kernel

/-- Non-vacuity: there, manager 0 is made by thread 1 and manager 1 by thread 2; the last
call of thread 2 does not happen. -/
example : ((Threads.run serverEnv demoSchedule (Threads.init [])).done.filter Done.makesMgr).map Done.t = [1, 2] ∧
    (Op.create 0 .scoped (.sheet demoRed) false).boundTo (Threads.run serverEnv demoSchedule (Threads.init [])).st = some 0 ∧
    ((Threads.run serverEnv demoSchedule (Threads.init [])).pc 1).isNone = true ∧
    (Threads.run serverEnv demoSchedule (Threads.init [])).calls.length + 3 = demoSchedule.length := by
  decide +kernel

end Manager
