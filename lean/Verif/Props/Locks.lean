import Verif.Proofs.Locks
import Verif.Props.Threads

/-!
# Threads, their locks and the parse cache together

C116. `(Sys.init d).run env sched` is what any number of threads of a server have done in a
schedule in which they stop at every place where they meet: at the mutex of the parse cache, at
the counter of the class names and at the mutexes of style data.
-/

namespace Locks

open Manager

/-- A server of which the check of generated texts is on. -/
def checkedServer : Env := { serverEnv with debugParser := true }

/-- Two threads, each with a static manager; both begin to create a style from the same text. -/
def startBoth : List (Nat × Op) :=
  [ (1, .renderStatic), (2, .renderStatic),
    (1, .newMgr (c! "a") none true (some 0)), (2, .newMgr (c! "b") none true (some 1)),
    (1, .create 0 .scoped (.text (c! "color:red;")) false), (2, .create 1 .scoped (.text (c! "color:red;")) false) ]

/-- Steps of a thread that is inside of a call. -/
def more (t n : Nat) : List (Nat × Op) := List.replicate n (t, .renderStatic)

/-- Thread 2 gets the lock of the cache first, thread 1 has to wait; then thread 1 gets ahead and
has the lock of its style data, in which it has pushed its entry. Thread 3 wants to read them. -/
def tangled : List (Nat × Op) :=
  startBoth ++ more 2 2 ++ more 1 3 ++ more 2 4 ++ more 1 12 ++ [(3, .readData 0)] ++ more 2 3 ++ [(3, .readData 1)]

/-- **C116**, the results: whatever the schedule, the calls that are finished gave the results, and
the managers, styles and pages are those, of a history in which the same calls are made one after
the other in the order in which they were finished, without locks and without a cache, where
`get_entropy` returns the same values in another order. The style data that are not locked
are those of that history. -/
theorem C116_sequential (env : Env) (d : Dom) (sched : List (Nat × Op)) (x : Sys)
    (hx : x = (Sys.init d).run env sched) :
    ∃ π : Nat → Nat, (∀ a b, π a = π b → a = b) ∧
      outs (env.reordered π) (x.done.map Done.op) (St.init d) = x.done.map Done.out ∧
      ∃ k ≤ x.st.ctr, Manager.run (env.reordered π) (x.done.map Done.op) (St.init d) = { x.st with ctr := k } ∧
        (∀ a < k, π a < x.st.ctr) ∧ ((∀ t, ¬ x.Inside t) → k = x.st.ctr) ∧
        ∀ l log, (Manager.run (env.reordered π) (x.done.map Done.op) (St.init d)).logs[l]? = some log →
          x.lock l = none → x.data l = log.entries := by
  have hJ := (J.init env d).run sched
  rw [← hx] at hJ
  obtain ⟨ts, calls, hs⟩ := hJ.sim
  obtain ⟨π, h1, h2, k, h3, h4, h5, h6⟩ := C67_sequential env d ts (abs x calls) hs.symm
  refine ⟨π, h1, h2, k, h3, h4, h5, fun hi => h6 fun t => ?_, fun l log hl hk => ?_⟩
  · show (x.pc t).pending = none
    have := hi t
    unfold Sys.Inside at this
    rw [Classical.not_not.1 this]
    rfl
  · rw [show Manager.run (env.reordered π) (x.done.map Done.op) (St.init d) = { x.st with ctr := k } from h4] at hl
    have hl : x.st.logs[l]? = some log := hl
    rw [hJ.free hk]
    simp [ent, hl]

/-- Non-vacuity: both creations, of which that of thread 2 is not finished, and two reads of
which one has to wait. -/
example : ((Sys.init []).run checkedServer tangled).done.map Done.out =
      [.writer 0, .writer 1, .mgr 0, .mgr 1, .data []] ∧
    (((Sys.init []).run checkedServer tangled).data 0).map Entry.id = [c! "a-style-0"] ∧
    ((Sys.init []).run checkedServer tangled).lock 0 = some 1 := by decide +kernel

/-- The rest of both creations, and reading the data again. -/
def untangled : List (Nat × Op) :=
  tangled ++ more 1 1 ++ more 2 7 ++ [(3, .readData 0), (2, .styleData 1), (1, .create 0 .scoped (.text (c! "a")) false)] ++
    more 1 6

/-- Non-vacuity: when the creations are finished, the read that had to wait gets the style, and a
text that is no css is refused. -/
example : ((Sys.init []).run checkedServer untangled).done.map (fun e => (e.t, e.out)) =
    [ (1, .writer 0), (2, .writer 1), (1, .mgr 0), (2, .mgr 1), (3, .data []), (1, .style 0), (2, .style 1),
      (3, .data [⟨⟨false, c! "a", demoRed⟩, c! "a-style-0", c! ".a-style-0 {\n    color: red;\n}\n"⟩]),
      (2, .data [⟨⟨false, c! "b", demoRed⟩, c! "b-style-1", c! ".b-style-1 {\n    color: red;\n}\n"⟩]),
      (1, .err .parse) ] := by decide +kernel

/-- **C116**, program order: of each thread, the calls that it began are finished in the order in
which it began them, all but the one that it is in. -/
theorem C116_program_order (env : Env) (d : Dom) (sched : List (Nat × Op)) (t : Nat) :
    begun env t (Sys.init d) sched =
      (((Sys.init d).run env sched).done.filter (fun e => e.t = t)).map Done.op ++
        (((Sys.init d).run env sched).pc t).call.toList := by
  have := begun_eq env t sched (Sys.init d)
  simpa [Sys.init, Phase.call] using this

/-- Non-vacuity: thread 3 has begun one call only, as the first of its reads had to wait, and
thread 2 is inside of its third call. -/
example : (begun checkedServer 3 (Sys.init []) tangled).length = 1 ∧
    (begun checkedServer 2 (Sys.init []) tangled).length = 3 ∧
    (((Sys.init []).run checkedServer tangled).done.filter (fun e => e.t = 2)).length = 2 := by decide +kernel

/-- **C116**, style data are never seen half-written: at any time, the data that a manager writes
to are those of the styles that it has created so far, in order; while a thread has the lock,
there may be one more. -/
theorem C116_style_data (env : Env) (d : Dom) (sched : List (Nat × Op)) (x : Sys)
    (hx : x = (Sys.init d).run env sched) (i l : Nat) (m : Mgr) (hm : x.st.mgrs[i]? = some m) (hlog : m.log = some l) :
    ∃ extra, x.data l = (createdBy i x.st.heap).map Content.entry ++ extra ∧ extra.length ≤ 1 ∧
      (x.lock l = none → extra = []) := by
  have hJ := (J.init env d).run sched
  rw [← hx] at hJ
  obtain ⟨ts, calls, hs⟩ := hJ.sim
  obtain ⟨log, h1, -, h2⟩ := C67_style_data env d ts (abs x calls) hs.symm i l m hm hlog
  have h1 : x.st.logs[l]? = some log := h1
  have h2 : log.entries = (createdBy i x.st.heap).map Content.entry := h2
  refine ⟨_, (hJ.data l).trans (by rw [← h2]; simp only [ent, h1, Option.map_some, Option.getD_some]; rfl), ?_, ?_⟩
  · cases hk : x.lock l with
    | none => simp
    | some t => cases hp : x.pc t <;> simp [hp, Phase.extra]
  · intro hk
    rw [hk]

/-- Non-vacuity: thread 1 has the lock and has pushed the entry of a style that is not there yet;
later it is. -/
example : ((Sys.init []).run checkedServer tangled).st.heap.length = 0 ∧
    (((Sys.init []).run checkedServer tangled).data 0).length = 1 ∧
    ((Sys.init []).run checkedServer untangled).lock 0 = none ∧
    ((Sys.init []).run checkedServer untangled).data 0 =
      (createdBy 0 ((Sys.init []).run checkedServer untangled).st.heap).map Content.entry ∧
    (((Sys.init []).run checkedServer untangled).st.mgrs[0]?).bind Mgr.log = some 0 := by decide +kernel

/-- **C116**, no mutex of style data is ever poisoned, and a call panics only if it loads style
data (see C35), or if it creates a style with `debug_parser` and the generated text does not
parse (see C16). -/
theorem C116_no_poison (env : Env) (d : Dom) (sched : List (Nat × Op)) (x : Sys)
    (hx : x = (Sys.init d).run env sched) :
    (∀ l, x.dead l = false) ∧
    ∀ e ∈ x.done, e.out = .panic →
      (∃ mh data, e.op = .load mh data) ∨
      (env.debugParser = true ∧ ∃ mh kind src fault ast, e.op = .create mh kind src fault ∧ src.sheet? = some ast ∧
        ∃ cls, Css.parse (ast.toStyleStr cls) = none) := by
  have hJ := (J.init env d).run sched
  rw [← hx] at hJ
  obtain ⟨ts, calls, hs⟩ := hJ.sim
  exact ⟨hJ.dead, C67_no_panic env d ts (abs x calls) hs.symm⟩

/-- A style whose text is refused by `debug_parser`. -/
def refusedSheet : Sheet := [.block [] [.attr (c! "color") [c! "red}"]]]

/-- Non-vacuity: a creation panics, and after it the same manager creates another style. -/
example : ((Sys.init []).run checkedServer
      ([(1, .renderStatic), (1, .newMgr (c! "a") none true (some 0)), (1, .create 0 .scoped (.sheet refusedSheet) false)] ++
        more 1 6 ++ [(1, .create 0 .scoped (.sheet demoRed) false)] ++ more 1 10 ++ [(2, .readData 0)])).done.map Done.out =
    [ .writer 0, .mgr 0, .panic, .style 0,
      .data [⟨⟨false, c! "a", demoRed⟩, c! "a-style-1", c! ".a-style-1 {\n    color: red;\n}\n"⟩] ] := by decide +kernel

/-- **C116**, one lock at a time: no thread ever has two mutexes, and a thread that has one can go
on. -/
theorem C116_one_lock (env : Env) (d : Dom) (sched : List (Nat × Op)) (x : Sys) (hx : x = (Sys.init d).run env sched)
    (t : Nat) (a : Mutex) (h : x.Owns t a) :
    (∀ b, x.Owns t b → a = b) ∧ x.Inside t ∧ x.CanMove env t := by
  have hJ := (J.init env d).run sched
  rw [← hx] at hJ
  exact ⟨fun b hb => one_mutex hJ h hb, owner_moves hJ h⟩

/-- Non-vacuity: thread 1 has the mutex of its style data and thread 2 that of the cache. -/
example : ((Sys.init []).run checkedServer tangled).Owns 1 (.data 0) ∧
    ((Sys.init []).run checkedServer tangled).Owns 2 .cache := by
  show _ = some 1 ∧ _ = some 2
  decide +kernel

/-- **C116**, no deadlock: as long as there is a thread inside of a call, there is a thread inside of
a call that can go on. -/
theorem C116_no_deadlock (env : Env) (d : Dom) (sched : List (Nat × Op)) (x : Sys) (hx : x = (Sys.init d).run env sched)
    (t : Nat) (h : x.Inside t) : ∃ u, x.Inside u ∧ x.CanMove env u := by
  have hJ := (J.init env d).run sched
  rw [← hx] at hJ
  exact some_moves hJ h

/-- Non-vacuity: thread 1 is inside of a call and cannot go on, as thread 2 has the lock of the
cache. -/
example : (((Sys.init []).run checkedServer (startBoth ++ more 2 2 ++ more 1 1)).pc 1).call ≠ none ∧
    ¬ ((Sys.init []).run checkedServer (startBoth ++ more 2 2 ++ more 1 1)).CanMove checkedServer 1 := by
  refine ⟨by decide +kernel, ?_⟩
  intro h
  refine h .renderStatic (waits_stays _ ?_ _)
  exact ⟨⟨c! "color:red;", by decide +kernel⟩, by decide +kernel⟩

/-- **C116**, all calls end: if no new calls are begun, then no schedule can go on for more than
sixteen steps for each thread that is inside of a call; where it cannot go on, no thread is
inside of a call; and there is such a schedule. -/
theorem C116_all_end (env : Env) (d : Dom) (sched : List (Nat × Op)) (x : Sys) (hx : x = (Sys.init d).run env sched)
    (threads : List Nat) (hn : threads.Nodup) (ht : ∀ t, x.Inside t → t ∈ threads) :
    (∀ cs, OnlyFinishing env x cs → cs.length ≤ 16 * threads.length ∧
      ((∀ u, (x.run env cs).Inside u → ¬ (x.run env cs).CanMove env u) → ∀ t, ¬ (x.run env cs).Inside t)) ∧
    ∃ cs, OnlyFinishing env x cs ∧ ∀ t, ¬ (x.run env cs).Inside t := by
  have hJ := (J.init env d).run sched
  rw [← hx] at hJ
  refine ⟨fun cs h => ⟨?_, fun hs t hin => ?_⟩, can_end hn _ x hJ ht (Nat.le_refl _)⟩
  · have h1 := ending_le hn cs x hJ h ht
    have h2 := CacheP.sum_le (fun t => rank x t) 16 (fun t => rank_le x t) threads
    omega
  · obtain ⟨u, h1, h2⟩ := some_moves (hJ.run cs) hin
    exact hs u h1 h2

/-- Non-vacuity: in `tangled`, the threads 1 and 2 are inside of calls, and both calls end. -/
example : (∀ t ∈ [1, 2], (((Sys.init []).run checkedServer tangled).pc t).call ≠ none) ∧
    ∀ t ∈ [1, 2], (((Sys.init []).run checkedServer (tangled ++ more 1 1 ++ more 2 7)).pc t).call = none := by
  decide +kernel

end Locks
