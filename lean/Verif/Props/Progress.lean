import Verif.Proofs.Progress
import Verif.Props.Parser

/-!
# Calls of several threads come to an end

C114, about `str::parse::<Sheet>()`, which every `css!` with a run-time text, every `Style::new`
and the check of `debug_parser` go through, in any number of threads.
-/

namespace Css
open Cache CacheP

/-- Three calls of three threads that wait for each other: thread 1 has the lock and has parsed,
the threads 0 and 2 wait. -/
def busy : List Choice :=
  [⟨0, c! "a:b;"⟩, ⟨1, c! "a:b;"⟩, ⟨2, c! "c"⟩, ⟨1, []⟩, ⟨0, []⟩, ⟨1, []⟩, ⟨2, []⟩, ⟨1, []⟩]

/-- Their calls are finished, one after the other. -/
def finishing : List Choice :=
  [⟨1, []⟩, ⟨1, []⟩, ⟨2, []⟩, ⟨2, []⟩, ⟨2, []⟩, ⟨2, []⟩, ⟨0, []⟩, ⟨0, []⟩, ⟨0, []⟩]

/-- **C114**, no deadlock: whatever was scheduled, as long as there is a thread inside of a call,
there is a thread inside of a call that can go on. -/
theorem C114_no_deadlock (schedule : List Choice) (t : Nat) (h : (State.init.run schedule).Inside t) :
    ∃ u, (State.init.run schedule).Inside u ∧ (State.init.run schedule).CanMove u :=
  deadlock_free (Held.init.run schedule) h

/-- Non-vacuity: thread 0 is inside of a call and has to wait. -/
example : (State.init.run busy).Inside 0 ∧ ¬ (State.init.run busy).CanMove 0 ∧
    ((State.init.run busy).step ⟨1, []⟩).pc 1 ≠ (State.init.run busy).pc 1 :=
  ⟨by unfold State.Inside; decide +kernel, fun h => h [] (by decide +kernel), by decide +kernel⟩

/-- **C114**, the thread that the others wait for: it finishes its call within four steps of its
own, whatever the others do in between; the call returns what parsing gives, nobody else
finishes a call before it, and the lock is free then. -/
theorem C114_owner_returns (schedule more : List Choice) (u : Nat) (hu : (State.init.run schedule).lock = some u)
    (hm : 4 ≤ turns u more) :
    ∃ s pre post, ((State.init.run schedule).pc u).arg = some s ∧ more = pre ++ post ∧ turns u pre ≤ 4 ∧
      ((State.init.run schedule).run pre).pc u = .idle ∧ ((State.init.run schedule).run pre).lock = none ∧
      ((State.init.run schedule).run pre).log = (State.init.run schedule).log ++ [(s, parse s)] := by
  have hH := Held.init.run schedule
  have h4 := (hH u hu).2
  obtain ⟨s, pre, post, h1, h2, h3, h4', h5, h6⟩ := owner_returns more (Locked.init.run schedule) hH
    (run_inv (st := State.init) ⟨(by intro s x h; cases h), fun _ => trivial, (by intro e he; cases he)⟩ schedule)
    hu (by omega)
  exact ⟨s, pre, post, h1, h2, by omega, h4', h5, h6⟩

/-- Non-vacuity: thread 1 is the owner, and it is given four steps. -/
example : (State.init.run busy).lock = some 1 ∧
    turns 1 [⟨0, []⟩, ⟨1, []⟩, ⟨2, []⟩, ⟨1, c! "a:b;"⟩, ⟨0, []⟩, ⟨1, c! "d"⟩, ⟨1, []⟩] = 4 := by decide +kernel

/-- **C114**, every call is answered exactly once, with the result of parsing its argument: the
arguments of the calls that were begun are the arguments of the calls that are finished, and
of those that threads are in. -/
theorem C114_answered_once (schedule : List Choice) (threads : List Nat) (hn : threads.Nodup)
    (ht : ∀ c ∈ schedule, c.t ∈ threads) :
    (begun State.init schedule).Perm
      ((State.init.run schedule).log.map Prod.fst ++ threads.filterMap fun t => ((State.init.run schedule).pc t).arg) ∧
    ∀ e ∈ (State.init.run schedule).log, e.2 = parse e.1 := by
  refine ⟨?_, C17_cache_transparent_threads schedule⟩
  have h := begun_perm hn schedule State.init ht
  have h0 : threads.filterMap (fun t => (State.init.pc t).arg) = [] := by
    rw [List.filterMap_eq_nil_iff]; intro a _; rfl
  rw [h0] at h
  simpa [State.init] using h

/-- Non-vacuity: five calls begin, and three of them are finished. -/
example : begun State.init (busy ++ finishing ++ [⟨1, c! "x"⟩, ⟨0, c! "y"⟩]) =
      [c! "a:b;", c! "a:b;", c! "c", c! "x", c! "y"] ∧
    (State.init.run (busy ++ finishing ++ [⟨1, c! "x"⟩, ⟨0, c! "y"⟩])).log.map (fun e => (e.1, e.2.isSome)) =
      [(c! "a:b;", true), (c! "c", false), (c! "a:b;", true)] := by decide +kernel

/-- **C114**, all calls end: if no new calls are begun, then no schedule can go on for more than
five steps for each thread that is inside of a call; and where it cannot go on, no thread is
inside of a call. -/
theorem C114_all_end (schedule more : List Choice) (threads : List Nat) (hn : threads.Nodup)
    (ht : ∀ t, (State.init.run schedule).Inside t → t ∈ threads) (hm : OnlyFinishing (State.init.run schedule) more) :
    more.length ≤ 5 * threads.length ∧
    ((∀ u, ((State.init.run schedule).run more).Inside u → ¬ ((State.init.run schedule).run more).CanMove u) →
      ∀ t, ¬ ((State.init.run schedule).run more).Inside t) := by
  constructor
  · have h1 := finishing_le hn more _ hm ht
    have h2 := sum_le (fun t => rest ((State.init.run schedule).pc t)) 5 (fun t => rest_le _) threads
    omega
  · intro hs t hin
    rw [← run_append] at hs hin
    obtain ⟨u, h1, h2⟩ := C114_no_deadlock _ t hin
    exact hs u h1 h2

/-- A check of `OnlyFinishing` that can be run. -/
def finishingB : State → List Choice → Bool
  | _, [] => true
  | st, c :: cs =>
    (match st.pc c.t with
      | .idle => false
      | .wantLock _ => st.lock.isNone
      | _ => true) && finishingB (st.step c) cs

theorem finishing_of_bool : ∀ (cs : List Choice) (st : State), finishingB st cs = true → OnlyFinishing st cs
  | [], _, _ => trivial
  | c :: cs, st, h => by
    simp only [finishingB, Bool.and_eq_true] at h
    refine ⟨fun e => by rw [e] at h; simp at h, fun a e => ?_, finishing_of_bool cs _ h.2⟩
    rcases own st ⟨c.t, a⟩ with ⟨hp, _, _, _⟩ | ⟨s, hp, u, hu, _⟩ | ⟨s, hp, _, hp', _, _⟩ | ⟨s, _, _, _, hr, _, _, _⟩ | ⟨s, r, hp, hp', _, _⟩
    · simp only at hp; rw [hp] at h; simp at h
    · simp only at hp; rw [hp, hu] at h; simp at h
    · simp only at hp hp'; rw [hp', hp] at e; cases e
    · simp only at hr; rw [e] at hr; omega
    · simp only at hp hp'; rw [hp', hp] at e; cases e

/-- Non-vacuity: the three calls are finished in nine steps. -/
example : OnlyFinishing (State.init.run busy) finishing ∧
    (∀ t ∈ [0, 1, 2], ((State.init.run busy).run finishing).pc t = .idle) ∧
    ((State.init.run busy).run finishing).log.map (fun e => (e.1, e.2.isSome)) =
      [(c! "a:b;", true), (c! "c", false), (c! "a:b;", true)] :=
  ⟨finishing_of_bool _ _ (by decide +kernel), by decide +kernel, by decide +kernel⟩

/-- **C114**, the calls get on as a whole, also if new calls are begun all the time: of the steps
that are not just waiting, there are at most six for each finished call, and five for each
thread. -/
theorem C114_throughput (schedule : List Choice) (threads : List Nat) (hn : threads.Nodup)
    (ht : ∀ c ∈ schedule, c.t ∈ threads) :
    moved State.init schedule ≤ 6 * (State.init.run schedule).log.length + 5 * threads.length := by
  have h1 := moved_le hn schedule State.init ht
  have h2 := sum_le (fun t => made ((State.init.run schedule).pc t)) 5 (fun t => made_le _) threads
  omega

/-- Non-vacuity: fifteen steps that are not just waiting, and three finished calls. -/
example : moved State.init (busy ++ finishing) = 15 ∧ (State.init.run (busy ++ finishing)).log.length = 3 := by
  decide +kernel

/-- **C114**, the limit: nothing is promised to a single thread. However often a thread tries, and
however many calls others have finished since it began its own, it may still wait, as the mutex
does not keep the threads in a row. -/
theorem C114_limit_unfair (n : Nat) :
    ∃ schedule, turns 1 schedule = n + 1 ∧ (State.init.run schedule).log.length = n ∧
      (State.init.run schedule).pc 1 = .wantLock (c! "a") := by
  have hs : parse (c! "a") = none := by decide +kernel
  obtain ⟨h1, h2⟩ := unfair_rounds hs n (st := State.init.run [⟨0, c! "a"⟩, ⟨1, c! "a"⟩]) rfl rfl rfl rfl
  rw [← run_append] at h1 h2
  refine ⟨_, ?_, ?_, h1⟩
  · have := turns_unfair (c! "a") n
    simp only [turns, List.filter_append, List.length_append] at this ⊢
    rw [this]
    simp
    omega
  · rw [h2]
    simp [State.run, State.step, State.goto, State.init]

end Css
