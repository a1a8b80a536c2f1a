import Verif.Spec.Locks
import Verif.Proofs.Threads
import Verif.Proofs.Progress

/-! # The model with locks refines the one without -/

seal Css.parse

namespace Locks

open Manager CacheP

/-- The call of `get_or_register_style` that a thread is in. -/
def Phase.pending : Phase → Option Pending
  | .check p | .checked p | .locked p _ | .pushed p _ => some p
  | _ => none

/-- The same situation without locks. -/
def abs (x : Sys) (calls : List (Nat × Op)) : Threads :=
  { st := x.st, owner := x.owner, pc := fun t => (x.pc t).pending, calls, done := x.done }

/-- The entries of style data, by the history variable. -/
def ent (s : St) (l : Nat) : List Entry := ((s.logs[l]?).map Log.entries).getD []

/-! ## The end of a creation -/

/-- The generated text has been accepted, if it is checked. -/
def Passed (env : Env) (p : Pending) : Prop := env.debugParser = true → Css.parse (newText env p) ≠ none

theorem finish_passed {env : Env} {p : Pending} (h : Passed env p) (s : St) : p.finish env s = finish env p s := by
  have hc : ∀ s, createRest env p.fault p.i p.key (env.entropy p.n) s =
      createRest { env with debugParser := false } p.fault p.i p.key (env.entropy p.n) s := by
    intro s
    simp only [createRest]
    cases s.mgrs[p.i]? with
    | none => rfl
    | some m =>
      have : (env.debugParser && (Css.parse (p.key.ast.toStyleStr (if p.key.isGlobal = true then none
          else some (makeId p.key (env.entropy p.n))))).isNone) = false := by
        cases hd : env.debugParser with
        | false => rfl
        | true =>
          have := h hd
          simp only [newText, newId] at this
          cases hp : Css.parse (p.key.ast.toStyleStr (if p.key.isGlobal = true then none
            else some (makeId p.key (env.entropy p.n)))) with
          | none => exact absurd hp this
          | some _ => rfl
      simp only [this, Bool.false_and, Bool.false_eq_true, if_false]
      rfl
  simp only [finish, Pending.finish]
  rw [show createRest env p.fault p.i p.key (env.entropy p.n) =
    createRest { env with debugParser := false } p.fault p.i p.key (env.entropy p.n) from funext hc]

theorem finish_refused {env : Env} {p : Pending} {s : St} (hi : Inv s) (hok : p.Ok s) (hd : env.debugParser = true)
    (hp : Css.parse (newText env p) = none) : p.finish env s = (s, .panic) := by
  obtain ⟨m, ast, h2, -⟩ := hok.reg
  simp only [newText, newId] at hp
  simp only [Pending.finish, withBorrow_eq hi h2]
  have hm : (s.modMgr p.i (fun m => { m with borrowed := true })).mgrs[p.i]? = some { m with borrowed := true } := by
    simp [St.modMgr, h2]
  have hc : createRest env p.fault p.i p.key (env.entropy p.n) (s.modMgr p.i (fun m => { m with borrowed := true })) =
      (s.modMgr p.i (fun m => { m with borrowed := true }), .panic) := by
    simp only [createRest, hm, hd, hp, Option.isNone_none, Bool.and_self, if_true]
  rw [hc]
  simp only [unborrow hi]

theorem create_valid (env : Env) {mh i : Nat} {kind : Kind} {src : Source} {fault : Bool} {s : St} {m : Mgr}
    (h1 : s.mgrOf mh = some i) (h2 : s.mgrs[i]? = some m) : (create env mh kind src fault s).2 ≠ .invalid := by
  simp only [create, h1, h2]
  split
  · simp
  · split <;> simp

/-- What the end of a creation does to other managers, and to the style data. -/
theorem finish_facts {env : Env} {p : Pending} {s : St} (hi : Inv s) (hok : p.Ok s) (hc : Passed env p) :
    (∀ j m, s.mgrs[j]? = some m → j ≠ p.i → (finish env p s).1.mgrs[j]? = some m) ∧
    (∀ mh j, s.mgrOf mh = some j → j ≠ p.i → (finish env p s).1.mgrOf mh = some j) ∧
    (logOf s p.i = none → ∀ l, ent (finish env p s).1 l = ent s l) ∧
    (∀ l, logOf s p.i = some l → (finish env p s).2 ≠ .panic ∧
      ∀ k, ent (finish env p s).1 k = if k = l then ent s l ++ [newEntry env p] else ent s k) := by
  rw [← finish_passed hc]
  have hf := finish_eq env (fun _ => env.entropy p.n) hi hok 0 rfl
  have hi0 := hi.withCtr 0
  have htr := step_tr (env.withEntropy fun _ => env.entropy p.n) hi0 p.op
  have hman : p.op.manager (s.withCtr 0) = some p.i := hok.mgrOf
  obtain ⟨m0, ast0, h2, h3, h4, h5⟩ := hok.reg
  have hinv := create_valid (env.withEntropy fun _ => env.entropy p.n) (kind := p.kind) (src := p.src) (fault := p.fault)
    (s := s.withCtr 0) (show (s.withCtr 0).mgrOf p.mh = _ from hok.mgrOf) (show (s.withCtr 0).mgrs[p.i]? = _ from h2)
  refine ⟨fun j m hm hj => ?_, fun mh j hmh hj => ?_, ?_⟩
  · have := (htr.isolated hi0 (j := j) hm (by rw [hman]; simpa using fun e => hj e.symm)).1
    rw [hf] at this
    exact this
  · have := mgrOf_keep (env.withEntropy fun _ => env.entropy p.n) p.op hi0 (mh := mh) (i := j) hmh
      (by rw [hman]; simpa using fun e => hj e.symm)
    rw [hf] at this
    exact this
  · have hlog : logOf s p.i = m0.log := by simp [logOf, h2]
    have hop : p.op = .create p.mh p.kind p.src p.fault := rfl
    rw [hop] at hf htr
    change (Manager.step _ (.create p.mh p.kind p.src p.fault) _).2 ≠ _ at hinv
    rw [hf] at htr hinv
    simp only at htr hinv
    rw [hlog]
    have hent : ∀ l, ent (p.finish env s).1 l = ent ((p.finish env s).1.withCtr (0 + 1)) l := fun _ => rfl
    simp only [hent]
    generalize hs' : (p.finish env s).1.withCtr (0 + 1) = s' at htr
    generalize (p.finish env s).2 = out at htr hinv
    have same : ∀ (m : Mgr) (ast : Sheet) (i : Nat), (s.withCtr 0).mgrOf p.mh = some i → (s.withCtr 0).mgrs[i]? = some m →
        p.src.sheet? = some ast → i = p.i ∧ m = m0 ∧ ast = ast0 := by
      intro m ast i a b c
      have a' : s.mgrOf p.mh = some i := a
      rw [hok.mgrOf] at a'
      cases a'
      have b' : s.mgrs[p.i]? = some m := b
      rw [h2] at b'
      cases b'
      rw [h3] at c
      cases c
      exact ⟨rfl, rfl, rfl⟩
    have htext : (newContent (env.withEntropy fun _ => env.entropy p.n) (s.withCtr 0) p.i p.key).text = newText env p := rfl
    generalize p.src = src0 at htr h3 same
    cases htr with
    | invalid => exact absurd rfl hinv
    | createSyntax _ _ css _ _ i _ hp =>
      simp only [Source.sheet?] at h3
      rw [hp] at h3
      cases h3
    | createHit _ _ _ _ _ i m ast q a b c d =>
      obtain ⟨rfl, rfl, rfl⟩ := same m ast i a b c
      rw [← h4, h5] at d
      cases d
    | createDebug _ _ _ _ _ i m ast a b c d e f =>
      obtain ⟨rfl, rfl, rfl⟩ := same m ast i a b c
      rw [← h4, htext] at f
      exact absurd f (hc e)
    | createStatic _ _ _ _ _ i m ast l log c a b c' d e f g h =>
      obtain ⟨rfl, rfl, rfl⟩ := same m ast i a b c'
      rw [← h4] at e
      subst e
      refine ⟨fun hn => (by rw [hn] at g; cases g), fun l' hl' => ⟨by simp, fun k => ?_⟩⟩
      rw [g] at hl'
      cases hl'
      have hlt : l < s.logs.length := (List.getElem?_eq_some_iff.1 h).1
      simp only [ent, St.modReg, St.modMgr, St.withCtr]
      by_cases hk : k = l
      · subst hk
        rw [List.getElem?_set_self hlt]
        have h' : s.logs[k]? = some log := h
        simp only [h', Option.map_some, Option.getD_some, if_true]
        rfl
      · rw [List.getElem?_set_ne (fun e => hk e.symm), if_neg hk]
    | createFail _ _ _ _ _ i m ast c a b c' d e f g h =>
      obtain ⟨rfl, rfl, rfl⟩ := same m ast i a b c'
      exact ⟨fun _ _ => rfl, fun l hl => by rw [g] at hl; cases hl⟩
    | createMount _ _ _ _ _ i m ast c d' a b c' d e f g h =>
      obtain ⟨rfl, rfl, rfl⟩ := same m ast i a b c'
      exact ⟨fun _ _ => rfl, fun l hl => by rw [g] at hl; cases hl⟩

/-! ## Calls that are one step -/

theorem load_logs {i : Nat} {es : List Entry} {s s' : St} {r : Res Unit} (h : LoadRun i es s s' r) : s'.logs = s.logs := by
  induction h with
  | nil => rfl
  | same _ _ _ _ _ _ _ _ _ _ _ _ _ ih => exact ih
  | conflict => rfl
  | fresh _ _ _ _ _ _ _ _ _ ih => exact ih

theorem ent_whole (env : Env) (op : Op) {s : St} (hi : Inv s)
    (hop : ∀ mh kind src fault, op = .create mh kind src fault → lookup mh kind src fault s = none) (l : Nat) :
    ent (Manager.step env op s).1 l = ent s l := by
  have ht := step_tr env hi op
  have take : ∀ w (l : Nat), ((s.takeWriter w)[l]?).map Log.entries = (s.logs[l]?).map Log.entries := by
    intro w l
    cases w with
    | none => rfl
    | some l0 =>
      simp only [St.takeWriter, List.getElem?_modify]
      cases s.logs[l]? with
      | none => rfl
      | some a => by_cases h : l0 = l <;> simp [h]
  generalize Manager.step env op s = r at ht
  obtain ⟨s', out⟩ := r
  simp only at ht ⊢
  cases ht with
  | renderStatic =>
    simp only [ent]
    by_cases h : l < s.logs.length
    · rw [List.getElem?_append_left h]
    · rw [List.getElem?_append_right (by omega), List.getElem?_eq_none (by omega : s.logs.length ≤ l)]
      cases l - s.logs.length <;> rfl
  | newMgrErr => simp only [ent, take]
  | newMgr => simp only [ent, take]
  | dropMgrLast => rw [ent, (releaseAll_fields env _ _).2.2.2.2.1]; rfl
  | drop => rw [ent, (release_fields env _ _).2.2.2.2.1]; rfl
  | unregister => rw [ent, (release_fields env _ _).2.2.2.2.1]; rfl
  | load _ _ _ _ _ _ _ _ hr => rw [ent, load_logs hr]; rfl
  | createStatic mh kind src fault _ i m ast l' log c a b c' d =>
    have := hop _ _ _ _ rfl
    simp [lookup, a, b, c', d] at this
  | readData l' _ log h =>
    simp only [ent]
    by_cases e : l = l'
    · subst e
      rw [List.getElem?_set_self (List.getElem?_eq_some_iff.1 h).1, h]
      rfl
    · rw [List.getElem?_set_ne (fun x => e x.symm)]
  | _ => rfl

theorem create_src (env : Env) (mh : Nat) (kind : Kind) {src : Source} {ast : Sheet} (fault : Bool) (s : St)
    (h : src.sheet? = some ast) : create env mh kind (.sheet ast) fault s = create env mh kind src fault s := by
  have h' : (Source.sheet ast).sheet? = some ast := rfl
  simp only [create, h, h']

theorem lookup_src (mh : Nat) (kind : Kind) {src : Source} {ast : Sheet} (fault : Bool) (s : St)
    (h : src.sheet? = some ast) :
    lookup mh kind src fault s = (lookup mh kind (.sheet ast) fault s).map fun p => { p with src := src } := by
  have h' : (Source.sheet ast).sheet? = some ast := rfl
  simp only [lookup, h, h']
  cases hi : s.mgrOf mh with
  | none => rfl
  | some i =>
    cases hm : s.mgrs[i]? with
    | none => simp [hm]
    | some m => cases hr : regGet m.reg (kind.key m.pref ast) <;> simp [hm, hr]

/-! ## The invariant -/

/-- The thread may use the handle. -/
def Bound (x : Sys) (t mh : Nat) : Prop := ∃ i, x.st.mgrOf mh = some i ∧ x.owner i = t

/-- What a thread knows. -/
def Knows (env : Env) (x : Sys) (t : Nat) : Phase → Prop
  | .idle => x.cs.pc t = .idle
  | .source mh _ css _ => (∀ s, (x.cs.pc t).arg = some s → s = css) ∧ Bound x t mh
  | .made mh _ src _ sheet => x.cs.pc t = .idle ∧ Bound x t mh ∧ sheet = src.sheet?
  | .check p => (∀ s, (x.cs.pc t).arg = some s → s = newText env p) ∧ env.debugParser = true
  | .checked p => x.cs.pc t = .idle ∧ Passed env p
  | .locked p l | .pushed p l => x.cs.pc t = .idle ∧ Passed env p ∧ logOf x.st p.i = some l ∧ x.lock l = some t

/-- A thread with a mutex of style data. -/
def Phase.holds : Phase → Option Nat
  | .locked _ l | .pushed _ l => some l
  | _ => none

/-- What the holder of a mutex has pushed. -/
def Phase.extra (env : Env) : Phase → List Entry
  | .pushed p _ => [newEntry env p]
  | _ => []

/-- What holds at any time. -/
structure J (env : Env) (d : Dom) (x : Sys) : Prop where
  sim : ∃ sched calls, Threads.run env sched (Threads.init d) = abs x calls
  cinv : CacheP.Inv x.cs
  clock : Locked x.cs
  held : Held x.cs
  knows : ∀ t, Knows env x t (x.pc t)
  lock : ∀ l t, x.lock l = some t → (x.pc t).holds = some l
  data : ∀ l, x.data l = ent x.st l ++ (match x.lock l with | none => [] | some t => (x.pc t).extra env)
  dead : ∀ l, x.dead l = false

theorem J.init (env : Env) (d : Dom) : J env d (Sys.init d) where
  sim := ⟨[], [], rfl⟩
  cinv := ⟨by intro s x h; simp [Sys.init, Cache.State.init, Cache.Map.get] at h, fun _ => trivial, by intro e h; cases h⟩
  clock := Locked.init
  held := Held.init
  knows := fun _ => rfl
  lock := by intro l t h; cases h
  data := fun l => by simp [Sys.init, ent, St.init]
  dead := fun _ => rfl

theorem J.tinv {env : Env} {d : Dom} {x : Sys} (h : J env d x) : ∃ calls used, TInv env d (abs x calls) used := by
  obtain ⟨sched, calls, hs⟩ := h.sim
  obtain ⟨used, hu⟩ := TInv.run sched (TInv.init env d)
  exact ⟨calls, used, hs ▸ hu⟩

theorem J.pend {env : Env} {d : Dom} {x : Sys} (h : J env d x) {t : Nat} {p : Pending} (hp : (x.pc t).pending = some p) :
    p.Ok x.st ∧ x.owner p.i = t := by
  obtain ⟨calls, used, hu⟩ := h.tinv
  have := hu.pend t p hp
  exact ⟨this.1, this.2.1⟩

theorem J.inv {env : Env} {d : Dom} {x : Sys} (h : J env d x) : Manager.Inv x.st := by
  obtain ⟨calls, used, hu⟩ := h.tinv
  exact hu.inv

theorem trun_snoc (env : Env) : ∀ (xs : List (Nat × Op)) (c : Nat × Op) (s : Threads),
    Threads.run env (xs ++ [c]) s = (Threads.run env xs s).step env c
  | [], _, _ => rfl
  | _ :: xs, c, s => trun_snoc env xs c _

/-- A step of `t` leaves alone what belongs to others. -/
structure Frame (x x' : Sys) (t : Nat) : Prop where
  mgrs : ∀ (j : Nat) m, x.st.mgrs[j]? = some m → x.owner j ≠ t → x'.st.mgrs[j]? = some m
  mgrOf : ∀ mh j, x.st.mgrOf mh = some j → x.owner j ≠ t → x'.st.mgrOf mh = some j
  owner : ∀ j, j < x.st.mgrs.length → x'.owner j = x.owner j
  cs : ∀ u, u ≠ t → x'.cs.pc u = x.cs.pc u
  pc : ∀ u, u ≠ t → x'.pc u = x.pc u
  lock : ∀ l u, u ≠ t → x.lock l = some u → x'.lock l = some u

theorem mgrOf_lt {s : St} (hi : Manager.Inv s) {mh i : Nat} (h : s.mgrOf mh = some i) : i < s.mgrs.length := by
  refine hi.mgrHandle i ?_
  simp only [St.mgrOf] at h
  cases hm : s.mgrHandles[mh]? with
  | none => rw [hm] at h; cases h
  | some y =>
    rw [hm] at h
    simp only [Option.join_some] at h
    exact List.mem_of_getElem? (h ▸ hm)

theorem Knows.frame {env : Env} {d : Dom} {x x' : Sys} {t u : Nat} (h : J env d x) (f : Frame x x' t) (hu : u ≠ t) :
    Knows env x' u (x'.pc u) := by
  have hk := h.knows u
  have hb : ∀ mh, Bound x u mh → Bound x' u mh := by
    rintro mh ⟨i, h1, h2⟩
    exact ⟨i, f.mgrOf mh i h1 (by rw [h2]; exact hu), (f.owner i (mgrOf_lt h.inv h1)).trans h2⟩
  have hl : ∀ p l, (x.pc u).pending = some p → logOf x.st p.i = some l → logOf x'.st p.i = some l := by
    intro p l hp hlog
    obtain ⟨h1, h2⟩ := h.pend hp
    obtain ⟨m, ast, h3, -⟩ := h1.reg
    have := f.mgrs p.i m h3 (by rw [h2]; exact hu)
    simp only [logOf, h3, this] at hlog ⊢
    exact hlog
  rw [f.pc u hu]
  cases hp : x.pc u with
  | idle => rw [hp] at hk; exact (f.cs u hu).trans hk
  | source =>
    rw [hp] at hk
    simp only [Knows, f.cs u hu] at hk ⊢
    exact ⟨hk.1, hb _ hk.2⟩
  | made =>
    rw [hp] at hk
    simp only [Knows, f.cs u hu] at hk ⊢
    exact ⟨hk.1, hb _ hk.2.1, hk.2.2⟩
  | check =>
    rw [hp] at hk
    simp only [Knows, f.cs u hu] at hk ⊢
    exact hk
  | checked =>
    rw [hp] at hk
    simp only [Knows, f.cs u hu] at hk ⊢
    exact hk
  | locked p l =>
    rw [hp] at hk
    simp only [Knows, f.cs u hu] at hk ⊢
    exact ⟨hk.1, hk.2.1, hl p l (by rw [hp]; rfl) hk.2.2.1, f.lock l u hu hk.2.2.2⟩
  | pushed p l =>
    rw [hp] at hk
    simp only [Knows, f.cs u hu] at hk ⊢
    exact ⟨hk.1, hk.2.1, hl p l (by rw [hp]; rfl) hk.2.2.1, f.lock l u hu hk.2.2.2⟩

/-- Steps without the mutex. -/
theorem J.simple {env : Env} {d : Dom} {x x' : Sys} {t : Nat} (h : J env d x) (ht : (x.pc t).holds = none)
    (f : Frame x x' t) (sim : ∃ sched calls, Threads.run env sched (Threads.init d) = abs x' calls)
    (cs : x'.cs = x.cs ∨ ∃ a, x'.cs = x.cs.step ⟨t, a⟩) (knows : Knows env x' t (x'.pc t))
    (hlock : x'.lock = x.lock) (hdata : x'.data = x.data) (hdead : x'.dead = x.dead)
    (hent : ∀ l, ent x'.st l = ent x.st l) : J env d x' where
  sim := sim
  cinv := by
    rcases cs with e | ⟨a, e⟩ <;> rw [e]
    · exact h.cinv
    · exact step_inv h.cinv _
  clock := by
    rcases cs with e | ⟨a, e⟩ <;> rw [e]
    · exact h.clock
    · exact h.clock.step _
  held := by
    rcases cs with e | ⟨a, e⟩ <;> rw [e]
    · exact h.held
    · exact h.held.step _
  knows := fun u => if e : u = t then e ▸ knows else Knows.frame h f e
  lock := by
    intro l u hu
    rw [hlock] at hu
    have := h.lock l u hu
    rw [f.pc u (by rintro rfl; rw [ht] at this; cases this)]
    exact this
  data := by
    intro l
    rw [hdata, hlock, hent, h.data l]
    cases hl : x.lock l with
    | none => rfl
    | some u =>
      have := h.lock l u hl
      simp only
      rw [f.pc u (by rintro rfl; rw [ht] at this; cases this)]
  dead := by rw [hdead]; exact h.dead

theorem J.stay {env : Env} {d : Dom} {x x' : Sys} (h : J env d x) (hst : x'.st = x.st) (ho : x'.owner = x.owner)
    (hd : x'.done = x.done) (hp : ∀ u, (x'.pc u).pending = (x.pc u).pending) :
    ∃ sched calls, Threads.run env sched (Threads.init d) = abs x' calls := by
  obtain ⟨sched, calls, hs⟩ := h.sim
  refine ⟨sched, calls, ?_⟩
  rw [hs]
  simp only [abs, hst, ho, hd, hp]

theorem J.go {env : Env} {d : Dom} {x x' : Sys} (h : J env d x) (c : Nat × Op)
    (hc : ∀ calls, ∃ calls', (abs x calls).step env c = abs x' calls') :
    ∃ sched calls, Threads.run env sched (Threads.init d) = abs x' calls := by
  obtain ⟨sched, calls, hs⟩ := h.sim
  obtain ⟨calls', h'⟩ := hc calls
  exact ⟨sched ++ [c], calls', by rw [trun_snoc, hs, h']⟩

/-! ## Steps -/

/-- A call that is one step. -/
def whole (env : Env) (t : Nat) (op : Op) (x : Sys) : Sys :=
  { x with
    st := (Manager.step env op x.st).1
    owner := match op with
      | .newMgr _ _ _ _ => fun j => if j = x.st.mgrs.length then t else x.owner j
      | _ => x.owner
    done := x.done ++ [⟨t, op, (Manager.step env op x.st).2⟩] }

theorem step_call (env : Env) (t : Nat) (op : Op) (x : Sys) (calls : List (Nat × Op)) (hpc : (x.pc t).pending = none)
    (hb : (op.boundTo x.st).all (fun i => x.owner i = t) = true) :
    (abs x calls).step env (t, op) = (abs x calls).call env t op := by
  simp only [Threads.step]
  rw [show (abs x calls).pc t = none from hpc]
  exact if_pos hb

theorem call_whole (env : Env) (t : Nat) (op : Op) (x : Sys) (calls : List (Nat × Op)) (hpc : (x.pc t).pending = none)
    (hb : (op.boundTo x.st).all (fun i => x.owner i = t) = true)
    (hop : ∀ mh kind src fault, op = .create mh kind src fault → lookup mh kind src fault x.st = none) :
    (abs x calls).step env (t, op) = abs (whole env t op x) (calls ++ [(t, op)]) := by
  rw [step_call env t op x calls hpc hb]
  cases op with
  | create mh kind src fault =>
    simp only [Threads.call]
    rw [show lookup mh kind src fault (abs x calls).st = none from hop mh kind src fault rfl]
    rfl
  | _ => rfl

theorem frame_op {env : Env} {d : Dom} {x x' : Sys} (h : J env d x) {t : Nat} {op : Op}
    (hb : ∀ i, op.manager x.st = some i → x.owner i = t) (hst : x'.st = (Manager.step env op x.st).1)
    (owner : ∀ j, j < x.st.mgrs.length → x'.owner j = x.owner j) (cs : x'.cs = x.cs)
    (pc : ∀ u, u ≠ t → x'.pc u = x.pc u) (lock : x'.lock = x.lock) : Frame x x' t where
  mgrs := by
    intro j m hm hj
    rw [hst]
    exact ((step_tr env h.inv op).isolated h.inv hm fun e => hj (hb j e)).1
  mgrOf := by
    intro mh j hm hj
    rw [hst]
    exact mgrOf_keep env op h.inv hm fun e => hj (hb j e)
  owner := owner
  cs := by intro u _; rw [cs]
  pc := pc
  lock := by intro l u _ hl; rw [lock]; exact hl

theorem frame_same {x x' : Sys} {t : Nat} (hm : x'.st.mgrs = x.st.mgrs) (hh : x'.st.mgrHandles = x.st.mgrHandles)
    (owner : x'.owner = x.owner) (cs : ∀ u, u ≠ t → x'.cs.pc u = x.cs.pc u)
    (pc : ∀ u, u ≠ t → x'.pc u = x.pc u) (lock : ∀ l u, u ≠ t → x.lock l = some u → x'.lock l = some u) : Frame x x' t where
  mgrs := by intro j m h _; rw [hm]; exact h
  mgrOf := by intro mh j h _; simp only [St.mgrOf, hh] at h ⊢; exact h
  owner := by intro j _; rw [owner]
  cs := cs
  pc := pc
  lock := lock

theorem J.whole {env : Env} {d : Dom} {x : Sys} (h : J env d x) {t : Nat} {op : Op} (hpc : x.pc t = .idle)
    (hb : (op.boundTo x.st).all (fun i => x.owner i = t) = true)
    (hop : ∀ mh kind src fault, op = .create mh kind src fault → lookup mh kind src fault x.st = none) :
    J env d (whole env t op x) := by
  have hb' : ∀ i, op.manager x.st = some i → x.owner i = t := by
    intro i hi
    rw [boundTo_eq, hi] at hb
    simpa using hb
  refine h.simple (t := t) (by rw [hpc]; rfl) (frame_op h (op := op) hb' rfl ?_ rfl (fun _ _ => rfl) rfl)
    (h.go (t, op) fun calls => ⟨_, call_whole env t op x calls (by rw [hpc]; rfl) hb hop⟩) (.inl rfl) ?_ rfl rfl rfl
    (ent_whole env op h.inv hop)
  · intro j hj
    cases op with
    | newMgr => exact if_neg (by omega)
    | _ => rfl
  · show Knows env _ t (x.pc t)
    have := h.knows t
    rw [hpc] at this ⊢
    exact this

theorem J.free {env : Env} {d : Dom} {x : Sys} (h : J env d x) {l : Nat} (hl : x.lock l = none) :
    x.data l = ent x.st l := by
  rw [h.data l, hl]
  simp

theorem J.begin {env : Env} {d : Dom} {x : Sys} (h : J env d x) {t : Nat} {op : Op} (hpc : x.pc t = .idle)
    (hb : (op.boundTo x.st).all (fun i => x.owner i = t) = true) : J env d (x.begin env t op) := by
  have hidle := h.knows t
  rw [hpc] at hidle
  have hW := fun hop => h.whole hpc hb hop
  cases op with
  | create mh kind src fault =>
    cases hm : x.st.mgrOf mh with
    | none =>
      have : x.begin env t (.create mh kind src fault) = Locks.whole env t (.create mh kind src fault) x := by
        simp only [Sys.begin, hm]; rfl
      rw [this]
      refine hW ?_
      rintro _ _ _ _ ⟨⟩
      simp [lookup, hm]
    | some i =>
      have hbound : x.owner i = t := by simpa [Op.boundTo, hm] using hb
      cases src with
      | text css =>
        have : x.begin env t (.create mh kind (.text css) fault) = x.goto t (.source mh kind css fault) := by
          simp only [Sys.begin, hm]
        rw [this]
        refine h.simple (t := t) (by rw [hpc]; rfl)
          (frame_same rfl rfl rfl (fun _ _ => rfl) (fun u hu => if_neg hu) fun _ _ _ h => h)
          (h.stay rfl rfl rfl fun u => ?_) (.inl rfl) ?_ rfl rfl rfl fun _ => rfl
        · by_cases e : u = t
          · subst e; simp [Sys.goto, hpc, Phase.pending]
          · simp [Sys.goto, e]
        · simp only [Sys.goto, if_pos]
          refine ⟨fun s hs => ?_, i, hm, hbound⟩
          have hidle : x.cs.pc t = .idle := hidle
          simp [hidle, Cache.Pc.arg] at hs
      | sheet sh =>
        have : x.begin env t (.create mh kind (.sheet sh) fault) = x.goto t (.made mh kind (.sheet sh) fault (some sh)) := by
          simp only [Sys.begin, hm]
        rw [this]
        refine h.simple (t := t) (by rw [hpc]; rfl)
          (frame_same rfl rfl rfl (fun _ _ => rfl) (fun u hu => if_neg hu) fun _ _ _ h => h)
          (h.stay rfl rfl rfl fun u => ?_) (.inl rfl) ?_ rfl rfl rfl fun _ => rfl
        · by_cases e : u = t
          · subst e; simp [Sys.goto, hpc, Phase.pending]
          · simp [Sys.goto, e]
        · simp only [Sys.goto, if_pos]
          exact ⟨hidle, ⟨i, hm, hbound⟩, rfl⟩
  | readData l =>
    have hW := hW (by intro _ _ _ _ e; cases e)
    cases hl : x.st.logs[l]? with
    | none =>
      have : x.begin env t (.readData l) = Locks.whole env t (.readData l) x := by
        simp only [Sys.begin, hl]; rfl
      rw [this]; exact hW
    | some log =>
      cases hr : log.readerTaken with
      | true =>
        have : x.begin env t (.readData l) = Locks.whole env t (.readData l) x := by
          simp only [Sys.begin, hl, hr, if_true]; rfl
        rw [this]; exact hW
      | false =>
        cases hk : x.lock l with
        | some u =>
          have : x.begin env t (.readData l) = x := by
            simp only [Sys.begin, hl, hr, hk]; rfl
          rw [this]; exact h
        | none =>
          have hd : x.data l = log.entries := by rw [h.free hk]; simp [ent, hl]
          have hs : Manager.step env (.readData l) x.st =
              ({ x.st with logs := x.st.logs.set l { log with readerTaken := true } }, .data log.entries) := by
            simp [Manager.step, hl, hr, h.inv.poison log (List.mem_of_getElem? hl)]
          have : x.begin env t (.readData l) = Locks.whole env t (.readData l) x := by
            simp only [Sys.begin, hl, hr, hk, h.dead l, hd, Locks.whole, hs]; rfl
          rw [this]; exact hW
  | styleData mh =>
    have hW := hW (by intro _ _ _ _ e; cases e)
    cases hm : x.st.mgrOf mh with
    | none =>
      have : x.begin env t (.styleData mh) = Locks.whole env t (.styleData mh) x := by
        simp only [Sys.begin, hm]; rfl
      rw [this]; exact hW
    | some i =>
      cases hl : logOf x.st i with
      | none =>
        have : x.begin env t (.styleData mh) = Locks.whole env t (.styleData mh) x := by
          simp only [Sys.begin, hm, hl]; rfl
        rw [this]; exact hW
      | some l =>
        cases hk : x.lock l with
        | some u =>
          have : x.begin env t (.styleData mh) = x := by
            simp only [Sys.begin, hm, hl, hk]
          rw [this]; exact h
        | none =>
          obtain ⟨m, hmi⟩ : ∃ m, x.st.mgrs[i]? = some m := by
            cases e : x.st.mgrs[i]? with
            | none => simp [logOf, e] at hl
            | some m => exact ⟨m, rfl⟩
          have hml : m.log = some l := by simpa [logOf, hmi] using hl
          obtain ⟨log, hlog, -⟩ := h.inv.log m (List.mem_of_getElem? hmi) l hml
          have hd : x.data l = log.entries := by rw [h.free hk]; simp [ent, hlog]
          have hs : Manager.step env (.styleData mh) x.st = (x.st, .data log.entries) := by
            simp [Manager.step, hm, hmi, hml, hlog, h.inv.poison log (List.mem_of_getElem? hlog)]
          have : x.begin env t (.styleData mh) = Locks.whole env t (.styleData mh) x := by
            simp only [Sys.begin, hm, hl, hk, h.dead l, hd, Locks.whole, hs]; rfl
          rw [this]; exact hW
  | _ => exact hW (by intro _ _ _ _ e; cases e)

theorem cache_step {cs : Cache.State} (hI : CacheP.Inv cs) {t : Nat} {a : Str}
    (ha : ∀ s, (cs.pc t).arg = some s → s = a) :
    ((cs.step ⟨t, a⟩).pc t = .idle ∧ lastResult (cs.step ⟨t, a⟩) = Css.parse a) ∨
    ((cs.step ⟨t, a⟩).pc t ≠ .idle ∧ ∀ s, ((cs.step ⟨t, a⟩).pc t).arg = some s → s = a) := by
  rcases own cs ⟨t, a⟩ with ⟨hp, hp', -, -⟩ | ⟨s, hp, _, _, h'⟩ | ⟨s, hp, _, hp', -, -⟩ | ⟨s, hs, _, hs', _, _, -, -⟩ | ⟨s, r, hp, hp', hl, -⟩
  · refine .inr ⟨by rw [hp']; simp, fun s hs => ?_⟩
    rw [hp'] at hs
    simpa [Cache.Pc.arg] using hs.symm
  · simp only at hp
    refine .inr ⟨by rw [h', hp]; simp, fun s hs => ?_⟩
    rw [h'] at hs
    exact ha s hs
  · simp only at hp
    refine .inr ⟨by rw [hp']; simp, fun s' hs => ?_⟩
    rw [hp'] at hs
    refine ha s' ?_
    rw [hp]
    exact hs
  · simp only at hs
    refine .inr ⟨fun e => (by rw [e] at hs'; cases hs'), fun s' h => ?_⟩
    rw [hs'] at h
    cases h
    exact ha s hs
  · simp only at hp
    refine .inl ⟨hp', ?_⟩
    have h1 := hI.pcs t
    rw [hp] at h1
    have h1 : r = Css.parse s := h1
    have h2 := ha s (by rw [hp]; rfl)
    simp only [lastResult, hl, List.getLast?_append, List.getLast?_singleton]
    rw [← h2, h1]
    simp

theorem step_finish (env : Env) (t : Nat) (op : Op) (x : Sys) (calls : List (Nat × Op)) {p : Pending}
    (hpc : (x.pc t).pending = some p) : (abs x calls).step env (t, op) = (abs x calls).finish env t p := by
  simp only [Threads.step]
  rw [show (abs x calls).pc t = some p from hpc]

/-- The thread ends its creation. -/
theorem finish_go {env : Env} {d : Dom} {x x' : Sys} (h : J env d x) {t : Nat} {p : Pending}
    (hpc : (x.pc t).pending = some p) (hst : x'.st = (p.finish env x.st).1) (ho : x'.owner = x.owner)
    (hp : ∀ u, (x'.pc u).pending = if u = t then none else (x.pc u).pending)
    (hd : x'.done = x.done ++ [⟨t, p.op, (p.finish env x.st).2⟩]) :
    ∃ sched calls, Threads.run env sched (Threads.init d) = abs x' calls := by
  refine h.go (t, .renderStatic) fun calls => ⟨calls, ?_⟩
  rw [step_finish env t _ x calls hpc]
  simp only [Threads.finish, abs, hst, ho, hd, hp]

theorem J.source {env : Env} {d : Dom} {x : Sys} (h : J env d x) {t : Nat} (op : Op) {mh : Nat} {kind : Kind} {css : Str}
    {fault : Bool} (hpc : x.pc t = .source mh kind css fault) : J env d (x.step env (t, op)) := by
  have hk := h.knows t
  rw [hpc] at hk
  obtain ⟨ha, hb⟩ := hk
  rcases cache_step h.cinv ha with ⟨h1, h2⟩ | ⟨h1, h2⟩
  · have : x.step env (t, op) =
        { x.goto t (.made mh kind (.text css) fault (lastResult (x.cs.step ⟨t, css⟩))) with cs := x.cs.step ⟨t, css⟩ } := by
      simp only [Sys.step, hpc, h1]
    rw [this]
    refine h.simple (t := t) (by rw [hpc]; rfl)
      (frame_same rfl rfl rfl (fun u hu => step_other x.cs ⟨t, css⟩ hu) (fun u hu => if_neg hu) fun _ _ _ h => h)
      (h.stay rfl rfl rfl fun u => ?_) (.inr ⟨css, rfl⟩) ?_ rfl rfl rfl fun _ => rfl
    · by_cases e : u = t
      · subst e; simp [Sys.goto, hpc, Phase.pending]
      · simp [Sys.goto, e]
    · simp only [Sys.goto, if_pos]
      exact ⟨h1, hb, h2⟩
  · have : x.step env (t, op) = { x with cs := x.cs.step ⟨t, css⟩ } := by
      simp only [Sys.step, hpc]
    rw [this]
    refine h.simple (t := t) (by rw [hpc]; rfl)
      (frame_same rfl rfl rfl (fun u hu => step_other x.cs ⟨t, css⟩ hu) (fun _ _ => rfl) fun _ _ _ h => h)
      (h.stay rfl rfl rfl fun u => rfl) (.inr ⟨css, rfl⟩) ?_ rfl rfl rfl fun _ => rfl
    show Knows env _ t (x.pc t)
    rw [hpc]
    exact ⟨h2, hb⟩

theorem J.check {env : Env} {d : Dom} {x : Sys} (h : J env d x) {t : Nat} (op : Op) {p : Pending}
    (hpc : x.pc t = .check p) : J env d (x.step env (t, op)) := by
  have hk := h.knows t
  rw [hpc] at hk
  obtain ⟨ha, hb⟩ := hk
  rcases cache_step h.cinv ha with ⟨h1, h2⟩ | ⟨h1, h2⟩
  · have hf : ∀ x' : Sys, x'.st = x.st → x'.owner = x.owner → x'.cs = x.cs.step ⟨t, newText env p⟩ →
        (∀ u, u ≠ t → x'.pc u = x.pc u) → x'.lock = x.lock → Frame x x' t := by
      intro x' a b c e f
      exact frame_same (by rw [a]) (by rw [a]) b (fun u hu => by rw [c]; exact step_other x.cs ⟨t, newText env p⟩ hu) e
        fun l u _ hl => by rw [f]; exact hl
    cases hr : Css.parse (newText env p) with
    | some y =>
      have : x.step env (t, op) = { x.goto t (.checked p) with cs := x.cs.step ⟨t, newText env p⟩ } := by
        simp only [Sys.step, hpc, h1, h2, hr]
      rw [this]
      refine h.simple (t := t) (by rw [hpc]; rfl) (hf _ rfl rfl rfl (fun u hu => if_neg hu) rfl)
        (h.stay rfl rfl rfl fun u => ?_) (.inr ⟨newText env p, rfl⟩) ?_ rfl rfl rfl fun _ => rfl
      · by_cases e : u = t
        · subst e; simp [Sys.goto, hpc, Phase.pending]
        · simp [Sys.goto, e]
      · simp only [Sys.goto, if_pos]
        exact ⟨h1, fun _ => by rw [hr]; simp⟩
    | none =>
      have : x.step env (t, op) = { x.ret t p.op .panic with cs := x.cs.step ⟨t, newText env p⟩ } := by
        simp only [Sys.step, hpc, h1, h2, hr]
      rw [this]
      have hpd : (x.pc t).pending = some p := by rw [hpc]; rfl
      have hfin := finish_refused h.inv (h.pend hpd).1 hb hr
      refine h.simple (t := t) (by rw [hpc]; rfl) (hf _ rfl rfl rfl (fun u hu => if_neg hu) rfl)
        (finish_go h hpd (by rw [hfin]; rfl) rfl (fun u => ?_) (by rw [hfin]; rfl))
        (.inr ⟨newText env p, rfl⟩) ?_ rfl rfl rfl fun _ => rfl
      · by_cases e : u = t
        · subst e; simp [Sys.ret, Sys.goto, Phase.pending]
        · simp [Sys.ret, Sys.goto, e]
      · simp only [Sys.ret, Sys.goto, if_pos]
        exact h1
  · have : x.step env (t, op) = { x with cs := x.cs.step ⟨t, newText env p⟩ } := by
      simp only [Sys.step, hpc]
    rw [this]
    refine h.simple (t := t) (by rw [hpc]; rfl)
      (frame_same rfl rfl rfl (fun u hu => step_other x.cs ⟨t, newText env p⟩ hu) (fun _ _ => rfl) fun _ _ _ h => h)
      (h.stay rfl rfl rfl fun u => rfl) (.inr ⟨newText env p, rfl⟩) ?_ rfl rfl rfl fun _ => rfl
    show Knows env _ t (x.pc t)
    rw [hpc]
    exact ⟨h2, hb⟩

theorem J.made {env : Env} {d : Dom} {x : Sys} (h : J env d x) {t : Nat} (op : Op) {mh : Nat} {kind : Kind} {src : Source}
    {fault : Bool} {sheet : Option Sheet} (hpc : x.pc t = .made mh kind src fault sheet) :
    J env d (x.step env (t, op)) := by
  have hk := h.knows t
  rw [hpc] at hk
  obtain ⟨hidle, ⟨i, hm, ho⟩, hs⟩ := hk
  have hb : ((Op.create mh kind src fault).boundTo x.st).all (fun i => x.owner i = t) = true := by
    simp [Op.boundTo, hm, ho]
  have hpd : (x.pc t).pending = none := by rw [hpc]; rfl
  obtain ⟨m, hmi⟩ : ∃ m, x.st.mgrs[i]? = some m := ⟨_, List.getElem?_eq_getElem (mgrOf_lt h.inv hm)⟩
  have hman : ∀ j, (Op.create mh kind src fault).manager x.st = some j → x.owner j = t := by
    intro j hj
    rw [show (Op.create mh kind src fault).manager x.st = x.st.mgrOf mh from rfl, hm] at hj
    cases hj
    exact ho
  -- A call that ends here.
  have ends : ∀ x' : Sys, lookup mh kind src fault x.st = none →
      x' = { x.ret t (.create mh kind src fault) (create env mh kind src fault x.st).2 with
        st := (create env mh kind src fault x.st).1 } → J env d x' := by
    rintro x' hl rfl
    have hop : ∀ mh' kind' src' fault', Op.create mh kind src fault = .create mh' kind' src' fault' →
        lookup mh' kind' src' fault' x.st = none := by
      rintro _ _ _ _ ⟨⟩
      exact hl
    refine h.simple (t := t) (by rw [hpc]; rfl)
      (frame_op h (op := .create mh kind src fault) hman rfl (fun _ _ => rfl) rfl (fun u hu => if_neg hu) rfl)
      (h.go (t, .create mh kind src fault) fun calls =>
        ⟨calls ++ [(t, .create mh kind src fault)], (call_whole env t _ x calls hpd hb hop).trans ?_⟩)
      (.inl rfl) ?_ rfl rfl rfl (ent_whole env (.create mh kind src fault) h.inv hop)
    · simp only [abs, Locks.whole, Sys.ret, Sys.goto]
      congr 1
      funext u
      by_cases e : u = t
      · subst e; simp [hpc, Phase.pending]
      · simp [e]
    · simp only [Sys.ret, Sys.goto, if_pos]
      exact hidle
  cases sheet with
  | none =>
    have : x.step env (t, op) = x.ret t (.create mh kind src fault) (.err .parse) := by
      simp only [Sys.step, hpc]
    rw [this]
    refine ends _ (by simp [lookup, hm, hmi, ← hs]) ?_
    have : create env mh kind src fault x.st = (x.st, .err .parse) := by simp only [create, hm, hmi, ← hs]
    rw [this]
    rfl
  | some ast =>
    cases hl : lookup mh kind (.sheet ast) fault x.st with
    | none =>
      have : x.step env (t, op) = { x.ret t (.create mh kind src fault) (create env mh kind src fault x.st).2 with
          st := (create env mh kind src fault x.st).1 } := by
        simp only [Sys.step, hpc, hl, create_src env mh kind fault x.st hs.symm]
      rw [this]
      exact ends _ (by rw [lookup_src mh kind fault x.st hs.symm, hl]; rfl) rfl
    | some p =>
      have hl' : lookup mh kind src fault x.st = some { p with src := src } := by
        rw [lookup_src mh kind fault x.st hs.symm, hl]; rfl
      have : x.step env (t, op) =
          { x.goto t (if env.debugParser then .check { p with src := src } else .checked { p with src := src }) with
            st := { x.st with ctr := x.st.ctr + 1 } } := by
        simp only [Sys.step, hpc, hl]
      rw [this]
      refine h.simple (t := t) (by rw [hpc]; rfl)
        (frame_same rfl rfl rfl (fun _ _ => rfl) (fun u hu => if_neg hu) fun _ _ _ h => h)
        (h.go (t, .create mh kind src fault) fun calls => ⟨calls ++ [(t, .create mh kind src fault)], ?_⟩)
        (.inl rfl) ?_ rfl rfl rfl fun _ => rfl
      · rw [step_call env t _ x calls hpd hb]
        simp only [Threads.call]
        rw [show lookup mh kind src fault (abs x calls).st = some { p with src := src } from hl']
        simp only [abs, Sys.goto]
        congr 1
        funext u
        by_cases e : u = t
        · cases env.debugParser <;> simp [e, Phase.pending]
        · simp [e]
      · simp only [Sys.goto, if_pos]
        cases hdb : env.debugParser with
        | true =>
          refine ⟨fun s hs => ?_, hdb⟩
          have hs : (x.cs.pc t).arg = some s := hs
          rw [hidle] at hs
          cases hs
        | false => exact ⟨hidle, fun e => by rw [hdb] at e; cases e⟩

theorem frame_finish {env : Env} {d : Dom} {x x' : Sys} (h : J env d x) {t : Nat} {p : Pending}
    (hpd : (x.pc t).pending = some p) (hc : Passed env p) (hst : x'.st = (finish env p x.st).1) (ho : x'.owner = x.owner)
    (hcs : x'.cs = x.cs) (hpc : ∀ u, u ≠ t → x'.pc u = x.pc u)
    (hlock : ∀ l u, u ≠ t → x.lock l = some u → x'.lock l = some u) : Frame x x' t where
  mgrs := by
    intro j m hm hj
    rw [hst]
    exact (finish_facts h.inv (h.pend hpd).1 hc).1 j m hm fun e => hj (e ▸ (h.pend hpd).2)
  mgrOf := by
    intro mh j hm hj
    rw [hst]
    exact (finish_facts h.inv (h.pend hpd).1 hc).2.1 mh j hm fun e => hj (e ▸ (h.pend hpd).2)
  owner := by intro j _; rw [ho]
  cs := by intro u _; rw [hcs]
  pc := hpc
  lock := hlock

theorem J.checked {env : Env} {d : Dom} {x : Sys} (h : J env d x) {t : Nat} (op : Op) {p : Pending}
    (hpc : x.pc t = .checked p) : J env d (x.step env (t, op)) := by
  have hk := h.knows t
  rw [hpc] at hk
  obtain ⟨hidle, hpass⟩ := hk
  have hpd : (x.pc t).pending = some p := by rw [hpc]; rfl
  cases hl : logOf x.st p.i with
  | none =>
    have : x.step env (t, op) = { x.ret t p.op (finish env p x.st).2 with st := (finish env p x.st).1 } := by
      simp only [Sys.step, hpc, hl]
    rw [this]
    refine h.simple (t := t) (by rw [hpc]; rfl)
      (frame_finish h hpd hpass rfl rfl rfl (fun u hu => if_neg hu) fun _ _ _ h => h)
      (finish_go h hpd (by rw [finish_passed hpass]) rfl (fun u => ?_) (by rw [finish_passed hpass]; rfl))
      (.inl rfl) ?_ rfl rfl rfl ((finish_facts h.inv (h.pend hpd).1 hpass).2.2.1 hl)
    · by_cases e : u = t
      · subst e; simp [Sys.ret, Sys.goto, Phase.pending]
      · simp [Sys.ret, Sys.goto, e]
    · simp only [Sys.ret, Sys.goto, if_pos]
      exact hidle
  | some l =>
    cases hk : x.lock l with
    | some u =>
      have : x.step env (t, op) = x := by simp only [Sys.step, hpc, hl, hk]
      rw [this]
      exact h
    | none =>
      have : x.step env (t, op) = { x.goto t (.locked p l) with lock := upd x.lock l (some t) } := by
        simp only [Sys.step, hpc, hl, hk, h.dead l]; rfl
      rw [this]
      have hne : ∀ l' u, x.lock l' = some u → u ≠ t ∧ l' ≠ l := by
        intro l' u hu
        refine ⟨?_, ?_⟩
        · rintro rfl
          have := h.lock l' u hu
          rw [hpc] at this
          cases this
        · rintro rfl
          rw [hk] at hu
          cases hu
      have hf : Frame x { x.goto t (.locked p l) with lock := upd x.lock l (some t) } t :=
        frame_same rfl rfl rfl (fun _ _ => rfl) (fun u hu => if_neg hu)
          fun l' u _ hl' => by simp [upd, (hne l' u hl').2, hl']
      refine ⟨h.stay rfl rfl rfl fun u => ?_, h.cinv, h.clock, h.held, fun u => ?_, fun l' u hu => ?_, fun l' => ?_, h.dead⟩
      · by_cases e : u = t
        · subst e; simp [Sys.goto, hpc, Phase.pending]
        · simp [Sys.goto, e]
      · by_cases e : u = t
        · subst e
          simp only [Sys.goto, if_pos]
          exact ⟨hidle, hpass, hl, by simp [upd]⟩
        · exact Knows.frame h hf e
      · simp only [upd] at hu
        by_cases e : l' = l
        · rw [if_pos e] at hu
          cases hu
          simp [Sys.goto, Phase.holds, e]
        · rw [if_neg e] at hu
          simp only [Sys.goto, if_neg (hne l' u hu).1]
          exact h.lock l' u hu
      · show x.data l' = ent x.st l' ++ _
        rw [h.data l']
        simp only [upd, Sys.goto]
        by_cases e : l' = l
        · subst e
          simp [hk, Phase.extra]
        · rw [if_neg e]
          cases hu : x.lock l' with
          | none => rfl
          | some u => simp only [if_neg (hne l' u hu).1]

theorem J.locked {env : Env} {d : Dom} {x : Sys} (h : J env d x) {t : Nat} (op : Op) {p : Pending} {l : Nat}
    (hpc : x.pc t = .locked p l) : J env d (x.step env (t, op)) := by
  have hk := h.knows t
  rw [hpc] at hk
  obtain ⟨hidle, hpass, hl, hlk⟩ := hk
  have : x.step env (t, op) = { x.goto t (.pushed p l) with data := upd x.data l (x.data l ++ [newEntry env p]) } := by
    simp only [Sys.step, hpc]
  rw [this]
  have hne : ∀ l' u, x.lock l' = some u → l' ≠ l → u ≠ t := by
    rintro l' u hu hll rfl
    have := h.lock l' u hu
    rw [hpc] at this
    simp only [Phase.holds, Option.some.injEq] at this
    exact hll this.symm
  have hf : Frame x { x.goto t (.pushed p l) with data := upd x.data l (x.data l ++ [newEntry env p]) } t :=
    frame_same rfl rfl rfl (fun _ _ => rfl) (fun u hu => if_neg hu) fun _ _ _ h => h
  refine ⟨h.stay rfl rfl rfl fun u => ?_, h.cinv, h.clock, h.held, fun u => ?_, fun l' u hu => ?_, fun l' => ?_, h.dead⟩
  · by_cases e : u = t
    · subst e; simp [Sys.goto, hpc, Phase.pending]
    · simp [Sys.goto, e]
  · by_cases e : u = t
    · subst e
      simp only [Sys.goto, if_pos]
      exact ⟨hidle, hpass, hl, hlk⟩
    · exact Knows.frame h hf e
  · have hu : x.lock l' = some u := hu
    have h0 := h.lock l' u hu
    by_cases e : u = t
    · subst e
      rw [hpc] at h0
      simpa [Sys.goto, Phase.holds] using h0
    · simpa [Sys.goto, e] using h0
  · show upd x.data l (x.data l ++ [newEntry env p]) l' = ent x.st l' ++ (match x.lock l' with
      | none => [] | some t' => (if t' = t then Phase.pushed p l else x.pc t').extra env)
    simp only [upd]
    by_cases e : l' = l
    · subst e
      have := h.data l'
      rw [hlk] at this
      simp only [hpc, Phase.extra, List.append_nil] at this
      simp [hlk, this, Phase.extra]
    · rw [if_neg e, h.data l']
      cases hu : x.lock l' with
      | none => rfl
      | some u => simp only [if_neg (hne l' u hu e)]

theorem J.pushed {env : Env} {d : Dom} {x : Sys} (h : J env d x) {t : Nat} (op : Op) {p : Pending} {l : Nat}
    (hpc : x.pc t = .pushed p l) : J env d (x.step env (t, op)) := by
  have hk := h.knows t
  rw [hpc] at hk
  obtain ⟨hidle, hpass, hl, hlk⟩ := hk
  have hpd : (x.pc t).pending = some p := by rw [hpc]; rfl
  obtain ⟨hnp, hent⟩ := (finish_facts h.inv (h.pend hpd).1 hpass).2.2.2 l hl
  have hb : ((finish env p x.st).2 == Out.panic) = false := by simpa using hnp
  have : x.step env (t, op) = { x.ret t p.op (finish env p x.st).2 with
      st := (finish env p x.st).1
      lock := upd x.lock l none
      dead := upd x.dead l (x.dead l || (finish env p x.st).2 == .panic) } := by
    simp only [Sys.step, hpc]
  rw [this]
  have hne : ∀ l' u, x.lock l' = some u → l' ≠ l → u ≠ t := by
    rintro l' u hu hll rfl
    have := h.lock l' u hu
    rw [hpc] at this
    simp only [Phase.holds, Option.some.injEq] at this
    exact hll this.symm
  have hf : Frame x { x.ret t p.op (finish env p x.st).2 with
      st := (finish env p x.st).1
      lock := upd x.lock l none
      dead := upd x.dead l (x.dead l || (finish env p x.st).2 == .panic) } t := by
    refine frame_finish h hpd hpass rfl rfl rfl (fun u hu => if_neg hu) fun l' u hu hl' => ?_
    simp only [upd]
    rw [if_neg]
    · exact hl'
    · rintro rfl
      rw [hlk] at hl'
      cases hl'
      exact hu rfl
  refine ⟨finish_go h hpd (by rw [finish_passed hpass]) rfl (fun u => ?_) (by rw [finish_passed hpass]; rfl),
    h.cinv, h.clock, h.held, fun u => ?_, fun l' u hu => ?_, fun l' => ?_, fun l' => ?_⟩
  · by_cases e : u = t
    · subst e; simp [Sys.ret, Sys.goto, Phase.pending]
    · simp [Sys.ret, Sys.goto, e]
  · by_cases e : u = t
    · subst e
      simp only [Sys.ret, Sys.goto, if_pos]
      exact hidle
    · exact Knows.frame h hf e
  · simp only [upd] at hu
    by_cases e : l' = l
    · rw [if_pos e] at hu; cases hu
    · rw [if_neg e] at hu
      have h0 := h.lock l' u hu
      simpa [Sys.ret, Sys.goto, hne l' u hu e] using h0
  · show x.data l' = ent (finish env p x.st).1 l' ++ (match upd x.lock l none l' with
      | none => [] | some t' => (if t' = t then Phase.idle else x.pc t').extra env)
    rw [hent l', h.data l']
    simp only [upd]
    by_cases e : l' = l
    · subst e
      simp [hlk, hpc, Phase.extra]
    · rw [if_neg e, if_neg e]
      cases hu : x.lock l' with
      | none => rfl
      | some u => simp only [if_neg (hne l' u hu e)]
  · simp [upd, h.dead, hb]

theorem J.step {env : Env} {d : Dom} {x : Sys} (h : J env d x) (c : Nat × Op) : J env d (x.step env c) := by
  obtain ⟨t, op⟩ := c
  cases hpc : x.pc t with
  | idle =>
    simp only [Sys.step, hpc]
    by_cases hb : (op.boundTo x.st).all (fun i => x.owner i = t) = true
    · rw [if_pos hb]; exact h.begin hpc hb
    · rw [if_neg hb]; exact h
  | source => exact h.source op hpc
  | made => exact h.made op hpc
  | check => exact h.check op hpc
  | checked => exact h.checked op hpc
  | locked => exact h.locked op hpc
  | pushed => exact h.pushed op hpc

theorem J.run {env : Env} {d : Dom} : ∀ (cs : List (Nat × Op)) {x : Sys}, J env d x → J env d (x.run env cs)
  | [], _, h => h
  | c :: cs, _, h => J.run cs (h.step c)

/-! ## Progress -/

/-- The steps of a call of `from_str` that are left. -/
def crest : Cache.Pc → Nat
  | .idle => 6
  | p => rest p

/-- The steps of its call that a thread has still to make. -/
def rank (x : Sys) (t : Nat) : Nat :=
  match x.pc t with
  | .idle => 0
  | .source _ _ _ _ => 10 + crest (x.cs.pc t)
  | .made _ _ _ _ _ => 10
  | .check _ => 3 + crest (x.cs.pc t)
  | .checked _ => 3
  | .locked _ _ => 2
  | .pushed _ _ => 1

theorem crest_le (p : Cache.Pc) : 1 ≤ crest p ∧ crest p ≤ 6 := by cases p <;> simp [crest, rest]

theorem rank_le (x : Sys) (t : Nat) : rank x t ≤ 16 := by
  have := crest_le (x.cs.pc t)
  unfold rank
  split <;> omega

/-- The thread waits for a mutex. -/
def Waits (x : Sys) (t : Nat) : Prop :=
  match x.pc t with
  | .source _ _ _ _ | .check _ => (∃ s, x.cs.pc t = .wantLock s) ∧ x.cs.lock ≠ none
  | .checked p => ∃ l, logOf x.st p.i = some l ∧ x.lock l ≠ none
  | _ => False

theorem cache_moves {cs : Cache.State} {t : Nat} {a : Str} (hw : ¬ ((∃ s, cs.pc t = .wantLock s) ∧ cs.lock ≠ none))
    (h : (cs.step ⟨t, a⟩).pc t ≠ .idle) : crest ((cs.step ⟨t, a⟩).pc t) < crest (cs.pc t) := by
  have he : ∀ p, p ≠ Cache.Pc.idle → crest p = rest p := by
    intro p hp
    cases p with
    | idle => exact absurd rfl hp
    | _ => rfl
  rcases own cs ⟨t, a⟩ with ⟨hp, hp', -, -⟩ | ⟨s, hp, u, hu, h'⟩ | ⟨s, hp, _, hp', -, -⟩ | ⟨s, hs, _, hs', hr, _, -, -⟩ | ⟨s, r, hp, hp', hl, -⟩
  · simp only at hp hp'
    rw [hp, hp']; simp [crest, rest]
  · exact absurd ⟨⟨s, hp⟩, by rw [hu]; simp⟩ hw
  · simp only at hp hp'
    rw [hp, hp']; simp [crest, rest]
  · simp only at hs hs' hr
    rw [he _ h, he _ (by intro e; rw [e] at hs; cases hs)]
    exact hr
  · exact absurd hp' h

theorem step_pc_other (env : Env) (x : Sys) (c : Nat × Op) {u : Nat} (hu : u ≠ c.1) :
    (x.step env c).pc u = x.pc u ∧ (x.step env c).cs.pc u = x.cs.pc u := by
  obtain ⟨t, op⟩ := c
  simp only at hu
  have hc : ∀ a, (x.cs.step ⟨t, a⟩).pc u = x.cs.pc u := fun a => step_other x.cs ⟨t, a⟩ hu
  cases hpc : x.pc t with
  | idle =>
    simp only [Sys.step, hpc]
    split
    · unfold Sys.begin
      split <;> (repeat' split) <;> simp [Sys.goto, hu]
    · exact ⟨rfl, rfl⟩
  | source => simp only [Sys.step, hpc]; split <;> simp [Sys.goto, hu, hc]
  | made _ _ _ _ sheet =>
    cases sheet with
    | none => simp [Sys.step, hpc, Sys.ret, Sys.goto, hu]
    | some _ => simp only [Sys.step, hpc]; split <;> simp [Sys.ret, Sys.goto, hu]
  | check => simp only [Sys.step, hpc]; (repeat' split) <;> simp [Sys.ret, Sys.goto, hu, hc]
  | checked => simp only [Sys.step, hpc]; (repeat' split) <;> simp [Sys.ret, Sys.goto, hu]
  | locked => simp [Sys.step, hpc, Sys.goto, hu]
  | pushed => simp [Sys.step, hpc, Sys.ret, Sys.goto, hu]

theorem rank_other (env : Env) (x : Sys) (c : Nat × Op) {u : Nat} (hu : u ≠ c.1) : rank (x.step env c) u = rank x u := by
  simp only [rank, step_pc_other env x c hu]

theorem waits_stays (env : Env) {x : Sys} {t : Nat} (h : Waits x t) (op : Op) : x.step env (t, op) = x := by
  have hcs : ∀ s a, x.cs.pc t = .wantLock s → x.cs.lock ≠ none → x.cs.step ⟨t, a⟩ = x.cs := by
    intro s a hs hl
    cases hk : x.cs.lock with
    | none => exact absurd hk hl
    | some u => simp [Cache.State.step, hs, hk]
  unfold Waits at h
  cases hpc : x.pc t with
  | source mh kind css fault =>
    rw [hpc] at h
    obtain ⟨⟨s, hs⟩, hl⟩ := h
    simp only [Sys.step, hpc, hcs s css hs hl, hs]
  | check p =>
    rw [hpc] at h
    obtain ⟨⟨s, hs⟩, hl⟩ := h
    simp only [Sys.step, hpc, hcs s (newText env p) hs hl, hs]
  | checked p =>
    rw [hpc] at h
    obtain ⟨l, h1, h2⟩ := h
    cases hk : x.lock l with
    | none => exact absurd hk h2
    | some u => simp only [Sys.step, hpc, h1, hk]
  | _ => rw [hpc] at h; exact h.elim

theorem moves {env : Env} {d : Dom} {x : Sys} (h : J env d x) {t : Nat} (hin : x.Inside t) (hw : ¬ Waits x t) (op : Op) :
    rank (x.step env (t, op)) t < rank x t := by
  unfold Waits at hw
  cases hpc : x.pc t with
  | idle => exact absurd hpc hin
  | source mh kind css fault =>
    rw [hpc] at hw
    have hc := crest_le (x.cs.pc t)
    by_cases e : (x.cs.step ⟨t, css⟩).pc t = .idle
    · simp only [Sys.step, hpc, e, rank, Sys.goto, if_true]
      omega
    · have := cache_moves hw e
      simp only [Sys.step, hpc, rank]
      omega
  | made mh kind src fault sheet =>
    cases sheet with
    | none => simp [Sys.step, hpc, Sys.ret, Sys.goto, rank]
    | some ast =>
      cases hl : lookup mh kind (.sheet ast) fault x.st with
      | none => simp [Sys.step, hpc, hl, Sys.ret, Sys.goto, rank]
      | some p =>
        have hc := crest_le (x.cs.pc t)
        cases hd : env.debugParser <;> simp [Sys.step, hpc, hl, hd, Sys.goto, rank]
        omega
  | check p =>
    rw [hpc] at hw
    have hc := crest_le (x.cs.pc t)
    by_cases e : (x.cs.step ⟨t, newText env p⟩).pc t = .idle
    · cases hr : lastResult (x.cs.step ⟨t, newText env p⟩) with
      | none => simp only [Sys.step, hpc, e, hr, rank, Sys.ret, Sys.goto, if_true]; omega
      | some y => simp only [Sys.step, hpc, e, hr, rank, Sys.goto, if_true]; omega
    · have := cache_moves hw e
      simp only [Sys.step, hpc, rank]
      omega
  | checked p =>
    rw [hpc] at hw
    cases hl : logOf x.st p.i with
    | none => simp [Sys.step, hpc, hl, Sys.ret, Sys.goto, rank]
    | some l =>
      cases hk : x.lock l with
      | some u => exact absurd ⟨l, hl, by rw [hk]; simp⟩ hw
      | none => simp [Sys.step, hpc, hl, hk, h.dead l, Sys.goto, rank]
  | locked p l => simp [Sys.step, hpc, Sys.goto, rank]
  | pushed p l => simp [Sys.step, hpc, Sys.ret, Sys.goto, rank]

theorem canMove_iff {env : Env} {d : Dom} {x : Sys} (h : J env d x) {t : Nat} (hin : x.Inside t) :
    x.CanMove env t ↔ ¬ Waits x t := by
  refine ⟨fun hm hw => hm .renderStatic (waits_stays env hw _), fun hw op e => ?_⟩
  have := moves h hin hw op
  rw [e] at this
  omega

theorem owner_phase {env : Env} {d : Dom} {x : Sys} (h : J env d x) {t : Nat} (ht : x.cs.lock = some t) :
    (x.pc t).holds = none ∧ x.Inside t ∧ ¬ Waits x t := by
  have hr := h.held t ht
  have hk := h.knows t
  have hne : x.cs.pc t ≠ .idle := by intro e; rw [e] at hr; simp [rest] at hr
  have hnw : ∀ s, x.cs.pc t ≠ .wantLock s := by intro s e; rw [e] at hr; simp [rest] at hr
  unfold Waits Sys.Inside
  cases hpc : x.pc t with
  | source => exact ⟨rfl, by simp, fun e => hnw _ e.1.choose_spec⟩
  | check => exact ⟨rfl, by simp, fun e => hnw _ e.1.choose_spec⟩
  | idle => rw [hpc] at hk; exact absurd hk hne
  | _ => rw [hpc] at hk; exact absurd hk.1 hne

theorem owner_moves {env : Env} {d : Dom} {x : Sys} (h : J env d x) {t : Nat} {m : Mutex} (ho : x.Owns t m) :
    x.Inside t ∧ x.CanMove env t := by
  have : x.Inside t ∧ ¬ Waits x t := by
    cases m with
    | cache => exact (owner_phase h ho).2
    | data l =>
      have := h.lock l t ho
      unfold Waits Sys.Inside
      cases hpc : x.pc t with
      | locked => exact ⟨by simp, id⟩
      | pushed => exact ⟨by simp, id⟩
      | _ => rw [hpc] at this; cases this
  exact ⟨this.1, (canMove_iff h this.1).2 this.2⟩

theorem one_mutex {env : Env} {d : Dom} {x : Sys} (h : J env d x) {t : Nat} {m m' : Mutex} (ho : x.Owns t m)
    (ho' : x.Owns t m') : m = m' := by
  cases m with
  | cache =>
    cases m' with
    | cache => rfl
    | data l =>
      have h1 := h.lock l t ho'
      rw [(owner_phase h ho).1] at h1
      cases h1
  | data l =>
    have h1 := h.lock l t ho
    cases m' with
    | cache => rw [(owner_phase h ho').1] at h1; cases h1
    | data l' =>
      have h2 := h.lock l' t ho'
      rw [h1] at h2
      cases h2
      rfl

theorem some_moves {env : Env} {d : Dom} {x : Sys} (h : J env d x) {t : Nat} (hin : x.Inside t) :
    ∃ u, x.Inside u ∧ x.CanMove env u := by
  by_cases hw : Waits x t
  · have key : ∃ u m, x.Owns u m := by
      unfold Waits at hw
      cases hpc : x.pc t with
      | source =>
        rw [hpc] at hw
        obtain ⟨u, hu⟩ := Option.ne_none_iff_exists'.1 hw.2
        exact ⟨u, .cache, hu⟩
      | check =>
        rw [hpc] at hw
        obtain ⟨u, hu⟩ := Option.ne_none_iff_exists'.1 hw.2
        exact ⟨u, .cache, hu⟩
      | checked =>
        rw [hpc] at hw
        obtain ⟨l, -, hl⟩ := hw
        obtain ⟨u, hu⟩ := Option.ne_none_iff_exists'.1 hl
        exact ⟨u, .data l, hu⟩
      | _ => rw [hpc] at hw; exact hw.elim
    obtain ⟨u, m, hu⟩ := key
    exact ⟨u, owner_moves h hu⟩
  · exact ⟨t, hin, (canMove_iff h hin).2 hw⟩

theorem srun_append (env : Env) : ∀ (a b : List (Nat × Op)) (x : Sys), x.run env (a ++ b) = (x.run env a).run env b
  | [], _, _ => rfl
  | _ :: a, b, _ => srun_append env a b _

theorem ending_le {env : Env} {d : Dom} {ts : List Nat} (hn : ts.Nodup) : ∀ (cs : List (Nat × Op)) (x : Sys), J env d x →
    OnlyFinishing env x cs → (∀ t, x.Inside t → t ∈ ts) →
    cs.length + (ts.map fun t => rank (x.run env cs) t).sum ≤ (ts.map fun t => rank x t).sum
  | [], _, _, _, _ => by simp [Sys.run]
  | c :: cs, x, hJ, h, hts => by
    obtain ⟨hin, hmv, h⟩ := h
    have hlt := moves hJ hin ((canMove_iff hJ hin).1 hmv) c.2
    have hts' : ∀ t, (x.step env c).Inside t → t ∈ ts := by
      intro t ht
      by_cases e : t = c.1
      · exact e ▸ hts _ hin
      · refine hts t ?_
        unfold Sys.Inside at ht ⊢
        rwa [(step_pc_other env x c e).1] at ht
    have h1 := ending_le hn cs (x.step env c) (hJ.step c) h hts'
    have h2 := sum_at hn (hts _ hin) id (rank x) (rank (x.step env c)) fun u hu => rank_other env x c hu
    simp only [id] at h2
    simp only [List.length_cons, Sys.run]
    have hlt : rank (x.step env c) c.1 < rank x c.1 := hlt
    omega

/-- There is a way to the end. -/
theorem can_end {env : Env} {d : Dom} {ts : List Nat} (hn : ts.Nodup) : ∀ (n : Nat) (x : Sys), J env d x →
    (∀ t, x.Inside t → t ∈ ts) → (ts.map fun t => rank x t).sum ≤ n →
    ∃ cs, OnlyFinishing env x cs ∧ ∀ t, ¬ (x.run env cs).Inside t
  | n, x, hJ, hts, hle => by
    by_cases hall : ∀ t, ¬ x.Inside t
    · exact ⟨[], trivial, hall⟩
    · obtain ⟨t, ht⟩ := Classical.not_forall.1 hall
      obtain ⟨u, hu, hmv⟩ := some_moves hJ (Classical.not_not.1 ht)
      have hlt := moves hJ hu ((canMove_iff hJ hu).1 hmv) .renderStatic
      have h2 := sum_at hn (hts _ hu) id (rank x) (rank (x.step env (u, .renderStatic)))
        fun v hv => rank_other env x (u, .renderStatic) hv
      simp only [id] at h2
      cases n with
      | zero => omega
      | succ n =>
        obtain ⟨cs, h3, h4⟩ := can_end hn n (x.step env (u, .renderStatic)) (hJ.step _) (fun v hv => by
          by_cases e : v = u
          · exact e ▸ hts _ hu
          · refine hts v ?_
            unfold Sys.Inside at hv ⊢
            rwa [(step_pc_other env x (u, .renderStatic) e).1] at hv) (by omega)
        exact ⟨(u, .renderStatic) :: cs, ⟨hu, hmv, h3⟩, h4⟩

/-! ## Order of the calls of one thread -/

/-- What a step does to the list of finished calls and to the call its thread is in. -/
theorem step_done (env : Env) (x : Sys) (t : Nat) (op : Op) :
    (x.step env (t, op) = x) ∨
    ((x.step env (t, op)).done = x.done ∧ ((x.step env (t, op)).pc t).call = some (((x.pc t).call).getD op)) ∨
    (∃ out, (x.step env (t, op)).done = x.done ++ [⟨t, ((x.pc t).call).getD op, out⟩] ∧
      ((x.step env (t, op)).pc t).call = none) := by
  cases hpc : x.pc t with
  | idle =>
    simp only [Sys.step, hpc]
    split
    · cases op with
      | create => simp only [Sys.begin]; (repeat' split) <;> simp [Sys.goto, Phase.call, hpc]
      | readData => simp only [Sys.begin]; (repeat' split) <;> simp [Phase.call, hpc]
      | styleData => simp only [Sys.begin]; (repeat' split) <;> simp [Phase.call, hpc]
      | _ => simp [Sys.begin, Phase.call, hpc]
    · exact .inl rfl
  | source => simp only [Sys.step, hpc]; split <;> simp [Sys.goto, Phase.call, hpc]
  | made mh kind src fault sheet =>
    cases sheet with
    | none => simp [Sys.step, hpc, Sys.ret, Sys.goto, Phase.call]
    | some ast =>
      simp only [Sys.step, hpc]
      split
      · simp [Sys.ret, Sys.goto, Phase.call]
      · rename_i p hl
        have := (lookup_ok hl).2.1
        simp only [Pending.op, Op.create.injEq] at this
        cases env.debugParser <;> simp [Sys.goto, Phase.call, Pending.op, this]
  | check => simp only [Sys.step, hpc]; (repeat' split) <;> simp [Sys.ret, Sys.goto, Phase.call, hpc]
  | checked => simp only [Sys.step, hpc]; (repeat' split) <;> simp [Sys.ret, Sys.goto, Phase.call]
  | locked => simp [Sys.step, hpc, Sys.goto, Phase.call]
  | pushed => simp [Sys.step, hpc, Sys.ret, Sys.goto, Phase.call]

theorem begun_eq (env : Env) (t : Nat) : ∀ (cs : List (Nat × Op)) (x : Sys),
    (x.done.filter (fun e => e.t = t)).map Done.op ++ (x.pc t).call.toList ++ begun env t x cs =
      ((x.run env cs).done.filter (fun e => e.t = t)).map Done.op ++ ((x.run env cs).pc t).call.toList
  | [], x => by simp [Sys.run, begun]
  | c :: cs, x => by
    rw [Sys.run, ← begun_eq env t cs (x.step env c), begun, ← List.append_assoc]
    congr 1
    obtain ⟨u, op⟩ := c
    by_cases e : u = t
    · subst e
      rcases step_done env x u op with h | ⟨h1, h2⟩ | ⟨out, h1, h2⟩
      · simp only [h]
        rw [if_neg]
        · simp
        · rintro ⟨-, a, b | b⟩
          · exact b a
          · exact b rfl
      · rw [h1]
        cases hc : (x.pc u).call with
        | none =>
          rw [hc] at h2
          rw [if_pos ⟨rfl, rfl, .inl (by rw [h2]; simp)⟩, h2]
          simp
        | some o =>
          rw [hc] at h2
          rw [if_neg (by rintro ⟨-, a, -⟩; cases a), h2]
          simp
      · rw [h1, h2]
        cases hc : (x.pc u).call with
        | none =>
          rw [if_pos ⟨rfl, rfl, .inr (by simp)⟩]
          simp
        | some o =>
          rw [if_neg (by rintro ⟨-, a, -⟩; cases a)]
          simp
    · rw [if_neg (fun a => e a.1), (step_pc_other env x (u, op) (fun a => e a.symm)).1]
      have hd : ((x.step env (u, op)).done.filter (fun e => e.t = t)) = x.done.filter (fun e => e.t = t) := by
        rcases step_done env x u op with h | ⟨h1, -⟩ | ⟨out, h1, -⟩
        · rw [h]
        · rw [h1]
        · rw [h1, List.filter_append]; simp [e]
      rw [hd]
      simp

end Locks
