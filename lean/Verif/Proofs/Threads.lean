import Verif.Model.Threads
import Verif.Proofs.Order
import Verif.Proofs.Load

/-!
# Threads and histories
-/

namespace Manager

/-- The same state with another value of the counter. -/
def St.withCtr (s : St) (n : Nat) : St := { s with ctr := n }

/-- The same environment with other results of `get_entropy`. -/
def Env.withEntropy (env : Env) (e : Nat → Str) : Env := { env with entropy := e }

theorem withCtr_self (s : St) : s.withCtr s.ctr = s := rfl

theorem withCtr_withCtr (s : St) (n m : Nat) : (s.withCtr n).withCtr m = s.withCtr m := rfl

theorem Inv.withCtr {s : St} (h : Inv s) (n : Nat) : Inv (s.withCtr n) := h.setCtr n

theorem release_withCtr (env : Env) (e : Nat → Str) (p : Nat) (s : St) (n : Nat) :
    (s.withCtr n).release (env.withEntropy e) p = (s.release env p).withCtr n := by
  simp only [St.release]
  rw [show (s.withCtr n).refs p = s.refs p from rfl]
  split
  · rw [show (s.withCtr n).heap = s.heap from rfl]
    cases s.heap[p]? <;> rfl
  · rfl

theorem releaseAll_withCtr (env : Env) (e : Nat → Str) : ∀ (ps : List Nat) (s : St) (n : Nat),
    releaseAll (env.withEntropy e) ps (s.withCtr n) = (releaseAll env ps s).withCtr n
  | [], _, _ => rfl
  | p :: ps, s, n => by
    simp only [releaseAll, release_withCtr, releaseAll_withCtr env e ps]

theorem modMgr_withCtr (s : St) (i : Nat) (f : Mgr → Mgr) (n : Nat) :
    (s.withCtr n).modMgr i f = (s.modMgr i f).withCtr n := rfl

theorem withBorrow_withCtr {α : Type} (i : Nat) (f g : St → St × Res α) (s : St) (n k : Nat)
    (hf : ∀ m, s.mgrs[i]? = some m →
      g ((s.modMgr i (fun m => { m with borrowed := true })).withCtr n) =
      ((f (s.modMgr i (fun m => { m with borrowed := true }))).1.withCtr k,
        (f (s.modMgr i (fun m => { m with borrowed := true }))).2))
    (h : (∃ m, s.mgrs[i]? = some m ∧ m.borrowed = false) ∨ k = n) :
    withBorrow i g (s.withCtr n) = ((withBorrow i f s).1.withCtr k, (withBorrow i f s).2) := by
  unfold withBorrow
  rw [show (s.withCtr n).mgrs = s.mgrs from rfl]
  cases hm : s.mgrs[i]? with
  | none =>
    rcases h with ⟨m, h, -⟩ | rfl
    · rw [hm] at h; cases h
    · rfl
  | some m =>
    simp only
    split
    · rename_i hb
      rcases h with ⟨m', h, h'⟩ | rfl
      · rw [hm] at h; cases h; rw [h'] at hb; cases hb
      · rfl
    · rw [modMgr_withCtr, hf m hm]
      rfl

theorem loadBody_withCtr (i : Nat) : ∀ (es : List Entry) (s : St) (n : Nat),
    loadBody i es (s.withCtr n) = ((loadBody i es s).1.withCtr n, (loadBody i es s).2)
  | [], _, _ => rfl
  | x :: es, s, n => by
    simp only [loadBody]
    rw [show (s.withCtr n).mgrs = s.mgrs from rfl, show (s.withCtr n).heap = s.heap from rfl]
    cases s.mgrs[i]? with
    | none => rfl
    | some m =>
      simp only
      cases regGet m.reg x.key with
      | none =>
        exact loadBody_withCtr i es (St.modMgr { s with heap := s.heap ++ [_] } i
          (fun m => { m with reg := regInsert m.reg x.key s.heap.length })) n
      | some p =>
        simp only
        cases s.heap[p]? with
        | none => rfl
        | some c =>
          simp only
          split
          · exact loadBody_withCtr i es s n
          · rfl

theorem register_withCtr (i : Nat) (key : Key) (p : Nat) (s : St) (n : Nat) :
    register i key p (s.withCtr n) = ((register i key p s).1.withCtr n, (register i key p s).2) := by
  unfold register
  rw [show (s.withCtr n).mgrs = s.mgrs from rfl]
  cases s.mgrs[i]? <;> rfl

theorem createRest_withCtr (env : Env) (e : Nat → Str) (fault : Bool) (i : Nat) (key : Key) (ent : Str) (s : St)
    (n : Nat) : createRest (env.withEntropy e) fault i key ent (s.withCtr n) =
      ((createRest env fault i key ent s).1.withCtr n, (createRest env fault i key ent s).2) := by
  unfold createRest
  rw [show (s.withCtr n).mgrs = s.mgrs from rfl, show (s.withCtr n).heap = s.heap from rfl]
  cases s.mgrs[i]? with
  | none => rfl
  | some m =>
    simp only
    rw [show (env.withEntropy e).debugParser = env.debugParser from rfl]
    generalize key.ast.toStyleStr (if key.isGlobal then none else some (makeId key ent)) = text
    split
    · rfl
    · cases m.log with
      | none =>
        simp only
        rw [show mount (env.withEntropy e) = mount env from rfl, show (s.withCtr n).dom = s.dom from rfl]
        split
        · have := release_withCtr env e s.heap.length { s with heap := s.heap ++ [⟨makeId key ent, key, text, i, .created⟩] } n
          simp only [St.withCtr] at this ⊢
          rw [this]
        · rename_i d hd
          have := register_withCtr i key s.heap.length
            { s with heap := s.heap ++ [⟨makeId key ent, key, text, i, .created⟩], dom := d } n
          simp only [St.withCtr] at this ⊢
          rw [this]
          cases register i key s.heap.length
            { s with heap := s.heap ++ [⟨makeId key ent, key, text, i, .created⟩], dom := d } with
          | mk s' r => cases r <;> rfl
      | some l =>
        simp only
        rw [show (s.withCtr n).logs = s.logs from rfl]
        cases s.logs[l]? with
        | none => rfl
        | some log =>
          simp only
          split
          · rfl
          · have := register_withCtr i key s.heap.length
              { s with heap := s.heap ++ [⟨makeId key ent, key, text, i, .created⟩], logs := s.logs.set l { log with entries := log.entries ++ [{ key, id := makeId key ent, text := text }] } } n
            simp only [St.withCtr] at this ⊢
            rw [this]
            cases register i key s.heap.length
              { s with heap := s.heap ++ [⟨makeId key ent, key, text, i, .created⟩], logs := s.logs.set l { log with entries := log.entries ++ [{ key, id := makeId key ent, text := text }] } } with
            | mk s' r => cases r <;> rfl

/-- The two halves of `get_or_register_style` are the whole of it. -/
theorem createBody_eq (env : Env) (fault : Bool) (i : Nat) (key : Key) (s : St) (m : Mgr) (hm : s.mgrs[i]? = some m)
    (hk : regGet m.reg key = none) :
    createBody env fault i key s = createRest env fault i key (env.entropy s.ctr) (s.withCtr (s.ctr + 1)) := by
  unfold createBody createRest
  rw [show (s.withCtr (s.ctr + 1)).mgrs = s.mgrs from rfl, hm]
  simp only [hk]
  rfl

/-- Operations that end without the counter give the same result for every counter. -/
theorem step_withCtr (env : Env) (e : Nat → Str) (op : Op) (s : St) (n : Nat)
    (hop : ∀ mh kind src fault, op = .create mh kind src fault → lookup mh kind src fault s = none) :
    Manager.step (env.withEntropy e) op (s.withCtr n) = ((Manager.step env op s).1.withCtr n, (Manager.step env op s).2) := by
  cases op with
  | renderStatic => rfl
  | newMgr pref container append writer =>
    simp only [Manager.step, newMgr]
    rw [show (s.withCtr n).writerFree writer = s.writerFree writer from by cases writer <;> rfl,
      show (s.withCtr n).dom = s.dom from rfl, show (env.withEntropy e).wasm = env.wasm from rfl,
      show (env.withEntropy e).head = env.head from rfl,
      show (s.withCtr n).takeWriter writer = s.takeWriter writer from by cases writer <;> rfl]
    repeat' (first | rfl | split)
  | cloneMgr mh =>
    simp only [Manager.step]
    rw [show (s.withCtr n).mgrOf mh = s.mgrOf mh from rfl]
    cases s.mgrOf mh <;> rfl
  | dropMgr mh =>
    simp only [Manager.step]
    rw [show (s.withCtr n).mgrOf mh = s.mgrOf mh from rfl]
    cases s.mgrOf mh with
    | none => rfl
    | some i =>
      simp only
      rw [show (St.mgrAlive { (s.withCtr n) with mgrHandles := (s.withCtr n).mgrHandles.set mh none } i) =
        (St.mgrAlive { s with mgrHandles := s.mgrHandles.set mh none } i) from rfl]
      split
      · rfl
      · rw [show (s.withCtr n).mgrs = s.mgrs from rfl]
        cases s.mgrs[i]? with
        | none => rfl
        | some m =>
          simp only
          rw [← releaseAll_withCtr env e]
          rfl
  | create mh kind src fault =>
    have hl := hop mh kind src fault rfl
    simp only [lookup] at hl
    simp only [Manager.step, create]
    rw [show (s.withCtr n).mgrOf mh = s.mgrOf mh from rfl, show (s.withCtr n).mgrs = s.mgrs from rfl]
    cases hi : s.mgrOf mh with
    | none => rfl
    | some i =>
      simp only [hi] at hl ⊢
      cases hm : s.mgrs[i]? with
      | none => rfl
      | some m =>
        simp only [hm] at hl ⊢
        cases hs : src.sheet? with
        | none => rfl
        | some ast =>
          simp only [hs] at hl ⊢
          have hw : getOrRegister (env.withEntropy e) fault i (kind.key m.pref ast) (s.withCtr n) =
              ((getOrRegister env fault i (kind.key m.pref ast) s).1.withCtr n,
                (getOrRegister env fault i (kind.key m.pref ast) s).2) := by
            refine withBorrow_withCtr i _ _ s n n ?_ (.inr rfl)
            intro m' hm'
            have hb : (s.modMgr i (fun m => { m with borrowed := true })).mgrs[i]? =
                some { m with borrowed := true } := by simp [St.modMgr, hm]
            unfold createBody
            rw [show ((s.modMgr i (fun m => { m with borrowed := true })).withCtr n).mgrs =
              (s.modMgr i (fun m => { m with borrowed := true })).mgrs from rfl, hb]
            simp only
            cases hg : regGet m.reg (kind.key m.pref ast) with
            | none => rw [hg] at hl; cases hl
            | some p => rfl
          rw [hw]
          cases getOrRegister env fault i (kind.key m.pref ast) s with
          | mk s' r => cases r <;> rfl
  | clone h =>
    simp only [Manager.step]
    rw [show (s.withCtr n).contentOf h = s.contentOf h from rfl]
    cases s.contentOf h <;> rfl
  | drop h =>
    simp only [Manager.step]
    rw [show (s.withCtr n).contentOf h = s.contentOf h from rfl]
    cases s.contentOf h with
    | none => rfl
    | some p =>
      simp only
      rw [← release_withCtr env e]
      rfl
  | unregister h =>
    simp only [Manager.step]
    rw [show (s.withCtr n).contentOf h = s.contentOf h from rfl, show (s.withCtr n).heap = s.heap from rfl]
    cases s.contentOf h with
    | none => rfl
    | some p =>
      simp only
      cases s.heap[p]? with
      | none => rfl
      | some c =>
        simp only
        rw [show (s.withCtr n).mgrAlive c.mgr = s.mgrAlive c.mgr from rfl]
        split
        · have hw : unregisterStyle (env.withEntropy e) c.mgr c.key (s.withCtr n) =
              ((unregisterStyle env c.mgr c.key s).1.withCtr n, (unregisterStyle env c.mgr c.key s).2) := by
            refine withBorrow_withCtr c.mgr _ _ s n n ?_ (.inr rfl)
            intro m hm
            rw [show ((s.modMgr c.mgr (fun m => { m with borrowed := true })).withCtr n).mgrs =
              (s.modMgr c.mgr (fun m => { m with borrowed := true })).mgrs from rfl]
            cases (s.modMgr c.mgr (fun m => { m with borrowed := true })).mgrs[c.mgr]? with
            | none => rfl
            | some m =>
              simp only
              cases regGet m.reg c.key with
              | none => rfl
              | some p =>
                simp only [modMgr_withCtr]
                rw [release_withCtr env e]
          rw [hw]
          cases unregisterStyle env c.mgr c.key s with
          | mk s' r => cases r <;> rfl
        · rfl
  | load mh data =>
    simp only [Manager.step]
    rw [show (s.withCtr n).mgrOf mh = s.mgrOf mh from rfl]
    cases s.mgrOf mh with
    | none => rfl
    | some i =>
      simp only
      have hw : loadStyleData i data (s.withCtr n) = ((loadStyleData i data s).1.withCtr n, (loadStyleData i data s).2) :=
        withBorrow_withCtr i _ _ s n n (fun m _ => loadBody_withCtr i data _ n) (.inr rfl)
      rw [hw]
      cases loadStyleData i data s with
      | mk s' r => cases r <;> rfl
  | readData l =>
    simp only [Manager.step]
    rw [show (s.withCtr n).logs = s.logs from rfl]
    cases s.logs[l]? with
    | none => rfl
    | some log => simp only; split <;> rfl
  | styleData mh =>
    simp only [Manager.step]
    rw [show (s.withCtr n).mgrOf mh = s.mgrOf mh from rfl, show (s.withCtr n).mgrs = s.mgrs from rfl,
      show (s.withCtr n).logs = s.logs from rfl]
    cases s.mgrOf mh with
    | none => rfl
    | some i =>
      simp only
      cases (s.mgrs[i]?).bind Mgr.log with
      | none => rfl
      | some l =>
        simp only
        cases s.logs[l]? <;> rfl
  | page i ch =>
    simp only [Manager.step]
    rw [show (s.withCtr n).dom = s.dom from rfl]
    split <;> rfl

theorem step_ctr (env : Env) (op : Op) (s : St)
    (hop : ∀ mh kind src fault, op = .create mh kind src fault → lookup mh kind src fault s = none) :
    (Manager.step env op s).1.ctr = s.ctr := by
  have := step_withCtr env env.entropy op s s.ctr hop
  rw [withCtr_self, show env.withEntropy env.entropy = env from rfl] at this
  rw [this]
  rfl

theorem boundTo_eq (s : St) (op : Op) : op.boundTo s = op.manager s := by
  cases op <;> rfl

/-- What a call in progress relies on. -/
structure Pending.Ok (p : Pending) (s : St) : Prop where
  mgrOf : s.mgrOf p.mh = some p.i
  reg : ∃ (m : Mgr) (ast : Sheet), s.mgrs[p.i]? = some m ∧ p.src.sheet? = some ast ∧ p.key = p.kind.key m.pref ast ∧
    regGet m.reg p.key = none

theorem lookup_ok {mh : Nat} {kind : Kind} {src : Source} {fault : Bool} {s : St} {p : Pending}
    (h : lookup mh kind src fault s = some p) : p.Ok s ∧ p.op = .create mh kind src fault ∧ p.n = s.ctr := by
  simp only [lookup] at h
  split at h
  · cases h
  · rename_i i hi
    split at h
    · cases h
    · rename_i m hm
      split at h
      · cases h
      · rename_i ast hs
        split at h
        · cases h
        · rename_i hg
          cases h
          exact ⟨⟨hi, m, ast, hm, hs, rfl, hg⟩, rfl, rfl⟩

theorem Pending.Ok.withCtr {p : Pending} {s : St} (h : p.Ok s) (n : Nat) : p.Ok (s.withCtr n) := ⟨h.mgrOf, h.reg⟩

/-- The end of a creation is the whole creation at that time. -/
theorem finish_eq (env : Env) (e : Nat → Str) {p : Pending} {s : St} (hi : Inv s) (h : p.Ok s) (k : Nat)
    (he : e k = env.entropy p.n) :
    Manager.step (env.withEntropy e) p.op (s.withCtr k) = ((p.finish env s).1.withCtr (k + 1), (p.finish env s).2) := by
  obtain ⟨m, ast, h2, h3, h4, h5⟩ := h.reg
  have hb := hi.borrow m (List.mem_of_getElem? h2)
  simp only [Manager.step, Pending.op, create]
  rw [show (s.withCtr k).mgrOf p.mh = s.mgrOf p.mh from rfl, show (s.withCtr k).mgrs = s.mgrs from rfl, h.mgrOf]
  simp only [h2, h3]
  rw [← h4]
  have hw : getOrRegister (env.withEntropy e) p.fault p.i p.key (s.withCtr k) =
      ((withBorrow p.i (createRest env p.fault p.i p.key (env.entropy p.n)) s).1.withCtr (k + 1),
        (withBorrow p.i (createRest env p.fault p.i p.key (env.entropy p.n)) s).2) := by
    refine withBorrow_withCtr p.i _ _ s k (k + 1) ?_ (.inl ⟨m, h2, hb⟩)
    intro m' hm'
    have hb : (s.modMgr p.i (fun m => { m with borrowed := true })).mgrs[p.i]? =
        some { m with borrowed := true } := by simp [St.modMgr, h2]
    rw [createBody_eq (env.withEntropy e) p.fault p.i p.key
      ((s.modMgr p.i (fun m => { m with borrowed := true })).withCtr k) { m with borrowed := true } hb h5]
    rw [show (env.withEntropy e).entropy = e from rfl,
      show ((s.modMgr p.i (fun m => { m with borrowed := true })).withCtr k).ctr = k from rfl, he, withCtr_withCtr]
    exact createRest_withCtr env e p.fault p.i p.key (env.entropy p.n) _ (k + 1)
  rw [hw]
  simp only [Pending.finish]
  cases withBorrow p.i (createRest env p.fault p.i p.key (env.entropy p.n)) s with
  | mk s' r => cases r <;> rfl

theorem mgrOf_keep (env : Env) (op : Op) {s : St} (hi : Inv s) {mh i : Nat} (h : s.mgrOf mh = some i)
    (hop : op.manager s ≠ some i) : (Manager.step env op s).1.mgrOf mh = some i := by
  have hlt : mh < s.mgrHandles.length := by
    simp only [St.mgrOf] at h
    cases hm : s.mgrHandles[mh]? with
    | none => rw [hm] at h; cases h
    | some x => exact (List.getElem?_eq_some_iff.1 hm).1
  have app : ∀ l : List (Option Nat), ((s.mgrHandles ++ l)[mh]?).join = some i := by
    intro l
    rw [List.getElem?_append_left hlt]
    exact h
  have set : ∀ mh' j, s.mgrOf mh' = some j → some j ≠ some i → ((s.mgrHandles.set mh' none)[mh]?).join = some i := by
    intro mh' j hj hne
    rw [List.getElem?_set_ne]
    · exact h
    · rintro rfl
      rw [h] at hj
      exact hne hj.symm
  have ht := step_tr env hi op
  generalize hr : Manager.step env op s = r at ht
  obtain ⟨s', out⟩ := r
  simp only at ht ⊢
  have hop' := hop
  cases ht with
  | newMgr => exact app _
  | cloneMgr => exact app _
  | dropMgr mh' j _ hj => exact set mh' j hj (by simpa [Op.manager, hj] using hop)
  | dropMgrLast mh' j _ m0 hj =>
    rw [St.mgrOf, (releaseAll_fields env _ _).2.2.2.1]
    exact set mh' j hj (by simpa [Op.manager, hj] using hop)
  | drop => rw [St.mgrOf, (release_fields env _ _).2.2.2.1]; exact h
  | unregister => rw [St.mgrOf, (release_fields env _ _).2.2.2.1]; exact h
  | load mh' i' data _ _ r _ h' hr _ => rw [St.mgrOf, hr.mgrs.1]; exact h
  | _ => exact h

theorem Pending.Ok.keep (env : Env) (op : Op) {s : St} (hi : Inv s) {p : Pending} (h : p.Ok s)
    (hop : op.manager s ≠ some p.i) : p.Ok (Manager.step env op s).1 := by
  obtain ⟨m, ast, h2, h3, h4, h5⟩ := h.reg
  refine ⟨mgrOf_keep env op hi h.mgrOf hop, m, ast, ?_, h3, h4, h5⟩
  exact ((step_tr env hi op).isolated hi h2 hop).1

theorem finish_ctr (env : Env) (p : Pending) (s : St) : (p.finish env s).1.ctr = s.ctr := by
  have := withBorrow_withCtr p.i (createRest env p.fault p.i p.key (env.entropy p.n))
    (createRest env p.fault p.i p.key (env.entropy p.n)) s s.ctr s.ctr
    (fun m _ => createRest_withCtr env env.entropy p.fault p.i p.key (env.entropy p.n) _ _) (.inr rfl)
  rw [withCtr_self] at this
  simp only [Pending.finish]
  cases hw : withBorrow p.i (createRest env p.fault p.i p.key (env.entropy p.n)) s with
  | mk s' r =>
    rw [hw] at this
    have h1 : s'.ctr = s.ctr := congrArg (fun x => (Prod.fst x).ctr) this
    cases r <;> exact h1

theorem outs_append (env : Env) : ∀ (a b : List Op) (s : St),
    outs env (a ++ b) s = outs env a s ++ outs env b (Manager.run env a s)
  | [], _, _ => rfl
  | x :: a, b, s => by
    simp only [List.cons_append, outs, Manager.run, outs_append env a b]

/-- What holds of all threads at any time; `used` are the values of the counter that
finished creations have used, in the order of their ends. -/
structure TInv (env : Env) (d : Dom) (c : Threads) (used : List Nat) : Prop where
  seq : ∀ e : Nat → Str, (∀ (k : Nat) n, used[k]? = some n → e k = env.entropy n) →
    Manager.run (env.withEntropy e) (c.done.map Done.op) (St.init d) = c.st.withCtr used.length ∧
    outs (env.withEntropy e) (c.done.map Done.op) (St.init d) = c.done.map Done.out
  nodup : used.Nodup
  lt : ∀ n ∈ used, n < c.st.ctr
  cover : ∀ n, n < c.st.ctr → n ∈ used ∨ ∃ t p, c.pc t = some p ∧ p.n = n
  pend : ∀ t p, c.pc t = some p → p.Ok c.st ∧ c.owner p.i = t ∧ p.n < c.st.ctr ∧ p.n ∉ used
  pinj : ∀ t u p q, c.pc t = some p → c.pc u = some q → p.n = q.n → t = u
  inv : Inv c.st
  order : ∀ t, (c.calls.filter (fun x => x.1 = t)).map Prod.snd =
    (c.done.filter (fun x => x.t = t)).map Done.op ++ (c.pc t).toList.map Pending.op

theorem TInv.init (env : Env) (d : Dom) : TInv env d (Threads.init d) [] where
  seq := fun _ _ => ⟨rfl, rfl⟩
  nodup := List.nodup_nil
  lt := by simp
  cover := by intro n h; simp [Threads.init, St.init] at h
  pend := by intro t p h; simp [Threads.init] at h
  pinj := by intro t u p q h; simp [Threads.init] at h
  inv := Inv.init d
  order := by intro t; simp [Threads.init]

theorem run_snoc (env : Env) (ops : List Op) (op : Op) (s : St) :
    Manager.run env (ops ++ [op]) s = (Manager.step env op (Manager.run env ops s)).1 := by
  rw [run_append]; rfl

theorem outs_snoc (env : Env) (ops : List Op) (op : Op) (s : St) :
    outs env (ops ++ [op]) s = outs env ops s ++ [(Manager.step env op (Manager.run env ops s)).2] := by
  rw [outs_append]; rfl

theorem TInv.whole {env : Env} {d : Dom} {c : Threads} {used : List Nat} (h : TInv env d c used) {t : Nat} {op : Op}
    (ht : c.pc t = none) (hb : ∀ i, op.boundTo c.st = some i → c.owner i = t)
    (hop : ∀ mh kind src fault, op = .create mh kind src fault → lookup mh kind src fault c.st = none)
    {owner : Nat → Nat} (ho : ∀ i, i < c.st.mgrs.length → owner i = c.owner i) :
    TInv env d
      { st := (Manager.step env op c.st).1, owner, pc := c.pc, calls := c.calls ++ [(t, op)],
        done := c.done ++ [⟨t, op, (Manager.step env op c.st).2⟩] } used where
  seq := by
    intro e he
    obtain ⟨h1, h2⟩ := h.seq e he
    simp only [List.map_append, List.map_cons, List.map_nil]
    rw [run_snoc, outs_snoc, h1, h2, step_withCtr env e op c.st used.length hop]
    exact ⟨rfl, rfl⟩
  nodup := h.nodup
  lt := by
    intro n hn
    show n < (Manager.step env op c.st).1.ctr
    rw [step_ctr env op c.st hop]; exact h.lt n hn
  cover := by
    intro n hn
    have hn : n < (Manager.step env op c.st).1.ctr := hn
    rw [step_ctr env op c.st hop] at hn
    exact h.cover n hn
  pend := by
    intro u p hu
    obtain ⟨h1, h2, h3, h4⟩ := h.pend u p hu
    have hut : u ≠ t := by rintro rfl; rw [ht] at hu; cases hu
    obtain ⟨m, ast, hm, -⟩ := h1.reg
    have hlt : p.i < c.st.mgrs.length := (List.getElem?_eq_some_iff.1 hm).1
    refine ⟨h1.keep env op h.inv ?_, ?_, ?_, h4⟩
    · intro hp
      rw [← boundTo_eq] at hp
      exact hut (h2.symm.trans (hb _ hp))
    · show owner p.i = u
      rw [ho _ hlt, h2]
    · show p.n < (Manager.step env op c.st).1.ctr
      rw [step_ctr env op c.st hop]; exact h3
  pinj := h.pinj
  inv := inv_step env op h.inv
  order := by
    intro u
    have := h.order u
    simp only [List.filter_append, List.map_append, this]
    by_cases hu : t = u
    · subst hu
      simp [ht]
    · simp [hu]

theorem TInv.start {env : Env} {d : Dom} {c : Threads} {used : List Nat} (h : TInv env d c used) {t : Nat} {p : Pending}
    (ht : c.pc t = none) (hok : p.Ok c.st) (ho : c.owner p.i = t) (hn : p.n = c.st.ctr) :
    TInv env d
      { c with
        st := { c.st with ctr := c.st.ctr + 1 }
        pc := fun u => if u = t then some p else c.pc u
        calls := c.calls ++ [(t, p.op)] } used where
  seq := fun e he => h.seq e he
  nodup := h.nodup
  lt := fun n hu => Nat.lt_succ_of_lt (h.lt n hu)
  cover := by
    intro n hlt
    have hlt : n < c.st.ctr + 1 := hlt
    by_cases hc : n < c.st.ctr
    · rcases h.cover n hc with h1 | ⟨u, q, h1, h2⟩
      · exact .inl h1
      · refine .inr ⟨u, q, ?_, h2⟩
        have : u ≠ t := by rintro rfl; rw [ht] at h1; cases h1
        simp only [this, if_false]
        exact h1
    · exact .inr ⟨t, p, by simp, by omega⟩
  pend := by
    intro u q hu
    have hu : (if u = t then some p else c.pc u) = some q := hu
    split at hu
    · rename_i hut
      cases hu
      subst hut
      refine ⟨hok.withCtr _, ho, ?_, ?_⟩
      · show p.n < c.st.ctr + 1
        omega
      · intro hm
        have := h.lt _ hm
        omega
    · obtain ⟨h1, h2, h3, h4⟩ := h.pend u q hu
      exact ⟨h1.withCtr _, h2, Nat.lt_succ_of_lt h3, h4⟩
  pinj := by
    intro a b q r ha hb hqr
    have ha : (if a = t then some p else c.pc a) = some q := ha
    have hb : (if b = t then some p else c.pc b) = some r := hb
    split at ha <;> split at hb
    · rename_i h1 h2; rw [h1, h2]
    · cases ha
      have := (h.pend b r hb).2.2.1
      omega
    · cases hb
      have := (h.pend a q ha).2.2.1
      omega
    · exact h.pinj a b q r ha hb hqr
  inv := h.inv.setCtr _
  order := by
    intro u
    have := h.order u
    simp only [List.filter_append, List.map_append, this]
    by_cases hu : t = u
    · subst hu
      simp [ht]
    · have hu' : u ≠ t := fun h => hu h.symm
      simp [hu, hu']

theorem TInv.finish {env : Env} {d : Dom} {c : Threads} {used : List Nat} (h : TInv env d c used) {t : Nat} {p : Pending}
    (ht : c.pc t = some p) : TInv env d (c.finish env t p) (used ++ [p.n]) := by
  obtain ⟨hok, ho, hlt, hnu⟩ := h.pend t p ht
  have hfin := finish_eq env (fun _ => env.entropy p.n) h.inv hok 0 rfl
  have hctr := finish_ctr env p c.st
  have hinv : Inv (p.finish env c.st).1 := by
    have := inv_step (env.withEntropy (fun _ => env.entropy p.n)) p.op (h.inv.withCtr 0)
    rw [hfin] at this
    exact this.withCtr (p.finish env c.st).1.ctr
  have hpc : ∀ u q, (c.finish env t p).pc u = some q → u ≠ t ∧ c.pc u = some q := by
    intro u q hu
    have hu : (if u = t then none else c.pc u) = some q := hu
    split at hu
    · cases hu
    · rename_i hut; exact ⟨hut, hu⟩
  refine ⟨?_, ?_, ?_, ?_, ?_, ?_, hinv, ?_⟩
  · intro e he
    obtain ⟨h1, h2⟩ := h.seq e (by
      intro k n hk
      refine he k n ?_
      rw [List.getElem?_append_left (List.getElem?_eq_some_iff.1 hk).1]
      exact hk)
    have hek : e used.length = env.entropy p.n := he _ _ (by simp)
    have hdone : (c.finish env t p).done = c.done ++ [⟨t, p.op, (p.finish env c.st).2⟩] := rfl
    rw [hdone]
    simp only [List.map_append, List.map_cons, List.map_nil]
    rw [run_snoc, outs_snoc, h1, h2, finish_eq env e h.inv hok used.length hek]
    refine ⟨?_, rfl⟩
    simp only [List.length_append, List.length_cons, List.length_nil]
    rfl
  · rw [List.nodup_append]
    refine ⟨h.nodup, by simp, ?_⟩
    intro a ha b hb
    simp only [List.mem_singleton] at hb
    subst hb
    rintro rfl
    exact hnu ha
  · intro n hn
    show n < (p.finish env c.st).1.ctr
    rw [hctr]
    rcases List.mem_append.1 hn with hn | hn
    · exact h.lt n hn
    · simp only [List.mem_singleton] at hn
      subst hn; exact hlt
  · intro n hn
    have hn : n < (p.finish env c.st).1.ctr := hn
    rw [hctr] at hn
    rcases h.cover n hn with h1 | ⟨u, q, h1, h2⟩
    · exact .inl (by simp [h1])
    · by_cases hut : u = t
      · subst hut
        rw [ht] at h1; cases h1
        exact .inl (by simp [h2])
      · refine .inr ⟨u, q, ?_, h2⟩
        show (if u = t then none else c.pc u) = some q
        rw [if_neg hut]; exact h1
  · intro u q hu
    obtain ⟨hut, hu⟩ := hpc u q hu
    obtain ⟨h1, h2, h3, h4⟩ := h.pend u q hu
    refine ⟨?_, h2, ?_, ?_⟩
    · have := (h1.withCtr 0).keep (env.withEntropy (fun _ => env.entropy p.n)) p.op (h.inv.withCtr 0) (by
        show c.st.mgrOf p.mh ≠ some q.i
        rw [hok.mgrOf]
        intro he
        rw [Option.some.inj he] at ho
        exact hut (h2.symm.trans ho))
      rw [hfin] at this
      exact this.withCtr (p.finish env c.st).1.ctr
    · show q.n < (p.finish env c.st).1.ctr
      rw [hctr]; exact h3
    · intro hm
      rcases List.mem_append.1 hm with hm | hm
      · exact h4 hm
      · simp only [List.mem_singleton] at hm
        exact hut (h.pinj u t q p hu ht hm)
  · intro a b q r ha hb hqr
    exact h.pinj a b q r (hpc a q ha).2 (hpc b r hb).2 hqr
  · intro u
    have := h.order u
    show ((c.calls).filter (fun x => x.1 = u)).map Prod.snd =
      ((c.done ++ [(⟨t, p.op, (p.finish env c.st).2⟩ : Done)]).filter (fun x => x.t = u)).map Done.op ++
        (if u = t then none else c.pc u).toList.map Pending.op
    rw [this]
    by_cases hu : t = u
    · subst hu
      simp [ht, List.filter_append]
    · have hu' : u ≠ t := fun h => hu h.symm
      simp [hu, hu', List.filter_append]

theorem TInv.step {env : Env} {d : Dom} {c : Threads} {used : List Nat} (h : TInv env d c used) (x : Nat × Op) :
    ∃ used', TInv env d (c.step env x) used' := by
  obtain ⟨t, op⟩ := x
  unfold Threads.step
  cases ht : c.pc t with
  | some p => exact ⟨_, h.finish ht⟩
  | none =>
    simp only
    split
    · rename_i hb
      have hb : ∀ i, op.boundTo c.st = some i → c.owner i = t := by
        intro i hi
        rw [hi] at hb
        simpa using hb
      refine ⟨used, ?_⟩
      unfold Threads.call
      cases op with
      | create mh kind src fault =>
        simp only
        cases hl : lookup mh kind src fault c.st with
        | none =>
          exact h.whole ht hb (by intro _ _ _ _ he; cases he; exact hl) (fun _ _ => rfl)
        | some p =>
          obtain ⟨h1, h2, h3⟩ := lookup_ok hl
          have := h.start (p := p) ht h1 (hb _ (by
            have := h1.mgrOf
            have hmh : p.mh = mh := by simp only [Pending.op, Op.create.injEq] at h2; exact h2.1
            rw [hmh] at this
            exact this)) h3
          rw [h2] at this
          exact this
      | newMgr pref container append writer =>
        refine h.whole ht hb (by intro _ _ _ _ he; cases he) ?_
        intro i hi
        have : i ≠ c.st.mgrs.length := by omega
        simp [this]
      | _ => exact h.whole ht hb (by intro _ _ _ _ he; cases he) (fun _ _ => rfl)
    · exact ⟨used, h⟩

theorem TInv.run {env : Env} {d : Dom} : ∀ (xs : List (Nat × Op)) {c : Threads} {used : List Nat}, TInv env d c used →
    ∃ used', TInv env d (Threads.run env xs c) used'
  | [], _, _, h => ⟨_, h⟩
  | x :: xs, _, _, h => by
    obtain ⟨u, h'⟩ := h.step x
    exact TInv.run xs h'

/-- A successful `newMgr`. -/
def Done.makesMgr (x : Done) : Bool :=
  match x.op, x.out with
  | .newMgr _ _ _ _, .mgr _ => true
  | _, _ => false

theorem mgrs_length (env : Env) (op : Op) {s : St} (hi : Inv s) (t : Nat) :
    (Manager.step env op s).1.mgrs.length =
      s.mgrs.length + if (Done.mk t op (Manager.step env op s).2).makesMgr then 1 else 0 := by
  have ht := step_tr env hi op
  generalize Manager.step env op s = r at ht
  obtain ⟨s', out⟩ := r
  simp only at ht ⊢
  cases ht with
  | newMgr => simp [Done.makesMgr]
  | dropMgrLast => simp [Done.makesMgr, (releaseAll_fields env _ _).2.2.1, St.modReg, St.modMgr]
  | drop => simp [Done.makesMgr, (release_fields env _ _).2.2.1]
  | unregister => simp [Done.makesMgr, (release_fields env _ _).2.2.1, St.modReg, St.modMgr]
  | load mh' i' data _ _ r _ h' hr _ => simp [Done.makesMgr, hr.mgrs_length]
  | invalid => cases op <;> simp [Done.makesMgr]
  | _ => simp [Done.makesMgr, St.modReg, St.modMgr]

theorem finish_mgrs_length (env : Env) {p : Pending} {s : St} (hi : Inv s) (h : p.Ok s) :
    (p.finish env s).1.mgrs.length = s.mgrs.length := by
  have h1 := finish_eq env (fun _ => env.entropy p.n) hi h 0 rfl
  have h2 := mgrs_length (env.withEntropy (fun _ => env.entropy p.n)) p.op (hi.withCtr 0) 0
  rw [h1] at h2
  exact h2

/-- The threads that made the managers, in order. -/
def Threads.makers (c : Threads) : List Nat := (c.done.filter Done.makesMgr).map Done.t

theorem makers_step {env : Env} {d : Dom} {c : Threads} {used : List Nat} (h : TInv env d c used) (x : Nat × Op)
    (ho : c.makers = (List.range c.st.mgrs.length).map c.owner) :
    (c.step env x).makers = (List.range (c.step env x).st.mgrs.length).map (c.step env x).owner := by
  obtain ⟨t, op⟩ := x
  unfold Threads.step
  cases ht : c.pc t with
  | some p =>
    have h1 := finish_mgrs_length env h.inv (h.pend t p ht).1
    show (c.finish env t p).makers = (List.range (c.finish env t p).st.mgrs.length).map (c.finish env t p).owner
    simp only [Threads.finish, Threads.makers, List.filter_append, List.map_append, h1]
    rw [← ho]
    have : (Done.mk t p.op (p.finish env c.st).2).makesMgr = false := rfl
    simp [List.filter, this, Threads.makers]
  | none =>
    simp only
    split
    · unfold Threads.call
      have hw : ∀ (owner : Nat → Nat), (∀ i, i < c.st.mgrs.length → owner i = c.owner i) →
          ((Done.mk t op (Manager.step env op c.st).2).makesMgr = true → owner c.st.mgrs.length = t) →
          ((c.done ++ [Done.mk t op (Manager.step env op c.st).2]).filter Done.makesMgr).map Done.t =
            (List.range (Manager.step env op c.st).1.mgrs.length).map owner := by
        intro owner h1 h2
        have h3 : (List.range c.st.mgrs.length).map c.owner = (List.range c.st.mgrs.length).map owner :=
          List.map_congr_left (fun i hi => (h1 i (List.mem_range.1 hi)).symm)
        rw [mgrs_length env op h.inv t, List.filter_append, List.map_append]
        rw [show (c.done.filter Done.makesMgr).map Done.t = _ from ho, h3]
        cases hm : (Done.mk t op (Manager.step env op c.st).2).makesMgr with
        | false => simp [List.filter, hm]
        | true => simp [List.filter, hm, List.range_succ, h2 hm]
      cases op with
      | create mh kind src fault =>
        simp only
        cases hl : lookup mh kind src fault c.st with
        | none => exact hw c.owner (fun _ _ => rfl) (by intro h; cases h)
        | some p => exact ho
      | newMgr pref container append writer =>
        refine hw _ ?_ ?_
        · intro i hi
          have : i ≠ c.st.mgrs.length := by omega
          simp [this]
        · simp
      | _ => exact hw c.owner (fun _ _ => rfl) (by intro h; cases h)
    · exact ho

theorem makers_run {env : Env} {d : Dom} : ∀ (xs : List (Nat × Op)) {c : Threads} {used : List Nat}, TInv env d c used →
    c.makers = (List.range c.st.mgrs.length).map c.owner →
    (Threads.run env xs c).makers = (List.range (Threads.run env xs c).st.mgrs.length).map (Threads.run env xs c).owner
  | [], _, _, _, ho => ho
  | x :: xs, _, _, h, ho => by
    obtain ⟨u, h'⟩ := h.step x
    exact makers_run xs h' (makers_step h x ho)

end Manager
