import Verif.Spec.Progress
import Verif.Proofs.Growth
import Verif.Proofs.Cache

/-! # Calls of several threads come to an end -/

seal Css.parse

namespace CacheP
open Cache

/-! ## Sums over threads -/

theorem sum_other {α : Type} {ts : List Nat} {t : Nat} (ht : t ∉ ts) (g : α → Nat) (f f' : Nat → α)
    (h : ∀ u, u ≠ t → f' u = f u) : (ts.map fun u => g (f' u)).sum = (ts.map fun u => g (f u)).sum := by
  congr 1
  refine List.map_congr_left fun u hu => ?_
  rw [h u fun e => ht (e ▸ hu)]

theorem sum_at {α : Type} {ts : List Nat} {t : Nat} (hn : ts.Nodup) (ht : t ∈ ts) (g : α → Nat) (f f' : Nat → α)
    (h : ∀ u, u ≠ t → f' u = f u) :
    (ts.map fun u => g (f' u)).sum + g (f t) = (ts.map fun u => g (f u)).sum + g (f' t) := by
  induction ts with
  | nil => cases ht
  | cons a ts ih =>
    rw [List.nodup_cons] at hn
    simp only [List.map_cons, List.sum_cons]
    by_cases e : a = t
    · subst e
      rw [sum_other hn.1 g f f' h]
      omega
    · have := ih hn.2 ((List.mem_cons.1 ht).resolve_left fun x => e x.symm)
      rw [h a e]
      omega

theorem filterMap_same {ts : List Nat} {f f' : Nat → Option Str} (h : ∀ u ∈ ts, f' u = f u) :
    ts.filterMap f' = ts.filterMap f := by
  induction ts with
  | nil => rfl
  | cons a ts ih =>
    simp only [List.filterMap_cons, h a (List.mem_cons_self ..), ih fun u hu => h u (List.mem_cons_of_mem _ hu)]

theorem texts_other {ts : List Nat} {t : Nat} (ht : t ∉ ts) (f f' : Nat → Option Str)
    (h : ∀ u, u ≠ t → f' u = f u) : ts.filterMap f' = ts.filterMap f :=
  filterMap_same fun u hu => h u fun e => ht (e ▸ hu)

theorem texts_at {ts : List Nat} {t : Nat} (hn : ts.Nodup) (ht : t ∈ ts) (f f' : Nat → Option Str) (s : Str)
    (h : ∀ u, u ≠ t → f' u = f u) (h0 : f t = none) (h1 : f' t = some s) :
    (ts.filterMap f').Perm (s :: ts.filterMap f) := by
  induction ts with
  | nil => cases ht
  | cons a ts ih =>
    rw [List.nodup_cons] at hn
    by_cases e : a = t
    · subst e
      rw [List.filterMap_cons_some h1, List.filterMap_cons_none h0, texts_other hn.1 f f' h]
    · have := ih hn.2 ((List.mem_cons.1 ht).resolve_left fun x => e x.symm)
      cases hf : f a with
      | none =>
        rw [List.filterMap_cons_none hf, List.filterMap_cons_none ((h a e).trans hf)]
        exact this
      | some x =>
        rw [List.filterMap_cons_some hf, List.filterMap_cons_some ((h a e).trans hf)]
        exact (this.cons x).trans (List.Perm.swap _ _ _)

/-! ## One step -/

theorem step_other (st : State) (c : Choice) {u : Nat} (h : u ≠ c.t) : (st.step c).pc u = st.pc u := by
  unfold State.step
  split <;> (try split) <;> simp [State.goto, h]

/-- The steps that a thread has still to make. -/
def rest : Pc → Nat
  | .idle => 0
  | .wantLock _ => 5
  | .locked _ => 4
  | .missed _ => 3
  | .parsed _ _ => 2
  | .returning _ _ => 1

theorem rest_le (p : Pc) : rest p ≤ 5 := by cases p <;> simp [rest]

/-- The steps that a thread has made at most. -/
def made : Pc → Nat
  | .idle => 0
  | .wantLock _ => 1
  | .locked _ => 2
  | .missed _ => 3
  | .parsed _ _ => 4
  | .returning _ _ => 5

theorem made_le (p : Pc) : made p ≤ 5 := by cases p <;> simp [made]

/-- What one step does to the thread that makes it. -/
inductive Own (st : State) (c : Choice) : Prop where
  | begins (h : st.pc c.t = .idle) (h' : (st.step c).pc c.t = .wantLock c.arg) (hl : (st.step c).log = st.log)
      (hk : (st.step c).lock = st.lock)
  | waits (s : Str) (h : st.pc c.t = .wantLock s) (u : Nat) (hu : st.lock = some u) (h' : st.step c = st)
  | takes (s : Str) (h : st.pc c.t = .wantLock s) (hu : st.lock = none) (h' : (st.step c).pc c.t = .locked s)
      (hl : (st.step c).log = st.log) (hk : (st.step c).lock = some c.t)
  | works (s : Str) (h : (st.pc c.t).arg = some s) (hw : ∀ s, st.pc c.t ≠ .wantLock s)
      (h' : ((st.step c).pc c.t).arg = some s) (hr : rest ((st.step c).pc c.t) < rest (st.pc c.t))
      (hm : made (st.pc c.t) < made ((st.step c).pc c.t)) (hl : (st.step c).log = st.log)
      (hk : (st.step c).lock = st.lock)
  | returns (s : Str) (r : Option Sheet) (h : st.pc c.t = .returning s r) (h' : (st.step c).pc c.t = .idle)
      (hl : (st.step c).log = st.log ++ [(s, r)]) (hk : (st.step c).lock = none)

theorem own (st : State) (c : Choice) : Own st c := by
  cases hpc : st.pc c.t with
  | idle =>
    refine .begins hpc ?_ ?_ ?_ <;> simp [State.step, hpc, State.goto]
  | wantLock s =>
    cases hk : st.lock with
    | some u => exact .waits s hpc u hk (by simp [State.step, hpc, hk])
    | none => refine .takes s hpc hk ?_ ?_ ?_ <;> simp [State.step, hpc, hk, State.goto]
  | locked s =>
    cases hg : st.cache.get s with
    | some x => refine .works s ?_ ?_ ?_ ?_ ?_ ?_ ?_ <;> simp [State.step, hpc, hg, State.goto, Pc.arg, rest, made]
    | none => refine .works s ?_ ?_ ?_ ?_ ?_ ?_ ?_ <;> simp [State.step, hpc, hg, State.goto, Pc.arg, rest, made]
  | missed s =>
    cases hg : Css.parse s with
    | some x => refine .works s ?_ ?_ ?_ ?_ ?_ ?_ ?_ <;> simp [State.step, hpc, hg, State.goto, Pc.arg, rest, made]
    | none => refine .works s ?_ ?_ ?_ ?_ ?_ ?_ ?_ <;> simp [State.step, hpc, hg, State.goto, Pc.arg, rest, made]
  | parsed s x =>
    refine .works s ?_ ?_ ?_ ?_ ?_ ?_ ?_ <;> simp [State.step, hpc, State.goto, Pc.arg, rest, made]
  | returning s r =>
    refine .returns s r hpc ?_ ?_ ?_ <;> simp [State.step, hpc, State.goto]

/-! ## The owner of the lock -/

/-- The lock is held by a thread that is past `lock()`. -/
def Held (st : State) : Prop := ∀ u, st.lock = some u → 0 < rest (st.pc u) ∧ rest (st.pc u) ≤ 4

theorem Held.step {st : State} (h : Held st) (c : Choice) : Held (st.step c) := by
  intro u hu
  rcases own st c with ⟨hp, _, _, hk⟩ | ⟨s, _, _, _, h'⟩ | ⟨s, _, hl, hp', _, hk⟩ | ⟨s, ha, hw, ha', hr, _, _, hk⟩ | ⟨s, r, _, _, _, hk⟩
  · rw [hk] at hu
    have := h u hu
    rw [step_other st c (by rintro rfl; rw [hp] at this; simp [rest] at this)]
    exact this
  · rw [h'] at hu ⊢; exact h u hu
  · rw [hk] at hu
    cases hu
    rw [hp']; simp [rest]
  · rw [hk] at hu
    have := h u hu
    by_cases e : u = c.t
    · subst e
      refine ⟨?_, by omega⟩
      cases hq : (st.step c).pc c.t <;> rw [hq] at ha' <;> simp [Pc.arg, rest] at ha' ⊢
    · rw [step_other st c e]; exact this
  · rw [hk] at hu; cases hu

theorem Held.run : ∀ {st : State}, Held st → ∀ cs, Held (st.run cs)
  | _, h, [] => h
  | _, h, c :: cs => Held.run (h.step c) cs

theorem Held.init : Held State.init := by intro u hu; cases hu

theorem run_append (st : State) (cs ds : List Choice) : st.run (cs ++ ds) = (st.run cs).run ds := by
  induction cs generalizing st with
  | nil => rfl
  | cons c cs ih => exact ih _

/-- A thread with the lock can move. -/
theorem held_moves {st : State} {u : Nat} (h : 0 < rest (st.pc u) ∧ rest (st.pc u) ≤ 4) : st.Inside u ∧ st.CanMove u := by
  refine ⟨fun e => by rw [e] at h; simp [rest] at h, fun a e => ?_⟩
  rcases own st ⟨u, a⟩ with ⟨hp, _, _, _⟩ | ⟨s, hp, _, _, _⟩ | ⟨s, hp, _, _, _, _⟩ | ⟨s, _, _, _, hr, _, _, _⟩ | ⟨s, r, hp, hp', _, _⟩
  · simp only at hp; rw [hp] at h; simp [rest] at h
  · simp only at hp; rw [hp] at h; simp [rest] at h
  · simp only at hp; rw [hp] at h; simp [rest] at h
  · simp only at hr; rw [e] at hr; omega
  · simp only at hp hp'; rw [hp'] at e; rw [← e] at hp; cases hp

theorem deadlock_free {st : State} (hH : Held st) {t : Nat} (h : st.Inside t) :
    ∃ u, st.Inside u ∧ st.CanMove u := by
  cases hk : st.lock with
  | some u => exact ⟨u, held_moves (hH u hk)⟩
  | none =>
    refine ⟨t, h, fun a e => ?_⟩
    rcases own st ⟨t, a⟩ with ⟨hp, _, _, _⟩ | ⟨s, hp, u, hu, _⟩ | ⟨s, hp, _, hp', _, _⟩ | ⟨s, _, _, _, hr, _, _, _⟩ | ⟨s, r, hp, hp', _, _⟩
    · exact h hp
    · rw [hk] at hu; cases hu
    · simp only at hp hp'; rw [hp', hp] at e; cases e
    · simp only at hr; rw [e] at hr; omega
    · simp only at hp hp'; rw [hp', hp] at e; cases e

/-- The owner of the lock gets to the end of its call. -/
theorem owner_returns (more : List Choice) : ∀ {st : State}, Locked st → Held st → Inv st → ∀ {u : Nat}, st.lock = some u →
    rest (st.pc u) ≤ turns u more → ∃ s pre post, (st.pc u).arg = some s ∧ more = pre ++ post ∧
      turns u pre ≤ rest (st.pc u) ∧ (st.run pre).pc u = .idle ∧ (st.run pre).lock = none ∧
      (st.run pre).log = st.log ++ [(s, Css.parse s)] := by
  induction more with
  | nil =>
    intro st hL hH _ u hu hr
    have := (hH u hu).1
    simp only [turns, List.filter_nil, List.length_nil] at hr
    omega
  | cons c cs ih =>
    intro st hL hH hI u hu hr
    have hu0 := hH u hu
    by_cases e : c.t = u
    · have ht : turns u (c :: cs) = turns u cs + 1 := by simp [turns, e]
      subst e
      rcases own st c with ⟨hp, _, _, _⟩ | ⟨s, hp, _, _, _⟩ | ⟨s, hp, _, _, _, _⟩ | ⟨s, ha, _, ha', hlt, _, hl, hk⟩ | ⟨s, r, hp, hp', hl, hk⟩
      · rw [hp] at hu0; simp [rest] at hu0
      · rw [hp] at hu0; simp [rest] at hu0
      · rw [hp] at hu0; simp [rest] at hu0
      · obtain ⟨s', pre, post, h1, h2, h3, h4, h5, h6⟩ :=
          ih (hL.step c) (hH.step c) (step_inv hI c) (u := c.t) (by rw [hk]; exact hu) (by omega)
        rw [ha'] at h1
        cases h1
        refine ⟨s, c :: pre, post, ha, by rw [h2]; rfl, ?_, h4, h5, ?_⟩
        · have : turns c.t (c :: pre) = turns c.t pre + 1 := by simp [turns]
          omega
        · show ((st.step c).run pre).log = _
          rw [h6, hl]
      · refine ⟨s, [c], cs, by rw [hp]; rfl, rfl, ?_, hp', hk, ?_⟩
        · simp [turns, hp, rest]
        · show (st.step c).log = _
          have := hI.pcs c.t
          rw [hp] at this
          simp only [PcOk] at this
          rw [hl, this]
    · have ht : turns u (c :: cs) = turns u cs := by simp [turns, e]
      have hpc := step_other st c (u := u) (fun x => e x.symm)
      have hkeep : (st.step c).lock = some u ∧ (st.step c).log = st.log := by
        rcases own st c with ⟨hp, _, hl, hk⟩ | ⟨s, hp, _, _, h'⟩ | ⟨s, hp, hn, _, _, _⟩ | ⟨s, ha, hw, ha', hlt, _, hl, hk⟩ | ⟨s, r, hp, hp', hl, hk⟩
        · exact ⟨hk.trans hu, hl⟩
        · rw [h']; exact ⟨hu, rfl⟩
        · rw [hn] at hu; cases hu
        · exact ⟨hk.trans hu, hl⟩
        · have := hL.owner c.t (by rw [hp]; trivial)
          rw [hu] at this
          exact absurd (Option.some.inj this).symm e
      obtain ⟨s', pre, post, h1, h2, h3, h4, h5, h6⟩ :=
        ih (hL.step c) (hH.step c) (step_inv hI c) (u := u) hkeep.1 (by rw [hpc]; omega)
      rw [hpc] at h1 h3
      refine ⟨s', c :: pre, post, h1, by rw [h2]; rfl, ?_, h4, h5, ?_⟩
      · have : turns u (c :: pre) = turns u pre := by simp [turns, e]
        omega
      · show ((st.step c).run pre).log = _
        rw [h6, hkeep.2]

/-! ## Counting -/

theorem finishing_le {ts : List Nat} (hn : ts.Nodup) : ∀ (cs : List Choice) (st : State), OnlyFinishing st cs →
    (∀ t, st.Inside t → t ∈ ts) →
    cs.length + (ts.map fun t => rest ((st.run cs).pc t)).sum ≤ (ts.map fun t => rest (st.pc t)).sum
  | [], _, _, _ => by simp [State.run]
  | c :: cs, st, h, hts => by
    obtain ⟨hin, hmv, h⟩ := h
    have hlt : rest ((st.step c).pc c.t) < rest (st.pc c.t) := by
      rcases own st c with ⟨hp, _, _, _⟩ | ⟨s, hp, _, _, h'⟩ | ⟨s, hp, _, hp', _, _⟩ | ⟨s, _, _, _, hlt, _, _, _⟩ | ⟨s, r, hp, hp', _, _⟩
      · exact absurd hp hin
      · exact absurd (by rw [show (⟨c.t, c.arg⟩ : Choice) = c from rfl, h']) (hmv c.arg)
      · rw [hp, hp']; simp [rest]
      · exact hlt
      · rw [hp, hp']; simp [rest]
    have hts' : ∀ t, (st.step c).Inside t → t ∈ ts := by
      intro t ht
      by_cases e : t = c.t
      · exact e ▸ hts _ hin
      · refine hts t ?_
        unfold State.Inside at ht ⊢
        rwa [step_other st c e] at ht
    have h1 := finishing_le hn cs (st.step c) h hts'
    have h2 := sum_at hn (hts _ hin) rest st.pc (st.step c).pc fun u hu => step_other st c hu
    simp only [List.length_cons, State.run]
    omega

theorem sum_le (f : Nat → Nat) (n : Nat) (h : ∀ t, f t ≤ n) : ∀ ts : List Nat, (ts.map f).sum ≤ n * ts.length
  | [] => by simp
  | t :: ts => by
    have := sum_le f n h ts
    have := h t
    simp only [List.map_cons, List.sum_cons, List.length_cons, Nat.mul_add, Nat.mul_one]
    omega

theorem moved_le {ts : List Nat} (hn : ts.Nodup) : ∀ (cs : List Choice) (st : State), (∀ c ∈ cs, c.t ∈ ts) →
    moved st cs + 6 * st.log.length + (ts.map fun t => made (st.pc t)).sum ≤
      6 * (st.run cs).log.length + (ts.map fun t => made ((st.run cs).pc t)).sum
  | [], _, _ => by simp [State.run, moved]
  | c :: cs, st, h => by
    have h1 := moved_le hn cs (st.step c) fun d hd => h d (List.mem_cons_of_mem _ hd)
    have h2 := sum_at hn (h c (List.mem_cons_self ..)) made st.pc (st.step c).pc fun u hu => step_other st c hu
    have h3 : (if (st.step c).pc c.t = st.pc c.t then 0 else 1) + 6 * st.log.length + made (st.pc c.t) ≤
        6 * (st.step c).log.length + made ((st.step c).pc c.t) := by
      rcases own st c with ⟨hp, hp', hl, _⟩ | ⟨s, hp, _, _, h'⟩ | ⟨s, hp, _, hp', hl, _⟩ | ⟨s, _, _, _, _, hm, hl, _⟩ | ⟨s, r, hp, hp', hl, _⟩
      · rw [hl, hp, hp']; simp [made]; omega
      · rw [h']; simp
      · rw [hl, hp, hp']; simp [made]; omega
      · rw [hl]; split <;> omega
      · rw [hl, hp, hp']; simp [made]; omega
    simp only [moved, State.run]
    omega

theorem begun_perm {ts : List Nat} (hn : ts.Nodup) : ∀ (cs : List Choice) (st : State), (∀ c ∈ cs, c.t ∈ ts) →
    (st.log.map Prod.fst ++ ts.filterMap (fun t => (st.pc t).arg) ++ begun st cs).Perm
      ((st.run cs).log.map Prod.fst ++ ts.filterMap fun t => ((st.run cs).pc t).arg)
  | [], _, _ => by simp [State.run, begun]
  | c :: cs, st, h => by
    have h1 := begun_perm hn cs (st.step c) fun d hd => h d (List.mem_cons_of_mem _ hd)
    refine List.Perm.trans ?_ h1
    have hc := h c (List.mem_cons_self ..)
    have hoth : ∀ u, u ≠ c.t → ((st.step c).pc u).arg = (st.pc u).arg := fun u hu => by rw [step_other st c hu]
    have hsame : ((st.step c).pc c.t).arg = (st.pc c.t).arg →
        ts.filterMap (fun t => ((st.step c).pc t).arg) = ts.filterMap fun t => (st.pc t).arg := fun he =>
      filterMap_same fun u _ => if e : u = c.t then e ▸ he else hoth u e
    simp only [begun]
    rcases own st c with ⟨hp, hp', hl, _⟩ | ⟨s, hp, _, _, h'⟩ | ⟨s, hp, _, hp', hl, _⟩ | ⟨s, ha, hw, ha', _, hm, hl, _⟩ | ⟨s, r, hp, hp', hl, _⟩
    · rw [hl, if_pos hp]
      have := texts_at hn hc (fun t => (st.pc t).arg) (fun t => ((st.step c).pc t).arg) c.arg hoth
        (by simp [hp, Pc.arg]) (by simp [hp', Pc.arg])
      rw [← List.append_assoc]
      refine List.Perm.append_right _ ?_
      rw [List.append_assoc]
      refine List.Perm.append_left _ ?_
      exact (List.perm_append_singleton _ _).trans this.symm
    · rw [if_neg (by rw [hp]; simp), h']; simp
    · rw [hl, if_neg (by rw [hp]; simp), hsame (by rw [hp, hp']; rfl)]; simp
    · rw [hl, if_neg (by intro e; rw [e] at ha; cases ha), hsame (by rw [ha, ha'])]; simp
    · rw [hl, if_neg (by rw [hp]; simp)]
      have := texts_at hn hc (fun t => ((st.step c).pc t).arg) (fun t => (st.pc t).arg) s (fun u hu => (hoth u hu).symm)
        (by simp [hp', Pc.arg]) (by simp [hp, Pc.arg])
      simp only [List.nil_append, List.map_append, List.map_cons, List.map_nil]
      refine List.Perm.append_right _ ?_
      rw [List.append_assoc]
      refine List.Perm.append_left _ ?_
      exact this

/-! ## A thread that never gets the lock -/

/-- One call of thread 0, during which thread 1 tries to get the lock once. -/
def unfair (s : Str) : List Choice := [⟨0, s⟩, ⟨1, s⟩, ⟨0, s⟩, ⟨0, s⟩, ⟨0, s⟩, ⟨0, s⟩]

theorem unfair_round {st : State} {s : Str} (hs : Css.parse s = none) (h0 : st.pc 0 = .wantLock s)
    (h1 : st.pc 1 = .wantLock s) (hk : st.lock = none) (hc : st.cache = []) :
    let st' := st.run (unfair s)
    st'.pc 0 = .wantLock s ∧ st'.pc 1 = .wantLock s ∧ st'.lock = none ∧ st'.cache = [] ∧
      st'.log = st.log ++ [(s, none)] := by
  simp [unfair, State.run, State.step, State.goto, h0, h1, hk, hc, Map.get, hs]

theorem unfair_rounds {s : Str} (hs : Css.parse s = none) : ∀ (n : Nat) {st : State}, st.pc 0 = .wantLock s →
    st.pc 1 = .wantLock s → st.lock = none → st.cache = [] →
    let st' := st.run ((List.replicate n (unfair s)).flatten)
    st'.pc 1 = .wantLock s ∧ st'.log = st.log ++ List.replicate n (s, none)
  | 0, st, _, h1, _, _ => by simp [State.run, h1]
  | n + 1, st, h0, h1, hk, hc => by
    obtain ⟨a, b, c, d, e⟩ := unfair_round hs h0 h1 hk hc
    obtain ⟨f, g⟩ := unfair_rounds hs n a b c d
    simp only [List.replicate_succ, List.flatten_cons, run_append]
    refine ⟨f, ?_⟩
    rw [g, e, List.append_assoc]
    rfl

theorem turns_unfair (s : Str) : ∀ n, turns 1 ((List.replicate n (unfair s)).flatten) = n
  | 0 => rfl
  | n + 1 => by
    have := turns_unfair s n
    simp only [turns, List.replicate_succ, List.flatten_cons, List.filter_append, List.length_append] at this ⊢
    rw [this]
    simp [unfair]
    omega

end CacheP
