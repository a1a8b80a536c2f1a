import Verif.Proofs.Growth
import Verif.Props.FirstUses
import Verif.Props.Parser

/-!
# What an application keeps in memory

C112. The number of different requests of a history is at most `n` if there is a list `R` of
`n` requests that contains all of them.
-/

namespace Manager

open Spec

/-! ## C112: memory grows with the number of different styles, not with the number of uses -/

/-- The entries of all registries. -/
def allEntries (s : St) : List (Nat × Key) := s.mgrs.zipIdx.flatMap fun x => x.1.reg.map fun e => (x.2, e.1)

theorem mem_allEntries {s : St} {j : Nat} {k : Key} :
    (j, k) ∈ allEntries s ↔ ∃ m, s.mgrs[j]? = some m ∧ k ∈ m.reg.map Prod.fst := by
  simp only [allEntries, List.mem_flatMap, List.mem_map, Prod.exists, List.mem_zipIdx_iff_getElem?]
  constructor
  · rintro ⟨m, i, h, k', p, h1, h2⟩
    cases h2
    exact ⟨m, h, k, p, h1, rfl⟩
  · rintro ⟨m, h, k', p, h1, rfl⟩
    exact ⟨m, j, h, k', p, h1, rfl⟩

theorem allEntries_length (s : St) : (allEntries s).length = (s.mgrs.map fun m => m.reg.length).sum := by
  have : ∀ (l : List Mgr) (n : Nat), ((l.zipIdx n).flatMap fun x => x.1.reg.map fun e => (x.2, e.1)).length =
      (l.map fun m => m.reg.length).sum := by
    intro l
    induction l with
    | nil => intro n; rfl
    | cons m l ih => intro n; simp [List.zipIdx_cons, ih]
  exact this _ _

theorem nodup_entries : ∀ (l : List Mgr) (n : Nat), (∀ m ∈ l, (m.reg.map Prod.fst).Nodup) →
    ((l.zipIdx n).flatMap fun x => x.1.reg.map fun e => (x.2, e.1)).Nodup
  | [], _, _ => List.nodup_nil
  | m :: l, n, h => by
    simp only [List.zipIdx_cons, List.flatMap_cons]
    rw [List.nodup_append]
    refine ⟨?_, nodup_entries l (n + 1) (fun x hx => h x (List.mem_cons_of_mem _ hx)), ?_⟩
    · have := h m (by simp)
      simp only [List.Nodup, List.pairwise_map] at this ⊢
      exact this.imp (fun hab he => hab (Prod.mk.inj he).2)
    · rintro a ha b hb rfl
      simp only [List.mem_map] at ha
      obtain ⟨e, -, rfl⟩ := ha
      simp only [List.mem_flatMap, List.mem_map, Prod.exists] at hb
      obtain ⟨m', i, h1, k, p, -, h3⟩ := hb
      have := List.le_snd_of_mem_zipIdx h1
      have := (Prod.mk.inj h3).1
      simp at *
      omega

/-- **C112**, the registries. In every reachable state, every entry of a registry is for a
style that was asked for under this manager, or loaded into it, and no two entries of a
registry are for the same style. So all registries together have at most as many entries as
there were different requests, however often each of them was repeated. -/
theorem C112_registered (env : Env) (d : Dom) (ops : List Op) (s : St) (hs : s = run env ops (St.init d)) :
    (∀ (i : Nat) (m : Mgr), s.mgrs[i]? = some m →
      (∀ e ∈ m.reg, (i, e.1) ∈ requests env ops (St.init d)) ∧ (m.reg.map Prod.fst).Nodup) ∧
    ∀ R : List (Nat × Key), (∀ u ∈ requests env ops (St.init d), u ∈ R) →
      (s.mgrs.map fun m => m.reg.length).sum ≤ R.length := by
  subst hs
  have hi := inv_run env ops (Inv.init d)
  have hreq : ∀ (i : Nat) (m : Mgr), (run env ops (St.init d)).mgrs[i]? = some m → ∀ e ∈ m.reg,
      (i, e.1) ∈ requests env ops (St.init d) := by
    intro i m hm e he
    rcases regs_run env ops (Inv.init d) i m hm e he with ⟨g, h, -⟩ | h
    · cases h
    · exact h
  refine ⟨fun i m hm => ⟨hreq i m hm, hi.keys m (List.mem_of_getElem? hm)⟩, fun R hR => ?_⟩
  rw [← allEntries_length]
  refine List.Nodup.length_le_of_subset (nodup_entries _ 0 hi.keys) ?_
  rintro ⟨j, k⟩ hu
  obtain ⟨m, h1, h2⟩ := mem_allEntries.1 hu
  obtain ⟨e, h3, rfl⟩ := List.mem_map.1 h2
  exact hR _ (hreq j m h1 e h3)

theorem held_eq (s : St) : (s.handles.filterMap id).length = s.held := by
  simp only [St.held]
  induction s.handles with
  | nil => rfl
  | cons x l ih => cases x <;> simp_all

/-- **C112**, the styles. In every reachable state, the number of styles that exist is at most
the number of `Style` and `GlobalStyle` values of the program and the number of different
requests together. When the values have been dropped, it is at most the number of different
requests. -/
theorem C112_living (env : Env) (d : Dom) (ops : List Op) (s : St) (hs : s = run env ops (St.init d))
    (R : List (Nat × Key)) (hR : ∀ u ∈ requests env ops (St.init d), u ∈ R) (ps : List Nat) (hn : ps.Nodup)
    (hp : ∀ p ∈ ps, s.Alive p) : ps.length ≤ s.held + R.length := by
  have h1 := (C112_registered env d ops s hs).2 R hR
  have h2 : ps.length ≤ (s.handles.filterMap id ++ s.mgrs.flatMap fun m => m.reg.map Prod.snd).length := by
    refine List.Nodup.length_le_of_subset hn fun p hpp => ?_
    rcases hp p hpp with h | ⟨m, hm, k, hk⟩
    · exact List.mem_append_left _ (List.mem_filterMap.2 ⟨_, h, rfl⟩)
    · exact List.mem_append_right _ (List.mem_flatMap.2 ⟨m, hm, List.mem_map.2 ⟨_, hk, rfl⟩⟩)
  rw [List.length_append, held_eq, List.length_flatMap] at h2
  simp only [List.length_map] at h2
  omega

theorem living_le (s : St) (i n : Nat) (h : ∀ ps : List Nat, ps.Nodup → (∀ p ∈ ps, s.Alive p) → ps.length ≤ n) :
    (living s i).length ≤ n := by
  classical
  have hsub : (living s i).length ≤ ((List.range s.heap.length).filter fun p => decide (s.Alive p)).length := by
    simp only [living]
    induction List.range s.heap.length with
    | nil => simp
    | cons p l ih =>
      rw [List.filterMap_cons, List.filter_cons]
      cases hc : s.heap[p]? with
      | none =>
        simp only [Option.filter_none]
        split
        · simp only [List.length_cons]; omega
        · exact ih
      | some c =>
        simp only [Option.filter_some, decide_eq_true_eq]
        by_cases h1 : s.Alive p ∧ Mounts s c i
        · simp only [h1, and_self, if_true, List.length_cons]; omega
        · simp only [h1, if_false]
          split
          · simp only [List.length_cons]; omega
          · exact ih
  refine Nat.le_trans hsub (h _ (List.Nodup.sublist List.filter_sublist List.nodup_range) ?_)
  intro p hp
  simpa using (List.mem_filter.1 hp).2

/-- **C112**, the page. In an application in a browser, as in C89, no container has more style
elements than the program has `Style` and `GlobalStyle` values and made different requests. -/
theorem C112_page (env : Env) (hw : env.wasm = true) (d : Dom)
    (ops : List Op) (s : St) (hs : s = run env ops (St.init d)) (hids : FreshIds env s.ctr)
    (hload : ∀ c ∈ s.heap, c.origin = .created) (hpref : ∀ c ∈ s.heap, cssIdent c.key.pref = true)
    (hmgr : ∀ m ∈ s.mgrs, m.log = none ∧ ∃ i, m.container = some i ∧ Attached d i)
    (hd : ∀ x ∈ d.inDoc, x.isStyle = false) (i : Nat) (ha : Attached d i)
    (R : List (Nat × Key)) (hR : ∀ u ∈ requests env ops (St.init d), u ∈ R) :
    ((s.dom.childrenOf i).filter Child.isStyle).length ≤ s.held + R.length := by
  rw [(C89_application env hw d ops s hs hids hload hpref hmgr hd i ha).1, List.length_map]
  exact living_le s i _ fun ps h1 h2 => C112_living env d ops s hs R hR ps h1 h2

theorem requests_firstUses (env : Env) : ∀ (ops : List Op) (s : St) (l : List (Nat × Key)),
    Along env (Smooth env) ops s →
    ∀ u, u ∈ firstUses env ops s l ↔ u ∈ l ∨ u ∈ requests env ops s
  | [], s, l, _, u => by simp [firstUses, requests]
  | op :: ops, s, l, ⟨h1, h2⟩, u => by
    have hr : requested s op = (asks s op).toList := by
      cases op with
      | load mh data => exact absurd rfl (h1.2.1 mh data)
      | _ => rfl
    simp only [firstUses, requests, List.mem_append]
    rw [requests_firstUses env ops _ _ h2, hr]
    cases asks s op with
    | none => simp [addUse]
    | some v =>
      simp only [addUse, Option.toList, List.mem_cons, List.not_mem_nil, or_false]
      split
      · rename_i hv
        constructor
        · rintro (h | h)
          · exact .inl h
          · exact .inr (.inr h)
        · rintro (h | rfl | h)
          · exact .inl h
          · exact .inl hv
          · exact .inr h
      · simp only [List.mem_append, List.mem_cons, List.not_mem_nil, or_false]
        exact or_assoc

/-- **C112**, the limit. Dropping the `Style` and `GlobalStyle` values frees nothing. In a
history in which styles are made, cloned and dropped, but neither unregistered nor loaded,
every request for valid css is fulfilled and all managers are in use at the end, the styles
that exist are as many as there were different requests, whether the values were dropped or
not. Css with values that keep changing fills the memory and the page. -/
theorem C112_limit_kept (env : Env) (d : Dom) (ops : List Op) (s : St)
    (hs : s = run env ops (St.init d)) (hsm : Along env (Smooth env) ops (St.init d))
    (hal : ∀ j < s.mgrs.length, some j ∈ s.mgrHandles) :
    ∃ R : List (Nat × Key), R.Nodup ∧ (∀ u, u ∈ R ↔ u ∈ requests env ops (St.init d)) ∧
      (s.mgrs.map fun m => m.reg.length).sum = R.length ∧ s.heap.length = R.length ∧
      ∀ p < R.length, s.Alive p := by
  have hu := usesInv_init env d ops hsm
  have hmem := requests_firstUses env ops (St.init d) [] hsm
  have hi := inv_run env ops (Inv.init d)
  have hreg := C112_registered env d ops s hs
  subst hs
  refine ⟨firstUses env ops (St.init d) [], hu.nodup, fun u => by simp [hmem u], ?_, ?_, fun p hp => ?_⟩
  · apply Nat.le_antisymm (hreg.2 _ fun u h => (hmem u).2 (.inr h))
    rw [← allEntries_length]
    refine List.Nodup.length_le_of_subset hu.nodup ?_
    rintro ⟨j, k⟩ h
    obtain ⟨p, hp⟩ := List.getElem?_of_mem h
    obtain ⟨m, h1, h2⟩ := hu.reg p _ hp (hal _ (hu.mgr_lt hi hp))
    exact mem_allEntries.2 ⟨m, h1, List.mem_map.2 ⟨_, h2, rfl⟩⟩
  · rw [hu.heap]; simp [allMade]
  · obtain ⟨m, h1, h2⟩ := hu.reg p _ (List.getElem?_eq_getElem hp) (hal _ (hu.mgr_lt hi (List.getElem?_eq_getElem hp)))
    exact .inr ⟨m, List.mem_of_getElem? h1, _, h2⟩

/-- Css whose value changes all the time. -/
def changingSheet (k : Nat) : Sheet := [.block [] [.attr (c! "top") [decimal k]]]

/-- One manager; `n` times a style is made with the next value and dropped. -/
def changing (n : Nat) : List Op :=
  .newMgr (c! "a") (some 0) true none ::
    (List.range n).flatMap fun k => [.create 0 .scoped (.sheet (changingSheet k)) false, .drop k]

/-- What is there after `n` rounds. -/
structure Rounds (n : Nat) (s : St) : Prop where
  inv : Inv s
  mgrHandles : s.mgrHandles = [some 0]
  handles : s.handles = List.replicate n none
  heap : s.heap.length = n
  mgr : ∃ m, s.mgrs = [m] ∧ m.log = none ∧ m.pref = c! "a" ∧ m.container = some 0 ∧ m.append = true ∧
    m.reg = (List.range n).map fun k => (Kind.scoped.key (c! "a") (changingSheet k), k)

theorem changingSheet_inj {a b : Nat} (h : changingSheet a = changingSheet b) : a = b := by
  simp only [changingSheet, List.cons.injEq, ScopeContent.block.injEq, RBC.attr.injEq] at h
  exact decimal_inj (by simpa using h)

theorem create_valid (env : Env) {s : St} {mh i : Nat} {m : Mgr} {kind : Kind} {src : Source} {fault : Bool}
    (h1 : s.mgrOf mh = some i) (h2 : s.mgrs[i]? = some m) : (step env (.create mh kind src fault) s).2 ≠ .invalid := by
  simp only [step, create, h1, h2]
  intro h
  repeat (split at h <;> try cases h)

theorem Rounds.step {env : Env} (hdbg : env.debugParser = false) {n : Nat} {s : St} (h : Rounds n s) :
    Rounds (n + 1) (run env [.create 0 .scoped (.sheet (changingSheet n)) false, .drop n] s) := by
  obtain ⟨hi, hmh, hh, hheap, m, hm, hlog, hpref, hcont, happ, hreg⟩ := h
  have hof : s.mgrOf 0 = some 0 := by simp [St.mgrOf, hmh]
  have hm0 : s.mgrs[0]? = some m := by simp [hm]
  have hnew : regGet m.reg (Kind.scoped.key m.pref (changingSheet n)) = none := by
    rw [regGet_eq_none, hreg, hpref]
    simp only [List.map_map, List.mem_map, List.mem_range, Function.comp]
    rintro ⟨k, hk, he⟩
    have := changingSheet_inj (congrArg Key.ast he)
    omega
  have hv := create_valid env (kind := .scoped) (src := .sheet (changingSheet n)) (fault := false) hof hm0
  have ht := step_tr env hi (.create 0 .scoped (.sheet (changingSheet n)) false)
  have hi1 := inv_step env (.create 0 .scoped (.sheet (changingSheet n)) false) hi
  simp only [run]
  generalize (Manager.step env (.create 0 .scoped (.sheet (changingSheet n)) false) s).1 = s1 at *
  generalize (Manager.step env (.create 0 .scoped (.sheet (changingSheet n)) false) s).2 = out at *
  have hs1 : ∃ m', s1.mgrHandles = [some 0] ∧ s1.handles = List.replicate n none ++ [some n] ∧ s1.heap.length = n + 1 ∧
      s1.mgrs = [m'] ∧ m'.log = none ∧ m'.pref = c! "a" ∧ m'.container = some 0 ∧ m'.append = true ∧
      m'.reg = (List.range (n + 1)).map fun k => (Kind.scoped.key (c! "a") (changingSheet k), k) := by
    cases ht with
    | invalid => exact absurd rfl hv
    | createHit _ _ _ _ _ i m1 ast p h1 h2 h3 h4 =>
      rw [hof] at h1; cases h1; rw [hm0] at h2; cases h2; cases h3
      rw [hnew] at h4; cases h4
    | createDebug _ _ _ _ _ i m1 ast h1 h2 h3 h4 h5 => rw [hdbg] at h5; cases h5
    | createStatic _ _ _ _ _ i m1 ast l log c h1 h2 h3 h4 h5 h6 h7 =>
      rw [hof] at h1; cases h1; rw [hm0] at h2; cases h2
      rw [hlog] at h7; cases h7
    | createFail _ _ _ _ _ i m1 ast c h1 h2 h3 h4 h5 h6 h7 h8 =>
      rw [hof] at h1; cases h1; rw [hm0] at h2; cases h2
      simp only [mount, hcont, happ] at h8
      split at h8 <;> cases h8
    | createMount _ _ _ _ _ i m1 ast c d h1 h2 h3 h4 h5 h6 h7 h8 =>
      rw [hof] at h1; cases h1; rw [hm0] at h2; cases h2; cases h3
      refine ⟨{ m with reg := m.reg ++ [(c.key, s.heap.length)] }, hmh, ?_, ?_, ?_, hlog, hpref, hcont, happ, ?_⟩
      · simp [St.modReg, St.modMgr, hh, hheap]
      · simp [St.modReg, St.modMgr, hheap]
      · simp [St.modReg, St.modMgr, hm]
      · rw [hreg, List.range_succ, List.map_append, hheap, h5]
        simp [newContent, hpref]
  obtain ⟨m', g1, g2, g3, g4, g5, g6, g7, g8, g9⟩ := hs1
  have hco : s1.contentOf n = some n := by simp [St.contentOf, g2]
  have hst : (Manager.step env (.drop n) s1).1 = ({ s1 with handles := s1.handles.set n none } : St).release env n := by
    simp only [Manager.step, hco]
  have hi2 := inv_step env (.drop n) hi1
  rw [hst] at hi2 ⊢
  obtain ⟨d, -, e⟩ := release_eq env n { s1 with handles := s1.handles.set n none }
  rw [e] at hi2 ⊢
  refine ⟨hi2, g1, ?_, g3, m', g4, g5, g6, g7, g8, g9⟩
  simp [g2, List.replicate_succ']

theorem Rounds.run {env : Env} (hdbg : env.debugParser = false) {d : Dom} (hd : d ≠ []) :
    ∀ n, Rounds n (Manager.run env (changing n) (St.init d))
  | 0 => by
    have hpos : 0 < d.length := List.length_pos_iff.2 hd
    have hi := inv_step env (.newMgr (c! "a") (some 0) true none) (Inv.init d)
    have he : (Manager.step env (.newMgr (c! "a") (some 0) true none) (St.init d)).1 =
        { St.init d with
          mgrs := [{ pref := c! "a", container := some 0, append := true, log := none, reg := [], borrowed := false }]
          mgrHandles := [some 0] } := by
      simp [Manager.step, newMgr, St.init, St.writerFree, St.takeWriter, hpos]
    simp only [changing, List.range_zero, List.flatMap_nil, Manager.run]
    rw [he] at hi ⊢
    exact ⟨hi, rfl, rfl, rfl, _, rfl, rfl, rfl, rfl, rfl, rfl⟩
  | n + 1 => by
    have h : changing (n + 1) = changing n ++ [.create 0 .scoped (.sheet (changingSheet n)) false, .drop n] := by
      simp [changing, List.range_succ]
    rw [h, run_append]
    exact (Rounds.run hdbg hd n).step hdbg

/-- **C112**, the limit, without a bound. For every `n`, the program that makes `n` styles, each
after the one before has been dropped, has no `Style` in the end and keeps all `n` styles
alive. Any target, any entropy, any page with a container, without the debug check. -/
theorem C112_limit_unbounded (env : Env) (hdbg : env.debugParser = false) (d : Dom) (hd : d ≠ []) (n : Nat) (s : St)
    (hs : s = run env (changing n) (St.init d)) : s.held = 0 ∧ ∀ p < n, s.Alive p := by
  obtain ⟨-, -, h1, -, m, h2, -, -, -, -, h3⟩ := Rounds.run hdbg hd n
  rw [← hs] at h1 h2
  refine ⟨by rw [St.held, h1]; simp, fun p hp =>
    .inr ⟨m, by simp [h2], Kind.scoped.key (c! "a") (changingSheet p), ?_⟩⟩
  rw [h3]
  exact List.mem_map.2 ⟨p, List.mem_range.2 hp, rfl⟩

/-- Non-vacuity, for a page and a number. -/
example : demoEnv.debugParser = false ∧ demoPage ≠ [] ∧ changing 2 =
    [.newMgr (c! "a") (some 0) true none,
      .create 0 .scoped (.sheet [.block [] [.attr (c! "top") [c! "0"]]]) false, .drop 0,
      .create 0 .scoped (.sheet [.block [] [.attr (c! "top") [c! "1"]]]) false, .drop 1] ∧
    ((run demoEnv (changing 2) (St.init demoPage)).dom.childrenOf 0).length = 3 := by decide +kernel

/-- The requests of an example: two managers, one style made three times under one of them and
once under the other, one loaded into the second and asked for there, one unregistered. -/
def growthOps : List Op :=
  [.newMgr (c! "a") (some 0) true none, .newMgr (c! "b") (some 1) true none,
    .create 0 .scoped (.sheet demoRed) false, .create 0 .scoped (.sheet demoRed) false, .drop 0,
    .create 0 .scoped (.text (c! "color: red;")) false, .create 1 .scoped (.sheet demoRed) false,
    .create 0 .global (.sheet demoRed) false, .unregister 4, .drop 4,
    .load 1 [⟨⟨true, c! "b", demoRed⟩, c! "x", []⟩], .create 1 .global (.sheet demoRed) false, .clone 1, .drop 1]

set_option maxRecDepth 16000 in
/-- Non-vacuity: seven requests, four of them different, three entries; four values are left
of three styles. -/
example : let s := run demoEnv growthOps (St.init demoPage)
    let R : List (Nat × Key) := [(0, ⟨false, c! "a", demoRed⟩), (1, ⟨false, c! "b", demoRed⟩), (0, ⟨true, c! "a", demoRed⟩),
      (1, ⟨true, c! "b", demoRed⟩)]
    (requests demoEnv growthOps (St.init demoPage)).length = 7 ∧
    (∀ u ∈ requests demoEnv growthOps (St.init demoPage), u ∈ R) ∧
    (s.mgrs.map fun m => m.reg.length).sum = 3 ∧ s.held = 4 ∧
    s.handles = [none, none, some 0, some 1, none, some 3, some 0] := by decide +kernel

set_option maxRecDepth 16000 in
/-- Non-vacuity of the bound for the page and of the limit. -/
example : let s := run demoEnv useOps (St.init demoPage)
    demoEnv.wasm = true ∧ FreshIds demoEnv s.ctr ∧ (∀ c ∈ s.heap, c.origin = .created) ∧
    (∀ c ∈ s.heap, cssIdent c.key.pref = true) ∧ (∀ m ∈ s.mgrs, m.log = none ∧ m.container.isSome) ∧
    (∀ x ∈ demoPage.inDoc, x.isStyle = false) ∧ Along demoEnv (Smooth demoEnv) useOps (St.init demoPage) ∧
    (∀ j < s.mgrs.length, some j ∈ s.mgrHandles) ∧ (requests demoEnv useOps (St.init demoPage)).length = 4 ∧
    s.heap.length = 3 := by
  refine ⟨rfl, freshIds_counter rfl (by decide +kernel), by decide +kernel, by decide +kernel, by decide +kernel, by decide +kernel, ?_,
    by decide +kernel, by decide +kernel, by decide +kernel⟩
  refine along_of_bool _ _ ?_
  decide +kernel

end Manager

namespace Css

open Cache CacheP

/-- **C112**, the parse cache, for any threads and any schedule. Every text in the cache was an
argument of a call, and no text is there twice, so the cache has at most as many entries as
there were different arguments. -/
theorem C112_cache (schedule : List Choice) (R : List Str) (hR : ∀ c ∈ schedule, c.arg ∈ R) :
    let cache := (State.init.run schedule).cache
    (∀ e ∈ cache, e.1 ∈ R ∧ parse e.1 = some e.2) ∧ (cache.map Prod.fst).Nodup ∧ cache.length ≤ R.length := by
  have h1 := asked_run (A := R) schedule (st := State.init) (by simp [State.init]) (by simp [State.init, textOf]) hR
  have h2 := (Locked.init.run schedule).nodup
  refine ⟨fun e he => ⟨h1 e he, ?_⟩, h2, ?_⟩
  · exact (run_inv (st := State.init) ⟨(by intro s x h; cases h), fun _ => trivial, (by intro e he; cases he)⟩
      schedule).cache _ _ (get_mem h2 he)
  · have := List.Nodup.length_le_of_subset h2 (l₂ := R) (by
      intro x hx
      obtain ⟨e, he, rfl⟩ := List.mem_map.1 hx
      exact h1 e he)
    simpa using this

/-- Four calls of two threads, two of them for the same text and one for a text that is
rejected. -/
def cacheSchedule : List Choice :=
  (List.replicate 3 [⟨0, c! "a:b;"⟩, ⟨1, c! "a:b;"⟩]).flatten ++
    List.replicate 3 ⟨0, c! "a"⟩ ++ List.replicate 4 ⟨1, c! "a:c;"⟩ ++ List.replicate 5 ⟨0, c! "a"⟩ ++
      List.replicate 6 ⟨1, c! "a:c;"⟩

/-- Non-vacuity: three different arguments, two entries. -/
example : (∀ c ∈ cacheSchedule, c.arg ∈ [c! "a:b;", c! "a", c! "a:c;"]) ∧
    ((State.init.run cacheSchedule).cache.map Prod.fst) = [c! "a:c;", c! "a:b;"] ∧
    ((State.init.run cacheSchedule).log.map fun e => (e.1, e.2.isSome)) =
      [(c! "a:b;", true), (c! "a:b;", true), (c! "a", false), (c! "a:c;", true)] := by decide +kernel

/-- **C112**, the limit for the cache: it is never emptied. The text of every call that was
finished without an error is in the cache, whatever happened since. -/
theorem C112_limit_cache (schedule : List Choice) (s : Str) (x : Sheet)
    (h : (s, some x) ∈ (State.init.run schedule).log) : (s, x) ∈ (State.init.run schedule).cache := by
  have h1 := (Kept.run (st := State.init) ⟨(by intro t s x h; cases h), (by intro s x h; cases h)⟩ schedule).log s x h
  obtain ⟨⟨s', y⟩, he, rfl⟩ := List.mem_map.1 h1
  have h2 := C17_cache_transparent_threads schedule _ h
  have h3 := ((C112_cache schedule (schedule.map Choice.arg) fun c hc => List.mem_map.2 ⟨c, hc, rfl⟩).1 _ he).2
  simp only at h2 h3
  rw [h3] at h2
  cases h2
  exact he

end Css
