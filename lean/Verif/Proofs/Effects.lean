import Verif.Proofs.Dom

/-!
# What an operation does to contents and elements
-/

namespace Manager

theorem alive_iff {s : St} {p : Nat} : s.Alive p ↔ s.refs p ≠ 0 := by
  rw [Ne, refs_eq_zero]
  simp only [St.Alive]
  constructor
  · rintro (h | ⟨m, hm, k, hk⟩) ⟨h1, h2⟩
    · exact h1 h
    · exact h2 m hm (List.mem_map.2 ⟨_, hk, rfl⟩)
  · intro h
    by_cases h1 : some p ∈ s.handles
    · exact Or.inl h1
    · refine Or.inr ?_
      simp only [h1, not_false_iff, true_and] at h
      simp only [Classical.not_forall, Classical.not_not] at h
      obtain ⟨m, hm, hp⟩ := h
      obtain ⟨e, he, rfl⟩ := List.mem_map.1 hp
      exact ⟨m, hm, e.1, he⟩

/-- Drop some contents one after the other. -/
def unmountAll (env : Env) (heap : List Content) : List Nat → Dom → Dom
  | [], d => d
  | q :: qs, d =>
    unmountAll env heap qs (match heap[q]? with
      | some c => unmount env c.id d
      | none => d)

/-- The effect of an operation on contents and elements. -/
inductive Eff (env : Env) (s s' : St) : Prop
  | quiet (news : List Content) : s'.heap = s.heap ++ news → styles s'.dom = styles s.dom →
      (∀ p, p < s.heap.length → (s'.Alive p ↔ s.Alive p)) →
      (∀ p, s.heap.length ≤ p → p < s'.heap.length → s'.Alive p) →
      (∀ c ∈ news, c.origin = .hydrated ∨ ∃ m l, s.mgrs[c.mgr]? = some m ∧ m.log = some l) → Eff env s s'
  | mounted (c : Content) (m : Mgr) : s'.heap = s.heap ++ [c] → c.origin = .created →
      s.mgrs[c.mgr]? = some m → m.log = none →
      (env.wasm = true → ∃ i, m.container = some i ∧ s'.dom = s.dom.appendChild i (.style c.id c.text)) →
      (env.wasm = false → s'.dom = s.dom) →
      (∀ p, p < s.heap.length → (s'.Alive p ↔ s.Alive p)) → s'.Alive s.heap.length → Eff env s s'
  | failed (c : Content) : s'.heap = s.heap ++ [c] → c.origin = .created →
      s'.dom = unmount env c.id s.dom →
      (∀ p, p < s.heap.length → (s'.Alive p ↔ s.Alive p)) → ¬ s'.Alive s.heap.length → Eff env s s'
  | dropped (qs : List Nat) : s'.heap = s.heap → qs.Nodup → (∀ q ∈ qs, s.Alive q ∧ q < s.heap.length) →
      (∀ p, s'.Alive p ↔ s.Alive p ∧ p ∉ qs) → s'.dom = unmountAll env s.heap qs s.dom → Eff env s s'

theorem Eff.same {env : Env} {s s' : St} (hh : s'.heap = s.heap) (hd : styles s'.dom = styles s.dom)
    (ha : ∀ p, p < s.heap.length → (s'.Alive p ↔ s.Alive p)) : Eff env s s' :=
  .quiet [] (by simp [hh]) hd ha (by intro p h1 h2; rw [hh] at h2; omega) (by simp)

/-! ## Aliveness after elementary changes -/

theorem alive_congr {s s' : St} (h1 : s'.handles = s.handles) (h2 : s'.mgrs = s.mgrs) (p : Nat) :
    s'.Alive p ↔ s.Alive p := by
  simp only [St.Alive, h1, h2]

theorem alive_addMgr {s s' : St} {m : Mgr} (h1 : s'.handles = s.handles) (h2 : s'.mgrs = s.mgrs ++ [m])
    (hr : m.reg = []) (p : Nat) : s'.Alive p ↔ s.Alive p := by
  simp only [St.Alive, h1, h2, List.mem_append, List.mem_cons, List.not_mem_nil, or_false]
  constructor
  · rintro (h | ⟨m', h | rfl, k, hk⟩)
    · exact Or.inl h
    · exact Or.inr ⟨m', h, k, hk⟩
    · rw [hr] at hk; cases hk
  · rintro (h | ⟨m', h, k, hk⟩)
    · exact Or.inl h
    · exact Or.inr ⟨m', Or.inl h, k, hk⟩

theorem alive_addHandle {s s' : St} {q : Nat} (h1 : s'.handles = s.handles ++ [some q]) (h2 : s'.mgrs = s.mgrs)
    (p : Nat) : s'.Alive p ↔ s.Alive p ∨ p = q := by
  simp only [St.Alive, h1, h2, List.mem_append, List.mem_cons, List.not_mem_nil, or_false, Option.some.injEq]
  constructor
  · rintro ((h | h) | h)
    · exact Or.inl (Or.inl h)
    · exact Or.inr h
    · exact Or.inl (Or.inr h)
  · rintro ((h | h) | h)
    · exact Or.inl (Or.inl h)
    · exact Or.inr h
    · exact Or.inl (Or.inr h)

theorem mgrs_modReg_mem {s : St} {i : Nat} {m : Mgr} (hm : s.mgrs[i]? = some m)
    (f : List (Key × Nat) → List (Key × Nat)) (e : Key × Nat) :
    (∃ m' ∈ (s.modReg i f).mgrs, e ∈ m'.reg) ↔
      e ∈ f m.reg ∨ ∃ j m', j ≠ i ∧ s.mgrs[j]? = some m' ∧ e ∈ m'.reg := by
  constructor
  · rintro ⟨m', h, he⟩
    obtain ⟨j, m1, h1, rfl⟩ := mem_modReg h
    by_cases hij : i = j
    · subst hij
      rw [hm] at h1; cases h1
      exact Or.inl (by simpa using he)
    · exact Or.inr ⟨j, m1, fun h => hij h.symm, h1, by simpa [hij] using he⟩
  · rintro (h | ⟨j, m', hj, h1, he⟩)
    · refine ⟨{ m with reg := f m.reg }, List.mem_of_getElem? (i := i) ?_, h⟩
      simp [St.modReg, St.modMgr, hm]
    · refine ⟨m', List.mem_of_getElem? (i := j) ?_, he⟩
      have hij : ¬ i = j := fun h => hj h.symm
      simp [St.modReg, St.modMgr, h1, hij]

theorem mgrs_mem {s : St} {i : Nat} {m : Mgr} (hm : s.mgrs[i]? = some m) (e : Key × Nat) :
    (∃ m' ∈ s.mgrs, e ∈ m'.reg) ↔
      e ∈ m.reg ∨ ∃ j m', j ≠ i ∧ s.mgrs[j]? = some m' ∧ e ∈ m'.reg := by
  constructor
  · rintro ⟨m', h, he⟩
    obtain ⟨j, hj⟩ := List.getElem?_of_mem h
    by_cases hij : j = i
    · subst hij; rw [hm] at hj; cases hj; exact Or.inl he
    · exact Or.inr ⟨j, m', hij, hj, he⟩
  · rintro (h | ⟨j, m', -, h1, he⟩)
    · exact ⟨m, List.mem_of_getElem? hm, h⟩
    · exact ⟨m', List.mem_of_getElem? h1, he⟩

theorem alive_iff_reg {s : St} {p : Nat} : s.Alive p ↔ some p ∈ s.handles ∨ ∃ k, ∃ m ∈ s.mgrs, (k, p) ∈ m.reg := by
  simp only [St.Alive]
  constructor
  · rintro (h | ⟨m, hm, k, hk⟩)
    · exact Or.inl h
    · exact Or.inr ⟨k, m, hm, hk⟩
  · rintro (h | ⟨k, m, hm, hk⟩)
    · exact Or.inl h
    · exact Or.inr ⟨m, hm, k, hk⟩

theorem alive_addEntry {s s' : St} {i : Nat} {m : Mgr} (hm : s.mgrs[i]? = some m) {k : Key} {q : Nat}
    (h1 : s'.handles = s.handles) (h2 : s'.mgrs = (s.modReg i (fun reg => reg ++ [(k, q)])).mgrs) (p : Nat) :
    s'.Alive p ↔ s.Alive p ∨ p = q := by
  rw [alive_iff_reg, alive_iff_reg, h1]
  have key : ∀ k', (∃ m' ∈ s'.mgrs, (k', p) ∈ m'.reg) ↔
      (∃ m' ∈ s.mgrs, (k', p) ∈ m'.reg) ∨ (k', p) = (k, q) := by
    intro k'
    rw [h2, mgrs_modReg_mem hm, mgrs_mem hm]
    simp only [List.mem_append, List.mem_cons, List.not_mem_nil, or_false]
    constructor
    · rintro ((h | h) | h)
      · exact Or.inl (Or.inl h)
      · exact Or.inr h
      · exact Or.inl (Or.inr h)
    · rintro ((h | h) | h)
      · exact Or.inl (Or.inl h)
      · exact Or.inr h
      · exact Or.inl (Or.inr h)
  constructor
  · rintro (h | ⟨k', h⟩)
    · exact Or.inl (Or.inl h)
    · rcases (key k').1 h with h | h
      · exact Or.inl (Or.inr ⟨k', h⟩)
      · cases h; exact Or.inr rfl
  · rintro ((h | ⟨k', h⟩) | rfl)
    · exact Or.inl h
    · exact Or.inr ⟨k', (key k').2 (Or.inl h)⟩
    · exact Or.inr ⟨k, (key k).2 (Or.inr rfl)⟩

theorem Inv.alive_lt {s : St} (hi : Inv s) {p : Nat} (h : s.Alive p) : p < s.heap.length := by
  rcases h with h | ⟨m, hm, k, hk⟩
  · exact hi.handle p h
  · exact hi.reg_lt hm hk

theorem reg_alive {s : St} {i : Nat} {m : Mgr} (hm : s.mgrs[i]? = some m) {k : Key} {p : Nat}
    (h : regGet m.reg k = some p) : s.Alive p :=
  Or.inr ⟨m, List.mem_of_getElem? hm, k, regGet_mem h⟩

theorem release_fields (env : Env) (p : Nat) (s : St) :
    (s.release env p).heap = s.heap ∧ (s.release env p).handles = s.handles ∧
    (s.release env p).mgrs = s.mgrs ∧ (s.release env p).mgrHandles = s.mgrHandles ∧
    (s.release env p).logs = s.logs ∧ (s.release env p).ctr = s.ctr := by
  obtain ⟨d, -, h⟩ := release_eq env p s
  rw [h]
  exact ⟨rfl, rfl, rfl, rfl, rfl, rfl⟩

theorem releaseAll_fields (env : Env) : ∀ (ps : List Nat) (s : St),
    (releaseAll env ps s).heap = s.heap ∧ (releaseAll env ps s).handles = s.handles ∧
    (releaseAll env ps s).mgrs = s.mgrs ∧ (releaseAll env ps s).mgrHandles = s.mgrHandles ∧
    (releaseAll env ps s).logs = s.logs ∧ (releaseAll env ps s).ctr = s.ctr
  | [], s => ⟨rfl, rfl, rfl, rfl, rfl, rfl⟩
  | p :: ps, s => by
    obtain ⟨a1, a2, a3, a4, a5, a6⟩ := releaseAll_fields env ps (s.release env p)
    obtain ⟨b1, b2, b3, b4, b5, b6⟩ := release_fields env p s
    exact ⟨a1.trans b1, a2.trans b2, a3.trans b3, a4.trans b4, a5.trans b5, a6.trans b6⟩

/-- Releasing: the contents without references are unmounted. -/
theorem releaseAll_dom (env : Env) : ∀ (ps : List Nat) (s : St),
    (releaseAll env ps s).dom = unmountAll env s.heap (ps.filter (fun p => s.refs p = 0)) s.dom
  | [], s => rfl
  | p :: ps, s => by
    rw [releaseAll, releaseAll_dom env ps]
    have hf := release_fields env p s
    have hr : ∀ q, (s.release env p).refs q = s.refs q := by
      intro q; simp only [St.refs, hf.2.1, hf.2.2.1]
    simp only [hr, hf.1]
    by_cases h0 : s.refs p = 0
    · simp only [List.filter_cons, h0, decide_true, if_true, unmountAll, St.release]
      cases s.heap[p]? <;> rfl
    · simp only [List.filter_cons, h0, decide_false, St.release, if_false]
      rfl

theorem release_dom (env : Env) (p : Nat) (s : St) :
    (s.release env p).dom = unmountAll env s.heap (if s.refs p = 0 then [p] else []) s.dom := by
  have := releaseAll_dom env [p] s
  simp only [releaseAll] at this
  rw [this]
  by_cases h0 : s.refs p = 0 <;> simp [h0]

theorem Inv.ptrs_nodup {s : St} (hi : Inv s) {i : Nat} {m : Mgr} (hm : s.mgrs[i]? = some m) :
    (m.reg.map Prod.snd).Nodup := by
  have hk := hi.keys m (List.mem_of_getElem? hm)
  have hr := hi.reg i m hm
  have : ∀ l : List (Key × Nat), (∀ e ∈ l, e ∈ m.reg) → (l.map Prod.fst).Nodup → (l.map Prod.snd).Nodup := by
    intro l
    induction l with
    | nil => intro _ _; simp
    | cons e es ih =>
      intro hl hn
      simp only [List.map_cons, List.nodup_cons] at hn ⊢
      refine ⟨?_, ih (fun e' h' => hl e' (by simp [h'])) hn.2⟩
      intro hmem
      obtain ⟨e', he', h2⟩ := List.mem_map.1 hmem
      obtain ⟨c, c1, c2, -⟩ := hr e (hl e (by simp))
      obtain ⟨c', c1', c2', -⟩ := hr e' (hl e' (by simp [he']))
      rw [h2, c1] at c1'
      cases c1'
      exact hn.1 (List.mem_map.2 ⟨e', he', by rw [← c2', c2]⟩)
  exact this m.reg (fun _ h => h) hk

/-- A registry entry is in one registry only. -/
theorem Inv.reg_unique {s : St} (hi : Inv s) {i j : Nat} {mi mj : Mgr} (h1 : s.mgrs[i]? = some mi)
    (h2 : s.mgrs[j]? = some mj) {k k' : Key} {p : Nat} (hk : (k, p) ∈ mi.reg) (hk' : (k', p) ∈ mj.reg) :
    i = j ∧ k = k' := by
  obtain ⟨c, c1, c2, c3⟩ := hi.reg i mi h1 _ hk
  obtain ⟨c', c1', c2', c3'⟩ := hi.reg j mj h2 _ hk'
  simp only at c1 c1'
  rw [c1] at c1'
  cases c1'
  exact ⟨c3.symm.trans c3', c2.symm.trans c2'⟩

theorem LoadRun.eff {i : Nat} {es : List Entry} {s s' : St} {r : Res Unit} (h : LoadRun i es s s' r) :
    ∃ news, s'.heap = s.heap ++ news ∧ s'.dom = s.dom ∧ s'.handles = s.handles ∧
      (∀ p, p < s.heap.length → (s'.Alive p ↔ s.Alive p)) ∧
      (∀ p, s.heap.length ≤ p → p < s'.heap.length → s'.Alive p) ∧
      (∀ c ∈ news, c.origin = .hydrated ∧ c.mgr = i) := by
  induction h with
  | nil s => exact ⟨[], by simp, rfl, rfl, fun p _ => Iff.rfl, fun p h1 h2 => absurd h2 (by omega), by simp⟩
  | same e es s s' r m p c _ _ _ _ _ ih => exact ih
  | conflict e es s m p c _ _ _ _ =>
    exact ⟨[], by simp, rfl, rfl, fun p _ => Iff.rfl, fun p h1 h2 => absurd h2 (by omega), by simp⟩
  | fresh e es s s' r m hm hg hrun ih =>
    obtain ⟨news, h1, h2, h3, h4, h5, h6⟩ := ih
    let s1 : St := ({ s with heap := s.heap ++ [loadedContent i e] } : St).modReg i
        (fun reg => reg ++ [(e.key, s.heap.length)])
    have hal : ∀ p, s1.Alive p ↔ s.Alive p ∨ p = s.heap.length := alive_addEntry (s := s) hm rfl rfl
    have hlen : s1.heap.length = s.heap.length + 1 := by simp [s1, St.modReg, St.modMgr]
    refine ⟨loadedContent i e :: news, ?_, h2, h3, ?_, ?_, ?_⟩
    · rw [h1]; simp [St.modReg, St.modMgr]
    · intro p hp
      refine (h4 p (by show p < s1.heap.length; omega)).trans ((hal p).trans ?_)
      constructor
      · rintro (h | h)
        · exact h
        · omega
      · exact Or.inl
    · intro p hp1 hp2
      by_cases hp : p = s.heap.length
      · refine (h4 p (by show p < s1.heap.length; omega)).2 ((hal p).2 (Or.inr hp))
      · exact h5 p (by show s1.heap.length ≤ p; omega) hp2
    · intro c hc
      rcases List.mem_cons.1 hc with rfl | hc
      · exact ⟨rfl, rfl⟩
      · exact h6 c hc

theorem mount_cases {env : Env} {fault : Bool} {m : Mgr} {c : Content} {d d' : Dom}
    (h : mount env fault m c d = some d') :
    (env.wasm = true → ∃ i, m.container = some i ∧ d' = d.appendChild i (.style c.id c.text)) ∧
    (env.wasm = false → d' = d) := by
  simp only [mount] at h
  split at h
  · rename_i hw
    refine ⟨fun _ => ?_, fun h' => by rw [hw] at h'; cases h'⟩
    split at h
    · cases h
    · split at h
      · cases h
      · rename_i i hi
        refine ⟨i, hi, ?_⟩
        split at h
        · cases h; rfl
        · split at h
          · rename_i first hf
            simp only [Dom.firstChild] at hf
            split at hf
            · cases hf
            · cases hf
              simp [Dom.insertBefore, Dom.NodeRef.parent] at h
          · cases h; rfl
  · rename_i hw
    refine ⟨fun h' => absurd h' hw, fun _ => ?_⟩
    cases h; rfl

theorem Tr.eff {env : Env} {op : Op} {s s' : St} {out : Out} (h : Tr env op s s' out) (hi : Inv s) : Eff env s s' := by
  cases h with
  | invalid => exact .same rfl rfl (fun p _ => Iff.rfl)
  | renderStatic => exact .same rfl rfl (fun p _ => Iff.rfl)
  | newMgrErr => exact .same rfl rfl (fun p _ => Iff.rfl)
  | newMgr => exact .same rfl rfl (fun p _ => alive_addMgr (by exact rfl) (by exact rfl) (by exact rfl) p)
  | cloneMgr => exact .same rfl rfl (fun p _ => Iff.rfl)
  | dropMgr => exact .same rfl rfl (fun p _ => Iff.rfl)
  | dropMgrLast mh i _ m h ha hm =>
    let s1 : St := ({ s with mgrHandles := s.mgrHandles.set mh none } : St).modReg i (fun _ => [])
    have hf := releaseAll_fields env (m.reg.map Prod.snd) s1
    have hreg : ∀ e : Key × Nat, (∃ m' ∈ s1.mgrs, e ∈ m'.reg) ↔ ∃ j m', j ≠ i ∧ s.mgrs[j]? = some m' ∧ e ∈ m'.reg := by
      intro e
      refine (mgrs_modReg_mem (s := { s with mgrHandles := s.mgrHandles.set mh none }) hm (fun _ => []) e).trans ?_
      simp
    have hal : ∀ p, s1.Alive p ↔ s.Alive p ∧ ¬ (s1.refs p = 0 ∧ p ∈ m.reg.map Prod.snd) := by
      intro p
      rw [alive_iff]
      constructor
      · intro h0
        refine ⟨?_, fun h1 => h0 h1.1⟩
        rw [← alive_iff, alive_iff_reg] at h0
        rw [alive_iff_reg]
        rcases h0 with h0 | ⟨k, h0⟩
        · exact Or.inl h0
        · obtain ⟨j, m', -, h1, h2⟩ := (hreg _).1 h0
          exact Or.inr ⟨k, m', List.mem_of_getElem? h1, h2⟩
      · rintro ⟨h0, h1⟩ h2
        apply h1
        refine ⟨h2, ?_⟩
        rw [alive_iff_reg] at h0
        have h3 : ¬ s1.Alive p := by rw [alive_iff]; simpa using h2
        rw [alive_iff_reg] at h3
        rcases h0 with h0 | ⟨k, h0⟩
        · exact absurd (Or.inl h0) h3
        · rcases (mgrs_mem hm _).1 h0 with h4 | h4
          · exact List.mem_map.2 ⟨_, h4, rfl⟩
          · exact absurd (Or.inr ⟨k, (hreg _).2 h4⟩) h3
    refine .dropped ((m.reg.map Prod.snd).filter (fun p => s1.refs p = 0)) hf.1
      ((hi.ptrs_nodup hm).sublist List.filter_sublist) ?_ ?_ (releaseAll_dom env _ s1)
    · intro q hq
      obtain ⟨e, he, rfl⟩ := List.mem_map.1 (List.mem_filter.1 hq).1
      have : s.Alive e.2 := Or.inr ⟨m, List.mem_of_getElem? hm, e.1, he⟩
      exact ⟨this, hi.alive_lt this⟩
    · intro p
      refine (alive_congr (s := s1) hf.2.1 hf.2.2.1 p).trans ((hal p).trans ?_)
      rw [List.mem_filter]
      simp only [decide_eq_true_eq]
      constructor
      · rintro ⟨h1, h2⟩; exact ⟨h1, fun h3 => h2 ⟨h3.2, h3.1⟩⟩
      · rintro ⟨h1, h2⟩; exact ⟨h1, fun h3 => h2 ⟨h3.2, h3.1⟩⟩
  | createSyntax => exact .same rfl rfl (fun p _ => Iff.rfl)
  | createHit mh kind src fault _ i m ast q h hm hs hg =>
    refine .same rfl rfl (fun p _ => ?_)
    refine (alive_addHandle (s := s) (q := q) (by exact rfl) (by exact rfl) p).trans ?_
    constructor
    · rintro (h | rfl)
      · exact h
      · exact reg_alive hm hg
    · exact Or.inl
  | createDebug => exact .same rfl rfl (fun p _ => Iff.rfl)
  | createStatic mh kind src fault _ i m ast l log c h hm hs hg hc hd hl hlog =>
    have hal : ∀ p, St.Alive (({ s with
            ctr := s.ctr + 1
            heap := s.heap ++ [c]
            logs := s.logs.set l { log with entries := log.entries ++ [{ key := c.key, id := c.id, text := c.text }] }
            handles := s.handles ++ [some s.heap.length] } : St).modReg i
          (fun reg => reg ++ [(c.key, s.heap.length)])) p ↔ s.Alive p ∨ p = s.heap.length := by
      intro p
      refine (alive_addHandle (s := s.modReg i (fun reg => reg ++ [(c.key, s.heap.length)])) (q := s.heap.length) (by exact rfl) (by exact rfl) p).trans ?_
      rw [alive_addEntry (s := s) hm (k := c.key) (q := s.heap.length) (by exact rfl) (by exact rfl)]
      constructor
      · rintro ((h | h) | h)
        · exact Or.inl h
        · exact Or.inr h
        · exact Or.inr h
      · rintro (h | h)
        · exact Or.inl (Or.inl h)
        · exact Or.inr h
    refine .quiet [c] rfl rfl ?_ ?_ ?_
    · intro p hp
      rw [hal]
      constructor
      · rintro (h | h)
        · exact h
        · omega
      · exact Or.inl
    · intro p hp1 hp2
      rw [hal]
      have : p < (s.heap ++ [c]).length := hp2
      simp only [List.length_append, List.length_cons, List.length_nil] at this
      exact Or.inr (by omega)
    · intro c' hc'
      simp only [List.mem_cons, List.not_mem_nil, or_false] at hc'
      subst hc'
      refine Or.inr ⟨m, l, ?_, hl⟩
      rw [hc]; exact hm
  | createFail mh kind src fault _ i m ast c h hm hs hg hc hd hl hmt =>
    refine .failed c rfl (by rw [hc]; rfl) rfl (fun p _ => Iff.rfl) ?_
    intro h
    exact Nat.lt_irrefl _ (hi.alive_lt (p := s.heap.length) h)
  | createMount mh kind src fault _ i m ast c d h hm hs hg hc hd hl hmt =>
    have hal : ∀ p, St.Alive (({ s with
            ctr := s.ctr + 1
            heap := s.heap ++ [c]
            dom := d
            handles := s.handles ++ [some s.heap.length] } : St).modReg i
          (fun reg => reg ++ [(c.key, s.heap.length)])) p ↔ s.Alive p ∨ p = s.heap.length := by
      intro p
      refine (alive_addHandle (s := s.modReg i (fun reg => reg ++ [(c.key, s.heap.length)])) (q := s.heap.length) (by exact rfl) (by exact rfl) p).trans ?_
      rw [alive_addEntry (s := s) hm (k := c.key) (q := s.heap.length) (by exact rfl) (by exact rfl)]
      constructor
      · rintro ((h | h) | h)
        · exact Or.inl h
        · exact Or.inr h
        · exact Or.inr h
      · rintro (h | h)
        · exact Or.inl (Or.inl h)
        · exact Or.inr h
    have hmc := mount_cases hmt
    refine .mounted c m rfl (by rw [hc]; rfl) (by rw [hc]; exact hm) hl hmc.1 hmc.2 ?_ ?_
    · intro p hp
      rw [hal]
      constructor
      · rintro (h | h)
        · exact h
        · omega
      · exact Or.inl
    · rw [hal]; exact Or.inr rfl
  | clone h q _ e =>
    refine .same rfl rfl (fun p _ => ?_)
    refine (alive_addHandle (s := s) (q := q) (by exact rfl) (by exact rfl) p).trans ?_
    constructor
    · rintro (h | rfl)
      · exact h
      · exact Or.inl (contentOf_mem e)
    · exact Or.inl
  | drop h q _ e =>
    let s1 : St := { s with handles := s.handles.set h none }
    have hf := release_fields env q s1
    have hq : s.Alive q := Or.inl (contentOf_mem e)
    have hmem : ∀ p, p ≠ q → (some p ∈ s1.handles ↔ some p ∈ s.handles) := by
      intro p hp
      constructor
      · exact mem_set_none
      · intro hp'
        obtain ⟨n, hn⟩ := List.getElem?_of_mem hp'
        have hne : h ≠ n := by
          rintro rfl
          simp only [St.contentOf, hn, Option.join_some] at e
          cases e; exact hp rfl
        refine List.mem_of_getElem? (i := n) ?_
        show (s.handles.set h none)[n]? = _
        rw [List.getElem?_set_ne hne]; exact hn
    refine .dropped (if s1.refs q = 0 then [q] else []) hf.1 ?_ ?_ ?_ (release_dom env q s1)
    · split <;> simp
    · intro q' hq'
      split at hq'
      · simp only [List.mem_cons, List.not_mem_nil, or_false] at hq'
        subst hq'; exact ⟨hq, hi.alive_lt hq⟩
      · cases hq'
    · intro p
      refine (alive_congr (s := s1) hf.2.1 hf.2.2.1 p).trans ?_
      by_cases hp : p = q
      · subst hp
        rw [alive_iff]
        by_cases h0 : s1.refs p = 0 <;> simp [h0, hq]
      · have h1 : s1.Alive p ↔ s.Alive p := by
          show _ ∨ _ ↔ _ ∨ _
          rw [hmem p hp]
        rw [h1]
        by_cases h0 : s1.refs q = 0 <;> simp [h0, hp]
  | unregisterDead => exact .same rfl rfl (fun p _ => Iff.rfl)
  | unregisterNone => exact .same rfl rfl (fun p _ => Iff.rfl)
  | unregister h p0 q _ c m e hc hm hg =>
    let s1 : St := s.modReg c.mgr (fun reg => regRemove reg c.key)
    have hf := release_fields env q s1
    have hq : s.Alive q := reg_alive hm hg
    have hreg : ∀ k p, p ≠ q → ((∃ m' ∈ s1.mgrs, (k, p) ∈ m'.reg) ↔ ∃ m' ∈ s.mgrs, (k, p) ∈ m'.reg) := by
      intro k p hp
      rw [mgrs_modReg_mem hm, mgrs_mem hm]
      constructor
      · rintro (h | h)
        · exact Or.inl (List.mem_filter.1 h).1
        · exact Or.inr h
      · rintro (h | h)
        · refine Or.inl (List.mem_filter.2 ⟨h, ?_⟩)
          simp only [decide_eq_true_eq]
          rintro rfl
          have := mem_regGet (hi.keys m (List.mem_of_getElem? hm)) h
          rw [hg] at this
          cases this; exact hp rfl
        · exact Or.inr h
    refine .dropped (if s1.refs q = 0 then [q] else []) hf.1 ?_ ?_ ?_ (release_dom env q s1)
    · split <;> simp
    · intro q' hq'
      split at hq'
      · simp only [List.mem_cons, List.not_mem_nil, or_false] at hq'
        subst hq'; exact ⟨hq, hi.alive_lt hq⟩
      · cases hq'
    · intro p
      refine (alive_congr (s := s1) hf.2.1 hf.2.2.1 p).trans ?_
      by_cases hp : p = q
      · subst hp
        rw [alive_iff]
        by_cases h0 : s1.refs p = 0 <;> simp [h0, hq]
      · have h1 : s1.Alive p ↔ s.Alive p := by
          rw [alive_iff_reg, alive_iff_reg]
          refine or_congr Iff.rfl (exists_congr (fun k => hreg k p hp))
        rw [h1]
        by_cases h0 : s1.refs q = 0 <;> simp [h0, hp]
  | load mh i data _ _ r _ h hr _ =>
    obtain ⟨news, h1, h2, h3, h4, h5, h6⟩ := hr.eff
    exact .quiet news h1 (by rw [h2]) h4 h5 (fun c hc => Or.inl (h6 c hc).1)
  | readData => exact .same rfl rfl (fun p _ => Iff.rfl)
  | styleDataNone => exact .same rfl rfl (fun p _ => Iff.rfl)
  | styleData => exact .same rfl rfl (fun p _ => Iff.rfl)
  | page i ch _ hp => exact .same rfl (page_same hp) (fun p _ => Iff.rfl)

end Manager
