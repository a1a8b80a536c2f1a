import Verif.Proofs.Effects

/-!
# What stays the same along a history
-/

namespace Manager

/-! ## One step -/

theorem Eff.heap {env : Env} {s s' : St} (h : Eff env s s') : ∃ news, s'.heap = s.heap ++ news := by
  cases h with
  | quiet news h => exact ⟨news, h⟩
  | mounted c m h => exact ⟨[c], h⟩
  | failed c h => exact ⟨[c], h⟩
  | dropped qs h => exact ⟨[], by simp [h]⟩

/-- The settings of a manager. -/
def Mgr.Same (m m' : Mgr) : Prop :=
  m'.pref = m.pref ∧ m'.container = m.container ∧ m'.append = m.append ∧ m'.log = m.log

theorem Mgr.Same.refl (m : Mgr) : m.Same m := ⟨rfl, rfl, rfl, rfl⟩

theorem Mgr.Same.trans {a b c : Mgr} (h : a.Same b) (h' : b.Same c) : a.Same c :=
  ⟨h'.1.trans h.1, h'.2.1.trans h.2.1, h'.2.2.1.trans h.2.2.1, h'.2.2.2.trans h.2.2.2⟩

theorem modReg_get {s : St} {i j : Nat} {m : Mgr} (f : List (Key × Nat) → List (Key × Nat))
    (h : s.mgrs[j]? = some m) :
    (s.modReg i f).mgrs[j]? = some { m with reg := if i = j then f m.reg else m.reg } := by
  simp only [St.modReg, St.modMgr, List.getElem?_modify, h]
  by_cases hij : i = j <;> simp [hij]

theorem LoadRun.mgrs {i : Nat} {es : List Entry} {s s' : St} {r : Res Unit} (h : LoadRun i es s s' r) :
    s'.mgrHandles = s.mgrHandles ∧ s'.logs = s.logs ∧ s'.ctr = s.ctr ∧
    ∀ j m, s.mgrs[j]? = some m → ∃ m', s'.mgrs[j]? = some m' ∧ m.Same m' ∧
      (j ≠ i → m' = m) ∧ (∀ k p, regGet m.reg k = some p → regGet m'.reg k = some p) ∧
      (∀ e ∈ m'.reg, e ∈ m.reg ∨ s.heap.length ≤ e.2) := by
  induction h with
  | nil s => exact ⟨rfl, rfl, rfl, fun j m hm => ⟨m, hm, .refl m, fun _ => rfl, fun _ _ h => h, fun e h => Or.inl h⟩⟩
  | same e es s s' r m p c _ _ _ _ _ ih => exact ih
  | conflict e es s m p c _ _ _ _ =>
    exact ⟨rfl, rfl, rfl, fun j m hm => ⟨m, hm, .refl m, fun _ => rfl, fun _ _ h => h, fun e h => Or.inl h⟩⟩
  | fresh e es s s' r m0 hm0 hg hrun ih =>
    obtain ⟨h1, h2, h3, h4⟩ := ih
    refine ⟨h1, h2, h3, ?_⟩
    intro j m hm
    have hj := modReg_get (s := { s with heap := s.heap ++ [loadedContent i e] }) (i := i)
      (fun reg => reg ++ [(e.key, s.heap.length)]) hm
    obtain ⟨m', a1, a2, a3, a4, a5⟩ := h4 j _ hj
    refine ⟨m', a1, Mgr.Same.trans ⟨rfl, rfl, rfl, rfl⟩ a2, ?_, ?_, ?_⟩
    · intro hji
      rw [a3 hji]
      have : ¬ i = j := fun h => hji h.symm
      simp [this]
    · intro k p hk
      apply a4
      by_cases hij : i = j
      · subst hij
        rw [hm0] at hm; cases hm
        have : k ≠ e.key := by rintro rfl; rw [hg] at hk; cases hk
        simp only [if_true]
        rw [regGet_append_ne _ this]; exact hk
      · simpa [hij] using hk
    · intro x hx
      rcases a5 x hx with h | h
      · by_cases hij : i = j
        · simp only [hij, if_true, List.mem_append, List.mem_cons, List.not_mem_nil, or_false] at h
          rcases h with h | rfl
          · exact Or.inl h
          · exact Or.inr (Nat.le_refl _)
        · simp only [hij, if_false] at h
          exact Or.inl h
      · refine Or.inr ?_
        simp only [St.modReg, St.modMgr, List.length_append, List.length_cons, List.length_nil] at h
        omega

/-! What a step does to a manager. -/

theorem Tr.mgr {env : Env} {op : Op} {s s' : St} {out : Out} (h : Tr env op s s' out)
    {j : Nat} {m : Mgr} (hm : s.mgrs[j]? = some m) :
    ∃ m', s'.mgrs[j]? = some m' ∧ m.Same m' ∧
      (∀ k p, regGet m.reg k = some p → regGet m'.reg k = some p ∨ Unregisters op s j k ∨ some j ∉ s'.mgrHandles) ∧
      (∀ e ∈ m'.reg, e ∈ m.reg ∨ s.heap.length ≤ e.2) := by
  have base : ∀ s'' : St, s''.mgrs[j]? = some m → ∃ m', s''.mgrs[j]? = some m' ∧ m.Same m' ∧
      (∀ k p, regGet m.reg k = some p → regGet m'.reg k = some p ∨ Unregisters op s j k ∨ some j ∉ s''.mgrHandles) ∧
      (∀ e ∈ m'.reg, e ∈ m.reg ∨ s.heap.length ≤ e.2) :=
    fun s'' h => ⟨m, h, .refl m, fun _ _ h => Or.inl h, fun e h => Or.inl h⟩
  have add : ∀ (s'' : St) (i : Nat) (k0 : Key) (m0 : Mgr), s.mgrs[i]? = some m0 → regGet m0.reg k0 = none →
      s''.mgrs = (s.modReg i (fun reg => reg ++ [(k0, s.heap.length)])).mgrs →
      ∃ m', s''.mgrs[j]? = some m' ∧ m.Same m' ∧
      (∀ k p, regGet m.reg k = some p → regGet m'.reg k = some p ∨ Unregisters op s j k ∨ some j ∉ s''.mgrHandles) ∧
      (∀ e ∈ m'.reg, e ∈ m.reg ∨ s.heap.length ≤ e.2) := by
    intro s'' i k0 m0 hm0 hg hs
    rw [hs]
    refine ⟨_, modReg_get _ hm, ⟨rfl, rfl, rfl, rfl⟩, ?_, ?_⟩
    · intro k p hk
      refine Or.inl ?_
      by_cases hij : i = j
      · subst hij
        rw [hm0] at hm; cases hm
        have : k ≠ k0 := by rintro rfl; rw [hg] at hk; cases hk
        simp only [if_true]
        rw [regGet_append_ne _ this]; exact hk
      · simpa [hij] using hk
    · intro e he
      by_cases hij : i = j
      · simp only [hij, if_true, List.mem_append, List.mem_cons, List.not_mem_nil, or_false] at he
        rcases he with he | rfl
        · exact Or.inl he
        · exact Or.inr (Nat.le_refl _)
      · simp only [hij, if_false] at he; exact Or.inl he
  cases h with
  | invalid => exact base _ hm
  | renderStatic => exact base _ hm
  | newMgrErr => exact base _ hm
  | newMgr => exact base _ (getElem?_append_of _ hm)
  | cloneMgr => exact base _ hm
  | dropMgr => exact base _ hm
  | dropMgrLast mh i _ m0 h ha hm0 =>
    let s1 : St := ({ s with mgrHandles := s.mgrHandles.set mh none } : St).modReg i (fun _ => [])
    have hf := releaseAll_fields env (m0.reg.map Prod.snd) s1
    have hg : s1.mgrs[j]? = _ := modReg_get (s := { s with mgrHandles := s.mgrHandles.set mh none }) (i := i) (fun _ => []) hm
    have hmh : s1.mgrHandles = s.mgrHandles.set mh none := rfl
    simp only [s1] at hf hg hmh
    rw [hf.2.2.1, hf.2.2.2.1, hmh, hg]
    refine ⟨_, rfl, ⟨rfl, rfl, rfl, rfl⟩, ?_, ?_⟩
    · intro k p hk
      by_cases hij : i = j
      · subst hij
        exact Or.inr (Or.inr ha)
      · left; simpa [hij] using hk
    · intro e he
      by_cases hij : i = j
      · simp [hij] at he
      · simp only [hij, if_false] at he; exact Or.inl he
  | createSyntax => exact base _ hm
  | createHit => exact base _ hm
  | createDebug => exact base _ hm
  | createStatic mh kind src fault _ i m0 ast l log c h hm0 hs hg hc =>
    exact add _ i _ m0 hm0 (by rw [hc]; exact hg) rfl
  | createFail => exact base _ hm
  | createMount mh kind src fault _ i m0 ast c d h hm0 hs hg hc =>
    exact add _ i _ m0 hm0 (by rw [hc]; exact hg) rfl
  | clone => exact base _ hm
  | drop h p _ e =>
    have hf := release_fields env p ({ s with handles := s.handles.set h none } : St)
    exact base _ (by rw [hf.2.2.1]; exact hm)
  | unregisterDead => exact base _ hm
  | unregisterNone => exact base _ hm
  | unregister h p q _ c m0 e hc hm0 hg =>
    have hf := release_fields env q (s.modReg c.mgr (fun reg => regRemove reg c.key))
    rw [hf.2.2.1, hf.2.2.2.1]
    refine ⟨_, modReg_get _ hm, ⟨rfl, rfl, rfl, rfl⟩, ?_, ?_⟩
    · intro k p' hk
      by_cases hij : c.mgr = j
      · by_cases hkk : k = c.key
        · exact Or.inr (Or.inl ⟨h, p, c, rfl, e, hc, hij, hkk.symm⟩)
        · left
          simp only [hij, if_true]
          rw [regRemove_get_ne _ hkk]; exact hk
      · left; simpa [hij] using hk
    · intro x hx
      by_cases hij : c.mgr = j
      · simp only [hij, if_true] at hx; exact Or.inl (List.mem_filter.1 hx).1
      · simp only [hij, if_false] at hx; exact Or.inl hx
  | load mh i data _ _ r _ h hr _ =>
    obtain ⟨h1, -, -, h4⟩ := hr.mgrs
    obtain ⟨m', a1, a2, -, a4, a5⟩ := h4 j m hm
    exact ⟨m', a1, a2, fun k p hk => Or.inl (a4 k p hk), a5⟩
  | readData => exact base _ hm
  | styleDataNone => exact base _ hm
  | styleData => exact base _ hm
  | page => exact base _ hm

/-- The user's handles and manager handles. -/
theorem Tr.handles {env : Env} {op : Op} {s s' : St} {out : Out} (h : Tr env op s s' out) :
    (∃ n, s'.handles = s.handles ++ n) ∨ ∃ h p, op = .drop h ∧ s.contentOf h = some p ∧ s'.handles = s.handles.set h none := by
  cases h with
  | invalid => exact Or.inl ⟨[], by simp⟩
  | renderStatic => exact Or.inl ⟨[], by simp⟩
  | newMgrErr => exact Or.inl ⟨[], by simp⟩
  | newMgr => exact Or.inl ⟨[], by simp⟩
  | cloneMgr => exact Or.inl ⟨[], by simp⟩
  | dropMgr => exact Or.inl ⟨[], by simp⟩
  | dropMgrLast mh i _ m0 h ha hm0 =>
    exact Or.inl ⟨[], by simp [(releaseAll_fields env _ _).2.1, St.modReg, St.modMgr]⟩
  | createSyntax => exact Or.inl ⟨[], by simp⟩
  | createHit => exact Or.inl ⟨_, rfl⟩
  | createDebug => exact Or.inl ⟨[], by simp⟩
  | createStatic => exact Or.inl ⟨_, rfl⟩
  | createFail => exact Or.inl ⟨[], by simp⟩
  | createMount => exact Or.inl ⟨_, rfl⟩
  | clone => exact Or.inl ⟨_, rfl⟩
  | drop h p _ e => exact Or.inr ⟨h, p, rfl, e, by rw [(release_fields env _ _).2.1]⟩
  | unregisterDead => exact Or.inl ⟨[], by simp⟩
  | unregisterNone => exact Or.inl ⟨[], by simp⟩
  | unregister => exact Or.inl ⟨[], by simp [(release_fields env _ _).2.1, St.modReg, St.modMgr]⟩
  | load mh i data _ _ r _ h hr _ =>
    obtain ⟨-, -, -, h3, -⟩ := hr.eff
    exact Or.inl ⟨[], by simp [h3]⟩
  | readData => exact Or.inl ⟨[], by simp⟩
  | styleDataNone => exact Or.inl ⟨[], by simp⟩
  | styleData => exact Or.inl ⟨[], by simp⟩
  | page => exact Or.inl ⟨[], by simp⟩

theorem Tr.mgrHandles {env : Env} {op : Op} {s s' : St} {out : Out} (h : Tr env op s s' out)
    {i : Nat} (hlt : i < s.mgrs.length) (hd : some i ∉ s.mgrHandles) : some i ∉ s'.mgrHandles := by
  cases h with
  | newMgr =>
    simp only [List.mem_append, List.mem_cons, List.not_mem_nil, or_false, Option.some.injEq, not_or]
    exact ⟨hd, by omega⟩
  | cloneMgr mh j _ h =>
    simp only [List.mem_append, List.mem_cons, List.not_mem_nil, or_false, Option.some.injEq, not_or]
    refine ⟨hd, ?_⟩
    rintro rfl
    exact hd (mgrOf_mem h)
  | dropMgr => exact fun h => hd (mem_set_none h)
  | dropMgrLast mh i' _ m0 h ha hm0 =>
    rw [(releaseAll_fields env _ _).2.2.2.1]
    exact fun h => hd (mem_set_none h)
  | drop h p _ e => rw [(release_fields env _ _).2.2.2.1]; exact hd
  | unregister => rw [(release_fields env _ _).2.2.2.1]; exact hd
  | load mh i' data _ _ r _ h hr _ => rw [hr.mgrs.1]; exact hd
  | _ => exact hd

/-! ## Histories -/

theorem heap_run (env : Env) : ∀ (ops : List Op) {s : St}, Inv s → ∃ news, (run env ops s).heap = s.heap ++ news
  | [], s, _ => ⟨[], by simp [run]⟩
  | op :: ops, s, hi => by
    obtain ⟨n1, h1⟩ := ((step_tr env hi op).eff hi).heap
    obtain ⟨n2, h2⟩ := heap_run env ops (inv_step env op hi)
    exact ⟨n1 ++ n2, by rw [run, h2, h1, List.append_assoc]⟩

theorem heap_get_run (env : Env) (ops : List Op) {s : St} (hi : Inv s) {p : Nat} {c : Content}
    (h : s.heap[p]? = some c) : (run env ops s).heap[p]? = some c := by
  obtain ⟨n, hn⟩ := heap_run env ops hi
  rw [hn]; exact getElem?_append_of n h

theorem mgr_run (env : Env) : ∀ (ops : List Op) {s : St}, Inv s → ∀ {j : Nat} {m : Mgr}, s.mgrs[j]? = some m →
    ∃ m', (run env ops s).mgrs[j]? = some m' ∧ m.Same m'
  | [], s, _, j, m, hm => ⟨m, hm, .refl m⟩
  | op :: ops, s, hi, j, m, hm => by
    obtain ⟨m1, h1, h2, -⟩ := (step_tr env hi op).mgr hm
    obtain ⟨m2, h3, h4⟩ := mgr_run env ops (inv_step env op hi) h1
    exact ⟨m2, h3, h2.trans h4⟩

theorem dead_run (env : Env) : ∀ (ops : List Op) {s : St}, Inv s → ∀ {i : Nat}, i < s.mgrs.length →
    some i ∉ s.mgrHandles → some i ∉ (run env ops s).mgrHandles
  | [], s, _, i, _, hd => hd
  | op :: ops, s, hi, i, hlt, hd => by
    have ht := step_tr env hi op
    obtain ⟨m', h1, -⟩ := ht.mgr (List.getElem?_eq_getElem hlt)
    exact dead_run env ops (inv_step env op hi) (List.getElem?_eq_some_iff.1 h1).1 (ht.mgrHandles hlt hd)

/-- An entry stays in the registry. -/
theorem reg_run (env : Env) : ∀ (ops : List Op) {s : St}, Inv s → ∀ {i : Nat} {m : Mgr} {k : Key} {p : Nat},
    s.mgrs[i]? = some m → regGet m.reg k = some p →
    Along env (fun s op => ¬ Unregisters op s i k) ops s → some i ∈ (run env ops s).mgrHandles →
    ∃ m', (run env ops s).mgrs[i]? = some m' ∧ m.Same m' ∧ regGet m'.reg k = some p
  | [], s, _, i, m, k, p, hm, hg, _, _ => ⟨m, hm, .refl m, hg⟩
  | op :: ops, s, hi, i, m, k, p, hm, hg, ha, hl => by
    obtain ⟨ha1, ha2⟩ := ha
    have ht := step_tr env hi op
    have hi' := inv_step env op hi
    obtain ⟨m1, h1, h2, h3, -⟩ := ht.mgr hm
    have hl1 : some i ∈ (step env op s).1.mgrHandles := by
      refine Classical.byContradiction (fun hn => ?_)
      exact dead_run env ops hi' (List.getElem?_eq_some_iff.1 h1).1 hn hl
    rcases h3 k p hg with h | h | h
    · obtain ⟨m2, h4, h5, h6⟩ := reg_run env ops hi' h1 h ha2 hl
      exact ⟨m2, h4, h2.trans h5, h6⟩
    · exact absurd h ha1
    · exact absurd hl1 h

/-- A content is registered only when it is new. -/
theorem unreg_run (env : Env) : ∀ (ops : List Op) {s : St}, Inv s → ∀ {p : Nat}, p < s.heap.length →
    (∀ m ∈ s.mgrs, ∀ k, (k, p) ∉ m.reg) → ∀ m ∈ (run env ops s).mgrs, ∀ k, (k, p) ∉ m.reg
  | [], s, _, p, _, h => h
  | op :: ops, s, hi, p, hp, h => by
    have ht := step_tr env hi op
    have hi' := inv_step env op hi
    obtain ⟨n, hn⟩ := (ht.eff hi).heap
    refine unreg_run env ops hi' (by rw [hn, List.length_append]; omega) ?_
    intro m hm k hk
    obtain ⟨j, hj⟩ := List.getElem?_of_mem hm
    obtain ⟨c, hc, -, hcm⟩ := hi'.reg j m hj _ hk
    have hc0 : s.heap[p]? = some c := by
      rw [hn, List.getElem?_append_left hp] at hc; exact hc
    have hj0 : j < s.mgrs.length := by
      rw [← hcm]; exact hi.contentMgr c (List.mem_of_getElem? hc0)
    obtain ⟨m', h1, -, -, h4⟩ := ht.mgr (List.getElem?_eq_getElem hj0)
    rw [hj] at h1; cases h1
    rcases h4 _ hk with h5 | h5
    · exact h _ (List.getElem_mem hj0) k h5
    · exact absurd hp (by simp only at h5; omega)

/-- A handle either still refers to the same style or has been dropped. -/
theorem contentOf_step (env : Env) (op : Op) {s : St} (hi : Inv s) {h : Nat} (hlt : h < s.handles.length) :
    h < (step env op s).1.handles.length ∧
    ((step env op s).1.contentOf h = s.contentOf h ∨ (op = .drop h ∧ (step env op s).1.contentOf h = none)) := by
  rcases (step_tr env hi op).handles with ⟨n, hn⟩ | ⟨h', p, rfl, e, hn⟩
  · refine ⟨by rw [hn, List.length_append]; omega, Or.inl ?_⟩
    simp only [St.contentOf, hn, List.getElem?_append_left hlt]
  · refine ⟨by rw [hn, List.length_set]; exact hlt, ?_⟩
    simp only [St.contentOf, hn]
    by_cases hh : h' = h
    · subst hh
      right
      simp [List.getElem?_set_self hlt]
    · left
      rw [List.getElem?_set_ne hh]

theorem contentOf_run (env : Env) : ∀ (ops : List Op) {s : St}, Inv s → ∀ {h : Nat}, h < s.handles.length →
    (run env ops s).contentOf h = s.contentOf h ∨
      (Op.drop h ∈ ops ∧ (run env ops s).contentOf h = none)
  | [], _, _, _, _ => Or.inl rfl
  | op :: ops, s, hi, h, hlt => by
    obtain ⟨h1, h2⟩ := contentOf_step env op hi hlt
    rcases contentOf_run env ops (inv_step env op hi) h1 with h3 | ⟨h3, h4⟩
    · rcases h2 with h2 | ⟨rfl, h2⟩
      · exact Or.inl (h3.trans h2)
      · exact Or.inr ⟨by simp, h3.trans h2⟩
    · exact Or.inr ⟨by simp [h3], h4⟩

theorem contentOf_lt {s : St} {h p : Nat} (e : s.contentOf h = some p) : h < s.handles.length := by
  simp only [St.contentOf, Option.join_eq_some_iff] at e
  exact (List.getElem?_eq_some_iff.1 e).1

/-- The flag `attached` never changes. -/
theorem Eff.attached {env : Env} {s s' : St} (h : Eff env s s') :
    s'.dom.map Container.attached = s.dom.map Container.attached := by
  have hs : ∀ d : Dom, d.map Container.attached = (styles d).map Prod.fst := by
    intro d; simp [styles, Function.comp_def]
  have hu : ∀ (heap : List Content) (qs : List Nat) (d : Dom),
      (unmountAll env heap qs d).map Container.attached = d.map Container.attached := by
    intro heap qs
    induction qs with
    | nil => intro d; rfl
    | cons q qs ih =>
      intro d
      rw [unmountAll, ih]
      split
      · exact attached_unmount _ _ _
      · rfl
  cases h with
  | quiet news _ h => rw [hs, hs, h]
  | mounted c m _ _ _ _ hw hn =>
    by_cases h : env.wasm = true
    · obtain ⟨i, -, e⟩ := hw h
      rw [e]; exact attached_setChildren _ _ _
    · rw [hn (by simpa using h)]
  | failed c _ _ h => rw [h]; exact attached_unmount _ _ _
  | dropped qs _ _ _ _ h => rw [h]; exact hu _ _ _

theorem attached_run (env : Env) : ∀ (ops : List Op) {s : St}, Inv s →
    (run env ops s).dom.map Container.attached = s.dom.map Container.attached
  | [], _, _ => rfl
  | op :: ops, s, hi => by
    rw [run, attached_run env ops (inv_step env op hi)]
    exact ((step_tr env hi op).eff hi).attached

end Manager
