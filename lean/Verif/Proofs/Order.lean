import Verif.Proofs.Contents

/-!
# Order of elements, isolation of managers, and outcomes of creations
-/

namespace Manager

/-! ## Order -/

theorem styles_filter {d d' : Dom} (h : styles d' = styles d) {P : Child → Bool} (hP : ∀ n, P (.other n) = false) (i : Nat) :
    (d'.childrenOf i).filter P = (d.childrenOf i).filter P := by
  have key : ∀ l : List Child, l.filter P = (l.filter Child.isStyle).filter P := by
    intro l
    rw [List.filter_filter]
    apply List.filter_congr
    intro c _
    cases c <;> simp [Child.isStyle, hP]
  rw [key, childrenOf_styles, h, ← childrenOf_styles, ← key]

/-- Elements in one container are in order of creation. -/
def OrderInv (d0 : Dom) (s : St) : Prop :=
  ∀ (p q : Nat) (c c' : Content) (i : Nat), p < q → s.heap[p]? = some c → s.heap[q]? = some c' →
    Mounts s c i → Mounts s c' i → Attached s.dom i → withId c.id d0.inDoc = [] → withId c'.id d0.inDoc = [] →
    s.Alive p → s.Alive q →
    (s.dom.childrenOf i).filter (fun x => x.styleId? = some c.id ∨ x.styleId? = some c'.id) =
      [c.element, c'.element]

theorem OrderInv.step {env : Env} (hw : env.wasm = true) {d0 : Dom} {op : Op} {s s' : St} {out : Out}
    (ht : Tr env op s s' out) (hi : Inv s)
    (hid : ∀ c ∈ s'.heap, cssIdent c.id = true) (hn : (s'.heap.map Content.id).Nodup)
    (hp : PageInv d0 s) (ho : OrderInv d0 s) : OrderInv d0 s' := by
  have heff := ht.eff hi
  have hAt : ∀ i, Attached s'.dom i → Attached s.dom i := fun i h => h.of_map heff.attached.symm
  have hMo : ∀ (p : Nat) (c : Content) (i : Nat), s.heap[p]? = some c → Mounts s' c i → Mounts s c i := by
    rintro p c i hc ⟨h1, m, h2, h3, h4⟩
    have hlt := hi.contentMgr c (List.mem_of_getElem? hc)
    obtain ⟨m', a2, a3, -⟩ := ht.mgr (List.getElem?_eq_getElem hlt)
    rw [h2] at a2; cases a2
    exact ⟨h1, _, List.getElem?_eq_getElem hlt, by rw [← a3.2.2.2]; exact h3, by rw [← a3.2.1]; exact h4⟩
  intro p q c c' i hpq hc hc' hm hm' ha hb hb' hl hl'
  have hPo : ∀ n, decide ((Child.other n).styleId? = some c.id ∨ (Child.other n).styleId? = some c'.id) = false := by
    intro n; simp [Child.styleId?]
  cases heff with
  | quiet news hh hd hal hnew hkind =>
    have old : ∀ (p : Nat) (c : Content), s'.heap[p]? = some c → Mounts s' c i → s.heap[p]? = some c := by
      rintro p c hc ⟨h1, m, h2, h3, -⟩
      rw [hh] at hc
      by_cases hlp : p < s.heap.length
      · rw [List.getElem?_append_left hlp] at hc; exact hc
      · rw [List.getElem?_append_right (by omega)] at hc
        rcases hkind c (List.mem_of_getElem? hc) with h | ⟨m', l, h5, h6⟩
        · rw [h1] at h; cases h
        · obtain ⟨m'', h7, h8, -⟩ := ht.mgr h5
          rw [h2] at h7; cases h7
          rw [h8.2.2.2, h6] at h3; cases h3
    have o1 := old p c hc hm
    have o2 := old q c' hc' hm'
    rw [styles_filter hd hPo]
    exact ho p q c c' i hpq o1 o2 (hMo p c i o1 hm) (hMo q c' i o2 hm') (hAt i ha) hb hb'
      ((hal p (heap_lt o1)).1 hl) ((hal q (heap_lt o2)).1 hl')
  | mounted c0 m hh hor hmm hlg hdom _ hal hnew =>
    obtain ⟨i0, hi0, hd⟩ := hdom hw
    have hne : c.id ≠ c'.id := fun h => id_ne hn hc hc' (by omega) h.symm
    rw [hh] at hc hc'
    rcases get_append_cases hc with ⟨hlp, hc1⟩ | ⟨rfl, rfl⟩
    · have hal1 := (hal p hlp).1 hl
      rcases get_append_cases hc' with ⟨hlq, hc2⟩ | ⟨rfl, rfl⟩
      · have hnot : ∀ (p : Nat) (c : Content), s.heap[p]? = some c → c0.id ≠ c.id := by
          intro p c hc h
          have h1 : s'.heap[s.heap.length]? = some c0 := by rw [hh]; simp
          have h2 : s'.heap[p]? = some c := by rw [hh]; exact getElem?_append_of _ hc
          exact id_ne hn h2 h1 (by have := heap_lt hc; omega) h
        have := ho p q c c' i hpq hc1 hc2 (hMo p c i hc1 hm) (hMo q c' i hc2 hm') (hAt i ha) hb hb' hal1
          ((hal q hlq).1 hl')
        rw [← this, hd, Dom.appendChild]
        by_cases hlt : i0 < s.dom.length
        · rw [childrenOf_setChildren _ _ _ _ hlt]
          split
          · rename_i h; subst h
            rw [List.filter_append]
            simp [Child.styleId?, hnot p c hc1, hnot q c' hc2]
          · rfl
        · have : s.dom.setChildren i0 (s.dom.childrenOf i0 ++ [.style c0.id c0.text]) = s.dom := by
            rw [Dom.setChildren, List.modify_eq_self (by omega)]
          rw [this]
      · have hii : i = i0 := by
          obtain ⟨-, m2, h1, -, h3⟩ := hm'
          obtain ⟨m3, h4, h5, -⟩ := ht.mgr hmm
          rw [h1] at h4; cases h4
          rw [h5.2.1, hi0] at h3; cases h3; rfl
        subst hii
        have hlt : i < s.dom.length := by
          obtain ⟨ct, h1, -⟩ := hAt i ha
          exact (List.getElem?_eq_some_iff.1 h1).1
        have h1 := (hp.alive p c i hc1 (hMo p c i hc1 hm) (hAt i ha) hb hal1).2
        have h2 : withId c'.id (s.dom.childrenOf i) = [] := by
          obtain ⟨ct, e1, e2⟩ := hAt i ha
          refine withId_attached e1 e2 ?_
          rw [hp.foreign _ ?_, hb']
          intro hmem
          obtain ⟨c2, h3, h4⟩ := List.mem_map.1 hmem
          obtain ⟨k, hk⟩ := List.getElem?_of_mem h3
          have a1 : s'.heap[s.heap.length]? = some c' := by rw [hh]; simp
          have a2 : s'.heap[k]? = some c2 := by rw [hh]; exact getElem?_append_of _ hk
          exact id_ne hn a1 a2 (by have := heap_lt hk; omega) h4
        rw [hd, Dom.appendChild, childrenOf_setChildren _ _ _ _ hlt, if_pos rfl, List.filter_append]
        have h3 : (s.dom.childrenOf i).filter (fun x => decide (x.styleId? = some c.id ∨ x.styleId? = some c'.id)) =
            withId c.id (s.dom.childrenOf i) := by
          apply List.filter_congr
          intro x hx
          have := List.filter_eq_nil_iff.1 h2 x hx
          simp only [decide_eq_true_eq] at this
          simp [this]
        rw [h3, h1]
        simp [Child.styleId?, Content.element]
    · rcases get_append_cases hc' with ⟨hlq, hc2⟩ | ⟨h, -⟩ <;> omega
  | failed c0 hh hor hd hal hnew =>
    have h1 : s'.heap[s.heap.length]? = some c0 := by rw [hh]; simp
    have hnot : ∀ (p : Nat) (c : Content), s.heap[p]? = some c → c0.id ≠ c.id := by
      intro p c hc h
      have h2 : s'.heap[p]? = some c := by rw [hh]; exact getElem?_append_of _ hc
      exact id_ne hn h2 h1 (by have := heap_lt hc; omega) h
    rw [hh] at hc hc'
    rcases get_append_cases hc with ⟨hlp, hc1⟩ | ⟨rfl, rfl⟩
    · rcases get_append_cases hc' with ⟨hlq, hc2⟩ | ⟨rfl, rfl⟩
      · rw [hd, (unmount_filter env (hid c0 (List.mem_of_getElem? h1)) s.dom _ (by
          intro t; simp [Child.styleId?, hnot p c hc1, hnot q c' hc2])).2]
        exact ho p q c c' i hpq hc1 hc2 (hMo p c i hc1 hm) (hMo q c' i hc2 hm') (hAt i ha) hb hb'
          ((hal p hlp).1 hl) ((hal q hlq).1 hl')
      · exact absurd hl' hnew
    · exact absurd hl hnew
  | dropped qs hh hq hqs hal hd =>
    rw [hh] at hc hc' hid hn
    obtain ⟨a1, a2⟩ := (hal p).1 hl
    obtain ⟨b1, b2⟩ := (hal q).1 hl'
    rw [hd, (unmountAll_filter env s.heap qs s.dom _ (by
      intro k hk ck hck
      refine ⟨hid ck (List.mem_of_getElem? hck), fun t => ?_⟩
      have e1 := id_ne hn hc hck (by rintro rfl; exact a2 hk)
      have e2 := id_ne hn hc' hck (by rintro rfl; exact b2 hk)
      simp [Child.styleId?, e1, e2])).2]
    exact ho p q c c' i hpq hc hc' (hMo p c i hc hm) (hMo q c' i hc' hm') (hAt i ha) hb hb' a1 b1

theorem OrderInv.run {env : Env} (hw : env.wasm = true) {d0 : Dom} : ∀ (ops : List Op) {s : St}, Inv s →
    (∀ c ∈ (Manager.run env ops s).heap, cssIdent c.id = true) →
    ((Manager.run env ops s).heap.map Content.id).Nodup → PageInv d0 s → OrderInv d0 s →
    OrderInv d0 (Manager.run env ops s)
  | [], _, _, _, _, _, ho => ho
  | op :: ops, s, hi, hid, hn, hp, ho => by
    have hi' := inv_step env op hi
    obtain ⟨n, hh⟩ := heap_run env ops hi'
    simp only [Manager.run] at hid hn ⊢
    have h1 : ∀ c ∈ (Manager.step env op s).1.heap, cssIdent c.id = true := by
      intro c hc; exact hid c (by rw [hh]; exact List.mem_append_left _ hc)
    have h2 : ((Manager.step env op s).1.heap.map Content.id).Nodup := by
      have := hn
      rw [hh, List.map_append] at this
      exact (List.nodup_append.1 this).1
    exact OrderInv.run hw ops hi' hid hn (hp.step hw (step_tr env hi op) hi h1 h2)
      (ho.step hw (step_tr env hi op) hi h1 h2 hp)

/-! ## Isolation -/

theorem LoadRun.other {i : Nat} {es : List Entry} {s s' : St} {r : Res Unit} (h : LoadRun i es s s' r)
    {j : Nat} {m : Mgr} (hm : s.mgrs[j]? = some m) (hij : j ≠ i) : s'.mgrs[j]? = some m := by
  obtain ⟨m', h1, -, h3, -⟩ := h.mgrs.2.2.2 j m hm
  rw [h3 hij] at h1; exact h1

theorem Tr.isolated {env : Env} {op : Op} {s s' : St} {out : Out} (h : Tr env op s s' out) (hi : Inv s)
    {j : Nat} {m : Mgr} (hm : s.mgrs[j]? = some m) (hj : op.manager s ≠ some j) :
    s'.mgrs[j]? = some m ∧ (some j ∈ s'.mgrHandles ↔ some j ∈ s.mgrHandles) ∧
    ∀ l, m.log = some l → (s'.logs[l]?).map Log.entries = (s.logs[l]?).map Log.entries := by
  have hjl : j < s.mgrs.length := (List.getElem?_eq_some_iff.1 hm).1
  have take : ∀ w (l : Nat), ((s.takeWriter w)[l]?).map Log.entries = (s.logs[l]?).map Log.entries := by
    intro w l
    cases w with
    | none => rfl
    | some l0 =>
      simp only [St.takeWriter, List.getElem?_modify]
      cases s.logs[l]? with
      | none => rfl
      | some a => by_cases h : l0 = l <;> simp [h]
  have modm : ∀ (i : Nat) f, i ≠ j → (s.modReg i f).mgrs[j]? = some m := by
    intro i f hij
    rw [modReg_get f hm]
    simp [hij]
  cases h with
  | invalid => exact ⟨hm, Iff.rfl, fun _ _ => rfl⟩
  | renderStatic =>
    refine ⟨hm, Iff.rfl, ?_⟩
    intro l hl
    obtain ⟨log, h1, -⟩ := hi.log m (List.mem_of_getElem? hm) l hl
    rw [getElem?_append_of _ h1, h1]
  | newMgrErr => exact ⟨hm, Iff.rfl, fun l _ => take _ l⟩
  | newMgr =>
    refine ⟨getElem?_append_of _ hm, ?_, fun l _ => take _ l⟩
    simp only [List.mem_append, List.mem_cons, List.not_mem_nil, or_false, Option.some.injEq]
    constructor
    · rintro (h | h)
      · exact h
      · omega
    · exact Or.inl
  | cloneMgr mh i _ h =>
    refine ⟨hm, ?_, fun _ _ => rfl⟩
    simp only [List.mem_append, List.mem_cons, List.not_mem_nil, or_false, Option.some.injEq]
    simp only [Op.manager, h] at hj
    constructor
    · rintro (h | rfl)
      · exact h
      · exact absurd rfl hj
    · exact Or.inl
  | dropMgr mh i _ h ha =>
    simp only [Op.manager, h] at hj
    refine ⟨hm, ?_, fun _ _ => rfl⟩
    constructor
    · exact mem_set_none
    · intro hh
      obtain ⟨n, hn⟩ := List.getElem?_of_mem hh
      have : mh ≠ n := by
        rintro rfl
        simp only [St.mgrOf, hn, Option.join_some] at h
        cases h; exact hj rfl
      exact List.mem_of_getElem? (i := n) (by rw [List.getElem?_set_ne this]; exact hn)
  | dropMgrLast mh i _ m0 h ha hm0 =>
    simp only [Op.manager, h] at hj
    have hf := releaseAll_fields env (m0.reg.map Prod.snd)
      (({ s with mgrHandles := s.mgrHandles.set mh none } : St).modReg i (fun _ => []))
    rw [hf.2.2.1, hf.2.2.2.1, hf.2.2.2.2.1]
    refine ⟨modm i (fun _ => []) (by rintro rfl; exact hj rfl), ?_, fun _ _ => rfl⟩
    show some j ∈ s.mgrHandles.set mh none ↔ _
    constructor
    · exact mem_set_none
    · intro hh
      obtain ⟨n, hn⟩ := List.getElem?_of_mem hh
      have : mh ≠ n := by
        rintro rfl
        simp only [St.mgrOf, hn, Option.join_some] at h
        cases h; exact hj rfl
      exact List.mem_of_getElem? (i := n) (by rw [List.getElem?_set_ne this]; exact hn)
  | createSyntax => exact ⟨hm, Iff.rfl, fun _ _ => rfl⟩
  | createHit => exact ⟨hm, Iff.rfl, fun _ _ => rfl⟩
  | createDebug => exact ⟨hm, Iff.rfl, fun _ _ => rfl⟩
  | createStatic mh kind src fault _ i m0 ast l log c h hm0 hs hg hc hd hlg hlog =>
    simp only [Op.manager, h] at hj
    have hij : i ≠ j := by rintro rfl; exact hj rfl
    refine ⟨modm i (fun reg => reg ++ [(c.key, s.heap.length)]) hij, Iff.rfl, ?_⟩
    intro l' hl'
    have : l ≠ l' := by
      rintro rfl
      exact hij (hi.logUnique i j m0 m l hm0 hm hlg hl')
    show ((s.logs.set l _)[l']?).map _ = _
    rw [List.getElem?_set_ne this]
  | createFail => exact ⟨hm, Iff.rfl, fun _ _ => rfl⟩
  | createMount mh kind src fault _ i m0 ast c d h hm0 hs hg hc hd hlg hmt =>
    simp only [Op.manager, h] at hj
    exact ⟨modm i (fun reg => reg ++ [(c.key, s.heap.length)]) (by rintro rfl; exact hj rfl), Iff.rfl, fun _ _ => rfl⟩
  | clone => exact ⟨hm, Iff.rfl, fun _ _ => rfl⟩
  | drop h p _ e =>
    have hf := release_fields env p ({ s with handles := s.handles.set h none } : St)
    rw [hf.2.2.1, hf.2.2.2.1, hf.2.2.2.2.1]
    exact ⟨hm, Iff.rfl, fun _ _ => rfl⟩
  | unregisterDead => exact ⟨hm, Iff.rfl, fun _ _ => rfl⟩
  | unregisterNone => exact ⟨hm, Iff.rfl, fun _ _ => rfl⟩
  | unregister h p q _ c m0 e hc hm0 hg =>
    simp only [Op.manager, e, Option.bind_some, hc, Option.map_some] at hj
    have hf := release_fields env q (s.modReg c.mgr (fun reg => regRemove reg c.key))
    rw [hf.2.2.1, hf.2.2.2.1, hf.2.2.2.2.1]
    exact ⟨modm _ _ (by rintro rfl; exact hj rfl), Iff.rfl, fun _ _ => rfl⟩
  | load mh i data _ _ r _ h hr _ =>
    simp only [Op.manager, h] at hj
    refine ⟨hr.other hm (by rintro rfl; exact hj rfl), by rw [hr.mgrs.1], fun _ _ => by rw [hr.mgrs.2.1]⟩
  | readData l0 _ log hlog hr =>
    refine ⟨hm, Iff.rfl, ?_⟩
    intro l _
    by_cases h : l0 = l
    · subst h
      rw [List.getElem?_set_self (List.getElem?_eq_some_iff.1 hlog).1, hlog]
      rfl
    · rw [List.getElem?_set_ne h]
  | styleDataNone => exact ⟨hm, Iff.rfl, fun _ _ => rfl⟩
  | styleData => exact ⟨hm, Iff.rfl, fun _ _ => rfl⟩
  | page => exact ⟨hm, Iff.rfl, fun _ _ => rfl⟩

/-! ## Outcomes of creations -/

theorem create_hit (env : Env) {s : St} (hi : Inv s) {mh i : Nat} {kind : Kind} {src : Source} (fault : Bool) {m : Mgr}
    {ast : Sheet} {p : Nat} (h1 : s.mgrOf mh = some i) (h2 : s.mgrs[i]? = some m) (h3 : src.sheet? = some ast)
    (h4 : regGet m.reg (kind.key m.pref ast) = some p) :
    step env (.create mh kind src fault) s = ({ s with handles := s.handles ++ [some p] }, .style s.handles.length) := by
  rcases getOrRegister_eq env hi h2 fault (kind.key m.pref ast) with ⟨p', h5, h6⟩ | ⟨h5, -⟩
  · rw [h4] at h5; cases h5
    simp only [step, create, h1, h2, h3, h6]
  · rw [h4] at h5; cases h5

/-- A successful creation: the handle refers to the content registered for the key. -/
theorem create_style {env : Env} {s : St} (hi : Inv s) {mh i h : Nat} {kind : Kind} {src : Source} {fault : Bool} {m : Mgr}
    {ast : Sheet} (h1 : s.mgrOf mh = some i) (h2 : s.mgrs[i]? = some m) (h3 : src.sheet? = some ast)
    (h4 : (step env (.create mh kind src fault) s).2 = .style h) :
    ∃ p c m', (step env (.create mh kind src fault) s).1.contentOf h = some p ∧
      (step env (.create mh kind src fault) s).1.heap[p]? = some c ∧
      (step env (.create mh kind src fault) s).1.mgrs[i]? = some m' ∧ m.Same m' ∧
      regGet m'.reg (kind.key m.pref ast) = some p ∧ c.key = kind.key m.pref ast ∧ c.mgr = i := by
  have ht := step_tr env hi (.create mh kind src fault)
  have hi' := inv_step env (.create mh kind src fault) hi
  generalize hr : step env (.create mh kind src fault) s = r at ht hi' h4 ⊢
  obtain ⟨s', out⟩ := r
  simp only at ht hi' h4 ⊢
  subst h4
  have fin : ∀ p m', s'.contentOf h = some p → s'.mgrs[i]? = some m' → m.Same m' →
      regGet m'.reg (kind.key m.pref ast) = some p → ∃ p c m', s'.contentOf h = some p ∧
      s'.heap[p]? = some c ∧ s'.mgrs[i]? = some m' ∧ m.Same m' ∧
      regGet m'.reg (kind.key m.pref ast) = some p ∧ c.key = kind.key m.pref ast ∧ c.mgr = i := by
    intro p m' a1 a2 a3 a4
    obtain ⟨c, c1, c2, c3⟩ := hi'.reg i m' a2 _ (regGet_mem a4)
    exact ⟨p, c, m', a1, c1, a2, a3, a4, c2, c3⟩
  cases ht with
  | createHit _ _ _ _ _ i' m' ast' p e1 e2 e3 e4 =>
    rw [h1] at e1; cases e1
    rw [h2] at e2; cases e2
    rw [h3] at e3; cases e3
    exact fin p m (by simp [St.contentOf]) h2 (.refl m) e4
  | createStatic _ _ _ _ _ i' m' ast' l log c e1 e2 e3 e4 e5 =>
    rw [h1] at e1; cases e1
    rw [h2] at e2; cases e2
    rw [h3] at e3; cases e3
    have hk : c.key = kind.key m.pref ast := by rw [e5]; rfl
    refine fin s.heap.length { m with reg := m.reg ++ [(c.key, s.heap.length)] } (by simp [St.contentOf, St.modReg, St.modMgr])
      ?_ ⟨rfl, rfl, rfl, rfl⟩ ?_
    · simp [St.modReg, St.modMgr, h2]
    · rw [hk]; exact regGet_append_self e4
  | createMount _ _ _ _ _ i' m' ast' c d e1 e2 e3 e4 e5 =>
    rw [h1] at e1; cases e1
    rw [h2] at e2; cases e2
    rw [h3] at e3; cases e3
    have hk : c.key = kind.key m.pref ast := by rw [e5]; rfl
    refine fin s.heap.length { m with reg := m.reg ++ [(c.key, s.heap.length)] } (by simp [St.contentOf, St.modReg, St.modMgr])
      ?_ ⟨rfl, rfl, rfl, rfl⟩ ?_
    · simp [St.modReg, St.modMgr, h2]
    · rw [hk]; exact regGet_append_self e4

theorem unregister_eq (env : Env) {s : St} (hi : Inv s) {h p q : Nat} {c : Content} {m : Mgr}
    (hp : s.contentOf h = some p) (hc : s.heap[p]? = some c) (hm : s.mgrs[c.mgr]? = some m)
    (hal : s.mgrAlive c.mgr = true) (hreg : regGet m.reg c.key = some q) :
    (step env (.unregister h) s).1 = (s.modReg c.mgr (fun reg => regRemove reg c.key)).release env q := by
  have hget : (s.modMgr c.mgr (fun m => { m with borrowed := true })).mgrs[c.mgr]? = some { m with borrowed := true } := by
    simp [St.modMgr, hm]
  have hx := unborrow_reg hi c.mgr (fun reg => regRemove reg c.key)
  have hmm : (s.modMgr c.mgr (fun m => { m with borrowed := true })).modMgr c.mgr
      (fun m => { m with reg := regRemove m.reg c.key }) =
      (s.modMgr c.mgr (fun m => { m with borrowed := true })).modReg c.mgr (fun reg => regRemove reg c.key) := rfl
  simp only [step, hp, hc, hal, if_true, unregisterStyle, withBorrow_eq hi hm, hget, hreg, hmm]
  rw [← release_modMgr, hx]
  intro m; rfl

/-- A content made by a step belongs to the manager of the operation. -/
theorem Tr.newManager {env : Env} {op : Op} {s s' : St} {out : Out} (h : Tr env op s s' out)
    {c : Content} (hh : s'.heap = s.heap ++ [c]) : op.manager s = some c.mgr := by
  have no : ∀ l : List Content, l = l ++ [c] → False := by
    intro l h
    have := congrArg List.length h
    simp at this
  cases h with
  | dropMgrLast mh i _ m h ha hm =>
    rw [(releaseAll_fields env _ _).1] at hh
    exact (no _ hh).elim
  | createStatic mh kind src fault _ i m ast l log c' h hm hs hg hc =>
    have e := List.append_cancel_left (hh : s.heap ++ [c'] = s.heap ++ [c])
    simp only [List.cons.injEq, and_true] at e
    subst e
    rw [hc]; exact h
  | createFail mh kind src fault _ i m ast c' h hm hs hg hc =>
    have e := List.append_cancel_left (hh : s.heap ++ [c'] = s.heap ++ [c])
    simp only [List.cons.injEq, and_true] at e
    subst e
    rw [hc]; exact h
  | createMount mh kind src fault _ i m ast c' d h hm hs hg hc =>
    have e := List.append_cancel_left (hh : s.heap ++ [c'] = s.heap ++ [c])
    simp only [List.cons.injEq, and_true] at e
    subst e
    rw [hc]; exact h
  | drop =>
    rw [(release_fields env _ _).1] at hh
    exact (no _ hh).elim
  | unregister =>
    rw [(release_fields env _ _).1] at hh
    exact (no _ hh).elim
  | load mh i data _ _ r _ h hr _ =>
    obtain ⟨news, h1, -, -, -, -, h6⟩ := hr.eff
    rw [h1] at hh
    have e := List.append_cancel_left hh
    have := h6 c (by rw [e]; simp)
    rw [this.2]; exact h
  | _ => exact (no _ hh).elim

/-! ## Keys created once -/

/-- The styles created by manager `i` have distinct keys and are registered. -/
structure OnceInv (i : Nat) (s : St) : Prop where
  keys : ((createdBy i s.heap).map Content.key).Nodup
  reg : ∀ m, s.mgrs[i]? = some m → some i ∈ s.mgrHandles → ∀ c ∈ createdBy i s.heap, (regGet m.reg c.key).isSome

theorem createdBy_append (i : Nat) (h1 h2 : List Content) :
    createdBy i (h1 ++ h2) = createdBy i h1 ++ createdBy i h2 := by
  simp [createdBy, List.filter_append]

theorem OnceInv.step {env : Env} {op : Op} {s s' : St} {out : Out} (ht : Tr env op s s' out) (hi : Inv s)
    (hi' : Inv s') {i : Nat} (hlog : ∀ m, s'.mgrs[i]? = some m → m.log ≠ none)
    (hu : ∀ k, ¬ Unregisters op s i k) (h : OnceInv i s) : OnceInv i s' := by
  -- Nothing new for manager `i`.
  have same : createdBy i s'.heap = createdBy i s.heap → OnceInv i s' := by
    intro hc
    refine ⟨by rw [hc]; exact h.keys, ?_⟩
    intro m' hm' hal c hcm
    rw [hc] at hcm
    have hcm' : c ∈ s.heap ∧ c.mgr = i ∧ c.origin = .created := by
      simpa [createdBy] using hcm
    have hlt : i < s.mgrs.length := by rw [← hcm'.2.1]; exact hi.contentMgr c hcm'.1
    obtain ⟨m'', a1, -, a3, -⟩ := ht.mgr (List.getElem?_eq_getElem hlt)
    rw [hm'] at a1; cases a1
    have hal0 : some i ∈ s.mgrHandles := Classical.byContradiction (fun hn => ht.mgrHandles hlt hn hal)
    obtain ⟨p, hp⟩ := Option.isSome_iff_exists.1 (h.reg _ (List.getElem?_eq_getElem hlt) hal0 c hcm)
    rcases a3 _ _ hp with h1 | h1 | h1
    · rw [h1]; rfl
    · exact absurd h1 (hu _)
    · exact absurd hal h1
  have single : ∀ (j : Nat) (m : Mgr) (c : Content), s'.heap = s.heap ++ [c] → c.mgr = j → c.origin = .created →
      s.mgrs[j]? = some m → some j ∈ s.mgrHandles → regGet m.reg c.key = none →
      (∀ m', s'.mgrs[j]? = some m' → (regGet m'.reg c.key).isSome) → OnceInv i s' := by
    intro j m c hh hcj hco hm hal hreg hreg'
    by_cases hij : j = i
    · subst hij
      have hcr : createdBy j [c] = [c] := by simp [createdBy, hcj, hco]
      refine ⟨?_, ?_⟩
      · rw [hh, createdBy_append, hcr, List.map_append, List.nodup_append]
        refine ⟨h.keys, by simp, ?_⟩
        intro k hk k' hk'
        simp only [List.map_cons, List.map_nil, List.mem_cons, List.not_mem_nil, or_false] at hk'
        subst hk'
        rintro rfl
        obtain ⟨c0, h1, h2⟩ := List.mem_map.1 hk
        have := h.reg m hm hal c0 h1
        rw [h2, hreg] at this; cases this
      · intro m' hm' _ c0 hc0
        rw [hh, createdBy_append, hcr] at hc0
        rcases List.mem_append.1 hc0 with h1 | h1
        · obtain ⟨m'', a1, -, a3, -⟩ := ht.mgr hm
          rw [hm'] at a1; cases a1
          obtain ⟨p, hp⟩ := Option.isSome_iff_exists.1 (h.reg _ hm hal c0 h1)
          rcases a3 _ _ hp with h2 | h2 | h2
          · rw [h2]; rfl
          · exact absurd h2 (hu _)
          · have := hi'.dead j m' hm' (by
              have := hreg' m' hm'
              intro he; rw [he] at this; cases this)
            exact absurd this h2
        · simp only [List.mem_cons, List.not_mem_nil, or_false] at h1
          subst h1
          exact hreg' m' hm'
    · refine same ?_
      rw [hh, createdBy_append]
      have : createdBy i [c] = [] := by simp [createdBy, hcj, hij]
      rw [this, List.append_nil]
  cases ht with
  | dropMgrLast => exact same (by rw [(releaseAll_fields env _ _).1]; rfl)
  | drop => exact same (by rw [(release_fields env _ _).1])
  | unregister => exact same (by rw [(release_fields env _ _).1]; rfl)
  | createStatic mh kind src fault _ j m ast l log c e1 e2 e3 e4 e5 =>
    refine single j m c rfl (by rw [e5]; rfl) (by rw [e5]; rfl) e2 (mgrOf_mem e1) (by rw [e5]; exact e4) ?_
    intro m' hm'
    obtain ⟨m0, h1, rfl⟩ := getElem?_modReg hm'
    have h1' : s.mgrs[j]? = some m0 := h1
    rw [e2] at h1'; cases h1'
    simp only [if_true]
    rw [regGet_append_self (by rw [e5]; exact e4)]
    rfl
  | createMount mh kind src fault _ j m ast c d e1 e2 e3 e4 e5 =>
    refine single j m c rfl (by rw [e5]; rfl) (by rw [e5]; rfl) e2 (mgrOf_mem e1) (by rw [e5]; exact e4) ?_
    intro m' hm'
    obtain ⟨m0, h1, rfl⟩ := getElem?_modReg hm'
    have h1' : s.mgrs[j]? = some m0 := h1
    rw [e2] at h1'; cases h1'
    simp only [if_true]
    rw [regGet_append_self (by rw [e5]; exact e4)]
    rfl
  | createFail mh kind src fault _ j m ast c e1 e2 e3 e4 e5 e6 e7 =>
    refine same ?_
    have hij : j ≠ i := by
      rintro rfl
      exact hlog m e2 e7
    show createdBy i (s.heap ++ [c]) = _
    rw [createdBy_append]
    have : createdBy i [c] = [] := by simp [createdBy, e5, newContent, hij]
    rw [this, List.append_nil]
  | load mh j data _ _ r _ h1 hr _ =>
    obtain ⟨es', -, h3⟩ := hr.newContents
    refine same ?_
    rw [h3, createdBy_append]
    have : createdBy i (es'.map (loadedContent j)) = [] := by
      simp [createdBy, loadedContent]
    rw [this, List.append_nil]
  | _ => exact same rfl

theorem OnceInv.run {env : Env} {i : Nat} : ∀ (ops : List Op) {s : St}, Inv s →
    (∀ m, (Manager.run env ops s).mgrs[i]? = some m → m.log ≠ none) →
    Along env (fun s op => ∀ k, ¬ Unregisters op s i k) ops s → OnceInv i s → OnceInv i (Manager.run env ops s)
  | [], _, _, _, _, h => h
  | op :: ops, s, hi, hlog, hu, h => by
    have hi' := inv_step env op hi
    refine OnceInv.run ops hi' hlog hu.2 (h.step (step_tr env hi op) hi hi' ?_ hu.1)
    intro m hm
    obtain ⟨m', h1, h2⟩ := mgr_run env ops hi' hm
    rw [← h2.2.2.2]
    exact hlog m' h1

/-- A hydrated style comes from loaded data. -/
theorem hydrated_run (env : Env) : ∀ (ops : List Op) {s : St}, Inv s → ∀ c ∈ (run env ops s).heap, c.origin = .hydrated →
    c ∈ s.heap ∨ ∃ mh data e, Op.load mh data ∈ ops ∧ e ∈ data ∧ c = loadedContent c.mgr e
  | [], s, _, c, hc, _ => Or.inl hc
  | op :: ops, s, hi, c, hc, ho => by
    rcases hydrated_run env ops (inv_step env op hi) c hc ho with h | ⟨mh, data, e, h1, h2, h3⟩
    · rcases (step_tr env hi op).newContents with ⟨h1, -⟩ | ⟨i, key, h1, -⟩ | ⟨i, data, r, ⟨mh, h0⟩, hr, -⟩
      · rw [h1] at h; exact Or.inl h
      · rw [h1] at h
        rcases List.mem_append.1 h with h | h
        · exact Or.inl h
        · simp only [List.mem_cons, List.not_mem_nil, or_false] at h
          rw [h] at ho; cases ho
      · obtain ⟨es', h1, h2⟩ := hr.newContents
        rw [h2] at h
        rcases List.mem_append.1 h with h | h
        · exact Or.inl h
        · obtain ⟨e, h3, rfl⟩ := List.mem_map.1 h
          exact Or.inr ⟨mh, data, e, by simp [h0], h1 e h3, rfl⟩
    · exact Or.inr ⟨mh, data, e, List.mem_cons_of_mem _ h1, h2, h3⟩

/-- New contents of anything but a creation. -/
theorem Tr.noCreate {env : Env} {op : Op} {s s' : St} {out : Out} (h : Tr env op s s' out)
    (hop : ∀ mh kind src fault, op ≠ .create mh kind src fault) : ∀ c ∈ s'.heap, c.origin = .created → c ∈ s.heap := by
  have same : ∀ s'' : St, s''.heap = s.heap → ∀ c ∈ s''.heap, c.origin = .created → c ∈ s.heap := by
    intro s'' h1 c hc _
    rw [← h1]; exact hc
  cases h with
  | dropMgrLast mh i _ m0 h ha hm0 => exact same _ (releaseAll_fields env _ _).1
  | createDebug | createStatic | createFail | createMount => exact absurd rfl (hop _ _ _ _)
  | drop h p _ e => exact same _ (release_fields env _ _).1
  | unregister => exact same _ (release_fields env _ _).1
  | load mh i data _ _ r _ h hr _ =>
    intro c hc ho
    obtain ⟨es', h1, h2⟩ := hr.newContents
    rw [h2] at hc
    rcases List.mem_append.1 hc with hc | hc
    · exact hc
    · obtain ⟨e, -, rfl⟩ := List.mem_map.1 hc
      cases ho
  | _ => exact same _ rfl

/-- Without creations nothing is created. -/
theorem noCreate_run (env : Env) : ∀ (ops : List Op) {s : St}, Inv s →
    (∀ mh kind src fault, Op.create mh kind src fault ∉ ops) →
    ∀ c ∈ (run env ops s).heap, c.origin = .created → c ∈ s.heap
  | [], s, _, _, c, hc, _ => hc
  | op :: ops, s, hi, hops, c, hc, ho => by
    have h1 := noCreate_run env ops (inv_step env op hi) (fun a b c d h => hops a b c d (List.mem_cons_of_mem _ h)) c hc ho
    exact (step_tr env hi op).noCreate (fun a b c d h => hops a b c d (by rw [h]; exact List.mem_cons_self)) c h1 ho

/-- The content behind a handle returned by a creation, in any later state. -/
theorem created_content (env : Env) (d : Dom) (ops ops' : List Op) (mh i h : Nat) (kind : Kind) (src : Source)
    (fault : Bool) (ast : Sheet) (s s1 s2 : St) (m : Mgr) (hs : s = run env ops (St.init d))
    (hi : s.mgrOf mh = some i) (hm : s.mgrs[i]? = some m)
    (hsrc : src.sheet? = some ast) (h1 : step env (.create mh kind src fault) s = (s1, .style h))
    (h2 : s2 = run env ops' s1) (id text : Str) (hc : s2.className h = some id) (ht : s2.styleText h = some text) :
    ∃ c ∈ s1.heap, c.id = id ∧ c.text = text ∧ c.key = kind.key m.pref ast ∧ c.mgr = i ∧ TextOk c := by
  have hinv : Inv s := hs ▸ inv_run env ops (Inv.init d)
  have hinv1 := inv_step env (.create mh kind src fault) hinv
  have htx := text_run env (ops ++ [.create mh kind src fault]) (Inv.init d) (by simp [St.init])
  rw [run_append, ← hs, run, run, h1] at htx
  obtain ⟨p, c, m', a1, a2, -, -, -, a6, a7⟩ := create_style hinv hi hm hsrc (h := h) (by rw [h1])
  rw [h1] at hinv1 a1 a2
  simp only at hinv1 a1 a2 htx
  have hcm : c ∈ s1.heap := List.mem_of_getElem? a2
  have ha2 := heap_get_run env ops' hinv1 a2
  rcases contentOf_run env ops' hinv1 (contentOf_lt a1) with h3 | ⟨-, h3⟩
  · rw [← h2, a1] at h3
    rw [← h2] at ha2
    simp only [St.className, h3, Option.bind_some, ha2, Option.map_some, Option.some.injEq] at hc
    simp only [St.styleText, h3, Option.bind_some, ha2, Option.map_some, Option.some.injEq] at ht
    exact ⟨c, hcm, hc, ht, a6, a7, htx c hcm⟩
  · rw [← h2] at h3
    simp [St.className, h3] at hc

end Manager
