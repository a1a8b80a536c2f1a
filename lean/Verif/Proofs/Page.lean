import Verif.Proofs.History

/-!
# The style elements of the page along a history
-/

namespace Manager

/-- Unmounting leaves alone what does not have the id. -/
theorem unmount_filter (env : Env) {id : Str} (hid : cssIdent id = true) (d : Dom) (P : Child → Bool)
    (hP : ∀ t, P (.style id t) = false) :
    (unmount env id d).inDoc.filter P = d.inDoc.filter P ∧
    ∀ i, ((unmount env id d).childrenOf i).filter P = (d.childrenOf i).filter P := by
  rcases unmount_cases env hid d with ⟨h, -⟩ | ⟨-, n, j, k, ct, t, h1, h2, h3, h4, h5, h6⟩
  · rw [h]; exact ⟨rfl, fun _ => rfl⟩
  · have hj : j < d.length := (List.getElem?_eq_some_iff.1 h3).1
    constructor
    · rw [h1, inDoc_removeAt]
      apply filter_eraseIdx_of_not
      intro x hx
      obtain ⟨hn, h7, -⟩ := List.findIdx?_eq_some_iff_getElem.1 h2
      rw [List.getElem?_eq_getElem hn] at hx
      simp only [Option.some.injEq] at hx
      rw [hx] at h7
      simp only [decide_eq_true_eq] at h7
      cases x with
      | other => cases h7
      | style id' t' =>
        simp only [Child.styleId?, Option.some.injEq] at h7
        subst h7; exact hP t'
    · intro i
      rw [h1, h6, childrenOf_setChildren _ _ _ _ hj]
      split
      · rename_i hij
        subst hij
        rw [filter_eraseIdx_of_not]
        · simp [Dom.childrenOf, h3]
        · intro x hx
          rw [h5] at hx; cases hx
          exact hP t
      · rfl

theorem unmountAll_filter (env : Env) (heap : List Content) : ∀ (qs : List Nat) (d : Dom) (P : Child → Bool),
    (∀ q ∈ qs, ∀ c, heap[q]? = some c → cssIdent c.id = true ∧ ∀ t, P (.style c.id t) = false) →
    (unmountAll env heap qs d).inDoc.filter P = d.inDoc.filter P ∧
    ∀ i, ((unmountAll env heap qs d).childrenOf i).filter P = (d.childrenOf i).filter P
  | [], _, _, _ => ⟨rfl, fun _ => rfl⟩
  | q :: qs, d, P, h => by
    have ih := fun d' => unmountAll_filter env heap qs d' P (fun q' hq' => h q' (by simp [hq']))
    rw [unmountAll]
    cases hc : heap[q]? with
    | none => exact ih d
    | some c =>
      obtain ⟨h1, h2⟩ := h q (by simp) c hc
      obtain ⟨h3, h4⟩ := unmount_filter env h1 d P h2
      simp only
      exact ⟨(ih _).1.trans h3, fun i => ((ih _).2 i).trans (h4 i)⟩

theorem unmountAll_self (env : Env) (hw : env.wasm = true) (heap : List Content)
    (hid : ∀ c ∈ heap, cssIdent c.id = true) (hn : (heap.map Content.id).Nodup) :
    ∀ (qs : List Nat) (d : Dom) (p : Nat) (c : Content), qs.Nodup → p ∈ qs → heap[p]? = some c →
      withId c.id (unmountAll env heap qs d).inDoc = (withId c.id d.inDoc).tail
  | [], _, _, _, _, h, _ => by cases h
  | q :: qs, d, p, c, hq, hp, hc => by
    have hne : ∀ q' : Nat, q' ≠ p → ∀ c', heap[q']? = some c' → c'.id ≠ c.id := by
      intro q' h1 c' h2 h3
      apply h1
      have a1 : (heap.map Content.id)[q']? = some c.id := by simp [h2, h3]
      have a2 : (heap.map Content.id)[p]? = some c.id := by simp [hc]
      have l1 := (List.getElem?_eq_some_iff.1 a1).1
      exact (List.getElem?_inj l1 hn).1 (a1.trans a2.symm)
    rw [unmountAll]
    simp only [List.nodup_cons] at hq
    by_cases hpq : q = p
    · subst hpq
      simp only [hc]
      have := (unmountAll_filter env heap qs (unmount env c.id d) (fun x => x.styleId? = some c.id) (by
        intro q' hq' c' hc'
        refine ⟨hid c' (List.mem_of_getElem? hc'), fun t => ?_⟩
        have : q' ≠ q := by rintro rfl; exact hq.1 hq'
        simp [Child.styleId?, hne q' this c' hc'])).1
      rw [withId, this]
      exact unmount_self env hw (hid c (List.mem_of_getElem? hc)) d
    · have hp' : p ∈ qs := by
        rcases List.mem_cons.1 hp with h | h
        · exact absurd h.symm hpq
        · exact h
      rw [unmountAll_self env hw heap hid hn qs _ p c hq.2 hp' hc]
      congr 1
      cases hc' : heap[q]? with
      | none => rfl
      | some c' =>
        exact (unmount_other env (hid c' (List.mem_of_getElem? hc')) (hne q hpq c' hc') d).1

/-- Children of an attached container are in the document. -/
theorem withId_attached {d : Dom} {i : Nat} {ct : Container} (hc : d[i]? = some ct) (ha : ct.attached = true)
    {x : Str} (hn : withId x d.inDoc = []) : withId x (d.childrenOf i) = [] := by
  have hs : (styles d)[i]? = some (ct.attached, ct.children.filter Child.isStyle) := by simp [styles, hc]
  rw [withId_inDoc] at hn
  have := List.flatMap_eq_nil_iff.1 hn _ (List.mem_of_getElem? hs)
  rw [Dom.childrenOf, hc]
  simpa [ha, withId_isStyle] using this

theorem styles_withId {d d' : Dom} (h : styles d' = styles d) (x : Str) :
    withId x d'.inDoc = withId x d.inDoc ∧ ∀ i, withId x (d'.childrenOf i) = withId x (d.childrenOf i) := by
  refine ⟨by rw [withId_inDoc, withId_inDoc, h], fun i => by rw [withId_childrenOf, withId_childrenOf, h]⟩

theorem Attached.of_map {d d' : Dom} (h : d'.map Container.attached = d.map Container.attached) {i : Nat}
    (ha : Attached d i) : Attached d' i := by
  obtain ⟨ct, h1, h2⟩ := ha
  have h3 : (d.map Container.attached)[i]? = some true := by simp [h1, h2]
  rw [← h, List.getElem?_map, Option.map_eq_some_iff] at h3
  exact h3

/-- What is known about the elements of the page. -/
structure PageInv (d0 : Dom) (s : St) : Prop where
  foreign : ∀ x, x ∉ s.heap.map Content.id → withId x s.dom.inDoc = withId x d0.inDoc
  alive : ∀ (p : Nat) (c : Content) (i : Nat), s.heap[p]? = some c → Mounts s c i → Attached s.dom i →
    withId c.id d0.inDoc = [] → s.Alive p →
    withId c.id s.dom.inDoc = [.style c.id c.text] ∧ withId c.id (s.dom.childrenOf i) = [.style c.id c.text]
  dead : ∀ (p : Nat) (c : Content) (i : Nat), s.heap[p]? = some c → Mounts s c i → Attached s.dom i →
    withId c.id d0.inDoc = [] → ¬ s.Alive p → withId c.id s.dom.inDoc = []
  kept : ∀ (p : Nat) (c : Content), s.heap[p]? = some c → Adopts s c → s.Alive p →
    withId c.id s.dom.inDoc = withId c.id d0.inDoc
  gone : ∀ (p : Nat) (c : Content), s.heap[p]? = some c → Adopts s c → ¬ s.Alive p →
    withId c.id s.dom.inDoc = (withId c.id d0.inDoc).tail

theorem PageInv.init (d : Dom) : PageInv d (St.init d) := by
  constructor <;> simp [St.init]

theorem heap_lt {l : List Content} {p : Nat} {c : Content} (h : l[p]? = some c) : p < l.length :=
  (List.getElem?_eq_some_iff.1 h).1

theorem get_append_cases {α : Type} {l : List α} {b : α} {p : Nat} {a : α} (h : (l ++ [b])[p]? = some a) :
    (p < l.length ∧ l[p]? = some a) ∨ (p = l.length ∧ a = b) := by
  by_cases hp : p < l.length
  · rw [List.getElem?_append_left hp] at h; exact Or.inl ⟨hp, h⟩
  · rw [List.getElem?_append_right (by omega)] at h
    have := (List.getElem?_eq_some_iff.1 h).1
    simp only [List.length_cons, List.length_nil] at this
    have hz : p - l.length = 0 := by omega
    rw [hz] at h
    simp only [List.getElem?_cons_zero, Option.some.injEq] at h
    exact Or.inr ⟨by omega, h.symm⟩

theorem id_ne {heap : List Content} (hn : (heap.map Content.id).Nodup) {p q : Nat} {c c' : Content}
    (hp : heap[p]? = some c) (hq : heap[q]? = some c') (h : q ≠ p) : c'.id ≠ c.id := by
  intro h3
  apply h
  have a1 : (heap.map Content.id)[q]? = some c.id := by simp [hq, h3]
  have a2 : (heap.map Content.id)[p]? = some c.id := by simp [hp]
  exact (List.getElem?_inj (List.getElem?_eq_some_iff.1 a1).1 hn).1 (a1.trans a2.symm)

theorem PageInv.step {env : Env} (hw : env.wasm = true) {d0 : Dom} {op : Op} {s s' : St} {out : Out}
    (ht : Tr env op s s' out) (hi : Inv s)
    (hid : ∀ c ∈ s'.heap, cssIdent c.id = true) (hn : (s'.heap.map Content.id).Nodup)
    (hp : PageInv d0 s) : PageInv d0 s' := by
  have heff := ht.eff hi
  have hat := heff.attached
  -- Managers of old contents
  have hmgr : ∀ (p : Nat) (c : Content), s.heap[p]? = some c → ∃ m m', s.mgrs[c.mgr]? = some m ∧
      s'.mgrs[c.mgr]? = some m' ∧ m.Same m' := by
    intro p c hc
    have hlt := hi.contentMgr c (List.mem_of_getElem? hc)
    obtain ⟨m', h1, h2, -⟩ := ht.mgr (List.getElem?_eq_getElem hlt)
    exact ⟨_, m', List.getElem?_eq_getElem hlt, h1, h2⟩
  have hMo : ∀ (p : Nat) (c : Content) (i : Nat), s.heap[p]? = some c → Mounts s' c i → Mounts s c i := by
    rintro p c i hc ⟨h1, m, h2, h3, h4⟩
    obtain ⟨m0, m', a1, a2, a3⟩ := hmgr p c hc
    rw [h2] at a2; cases a2
    exact ⟨h1, m0, a1, by rw [← a3.2.2.2]; exact h3, by rw [← a3.2.1]; exact h4⟩
  have hAd : ∀ (p : Nat) (c : Content), s.heap[p]? = some c → Adopts s' c → Adopts s c := by
    rintro p c hc (h | ⟨m, l, h1, h2⟩)
    · exact Or.inl h
    · obtain ⟨m0, m', a1, a2, a3⟩ := hmgr p c hc
      rw [h1] at a2; cases a2
      exact Or.inr ⟨m0, l, a1, by rw [← a3.2.2.2]; exact h2⟩
  have hAt : ∀ i, Attached s'.dom i → Attached s.dom i := fun i h => h.of_map hat.symm
  cases heff with
  | quiet news hh hd hal hnew hkind =>
    have hD := fun x => styles_withId hd x
    have hfresh : ∀ (p : Nat) (c : Content), s'.heap[p]? = some c → s.heap.length ≤ p →
        s'.Alive p ∧ withId c.id s'.dom.inDoc = withId c.id d0.inDoc ∧ c ∈ news := by
      intro p c hc hlp
      refine ⟨hnew p hlp (heap_lt hc), ?_, ?_⟩
      · rw [(hD c.id).1]
        apply hp.foreign
        intro hmem
        obtain ⟨c', hc', he⟩ := List.mem_map.1 hmem
        obtain ⟨q, hq⟩ := List.getElem?_of_mem hc'
        have hq' : s'.heap[q]? = some c' := by rw [hh]; exact getElem?_append_of _ hq
        exact id_ne hn hc hq' (by have := heap_lt hq; omega) he
      · rw [hh, List.getElem?_append_right hlp] at hc
        exact List.mem_of_getElem? hc
    refine ⟨?_, ?_, ?_, ?_, ?_⟩
    · intro x hx
      rw [(hD x).1]
      apply hp.foreign
      intro h; apply hx; rw [hh, List.map_append]; exact List.mem_append_left _ h
    · intro p c i hc hm ha hb hl
      by_cases hlp : p < s.heap.length
      · have hc0 : s.heap[p]? = some c := by rw [hh, List.getElem?_append_left hlp] at hc; exact hc
        have := hp.alive p c i hc0 (hMo p c i hc0 hm) (hAt i ha) hb ((hal p hlp).1 hl)
        rw [(hD c.id).1, (hD c.id).2]; exact this
      · obtain ⟨-, -, h3⟩ := hfresh p c hc (by omega)
        obtain ⟨h1, m, h2, h4, -⟩ := hm
        rcases hkind c h3 with h | ⟨m', l, h5, h6⟩
        · rw [h1] at h; cases h
        · obtain ⟨m'', h7, h8, -⟩ := ht.mgr h5
          rw [h2] at h7; cases h7
          rw [h8.2.2.2, h6] at h4; cases h4
    · intro p c i hc hm ha hb hl
      by_cases hlp : p < s.heap.length
      · have hc0 : s.heap[p]? = some c := by rw [hh, List.getElem?_append_left hlp] at hc; exact hc
        have := hp.dead p c i hc0 (hMo p c i hc0 hm) (hAt i ha) hb (fun h => hl ((hal p hlp).2 h))
        rw [(hD c.id).1]; exact this
      · exact absurd (hfresh p c hc (by omega)).1 hl
    · intro p c hc ha hl
      by_cases hlp : p < s.heap.length
      · have hc0 : s.heap[p]? = some c := by rw [hh, List.getElem?_append_left hlp] at hc; exact hc
        rw [(hD c.id).1]
        exact hp.kept p c hc0 (hAd p c hc0 ha) ((hal p hlp).1 hl)
      · exact (hfresh p c hc (by omega)).2.1
    · intro p c hc ha hl
      by_cases hlp : p < s.heap.length
      · have hc0 : s.heap[p]? = some c := by rw [hh, List.getElem?_append_left hlp] at hc; exact hc
        rw [(hD c.id).1]
        exact hp.gone p c hc0 (hAd p c hc0 ha) (fun h => hl ((hal p hlp).2 h))
      · exact absurd (hfresh p c hc (by omega)).1 hl
  | mounted c0 m hh ho hm hl hdom _ hal hnew =>
    obtain ⟨i0, hi0, hd⟩ := hdom hw
    have hc0 : s'.heap[s.heap.length]? = some c0 := by rw [hh]; simp
    have hother : ∀ x, x ≠ c0.id → withId x s'.dom.inDoc = withId x s.dom.inDoc ∧
        ∀ i, withId x (s'.dom.childrenOf i) = withId x (s.dom.childrenOf i) := by
      intro x hx
      rw [hd]
      exact append_other s.dom i0 (fun h => hx h.symm)
    have hnotin : c0.id ∉ s.heap.map Content.id := by
      intro hmem
      obtain ⟨c', hc', he⟩ := List.mem_map.1 hmem
      obtain ⟨q, hq⟩ := List.getElem?_of_mem hc'
      have hq' : s'.heap[q]? = some c' := by rw [hh]; exact getElem?_append_of _ hq
      exact id_ne hn hc0 hq' (by have := heap_lt hq; omega) he
    have hold : ∀ (p : Nat) (c : Content), s.heap[p]? = some c → c.id ≠ c0.id := by
      intro p c hc he
      exact hnotin (he ▸ List.mem_map.2 ⟨c, List.mem_of_getElem? hc, rfl⟩)
    obtain ⟨m', hm', hsame, -⟩ := ht.mgr hm
    refine ⟨?_, ?_, ?_, ?_, ?_⟩
    · intro x hx
      have hx0 : x ≠ c0.id := by
        rintro rfl; apply hx; rw [hh]; simp
      rw [(hother x hx0).1]
      apply hp.foreign
      intro h; apply hx; rw [hh, List.map_append]; exact List.mem_append_left _ h
    · intro p c i hc hmt ha hb hlv
      rw [hh] at hc
      rcases get_append_cases hc with ⟨hlp, hc1⟩ | ⟨rfl, rfl⟩
      · have := hp.alive p c i hc1 (hMo p c i hc1 hmt) (hAt i ha) hb ((hal p hlp).1 hlv)
        have h2 := hother c.id (hold p c hc1)
        rw [h2.1, h2.2]; exact this
      · have : i = i0 := by
          obtain ⟨-, m2, h1, -, h3⟩ := hmt
          rw [hm'] at h1; cases h1
          rw [hsame.2.1, hi0] at h3; cases h3; rfl
        subst this
        obtain ⟨ct, h1, h2⟩ := hAt i ha
        rw [hd]
        exact append_self h1 h2 (by rw [hp.foreign _ hnotin, hb])
    · intro p c i hc hmt ha hb hlv
      rw [hh] at hc
      rcases get_append_cases hc with ⟨hlp, hc1⟩ | ⟨rfl, rfl⟩
      · rw [(hother c.id (hold p c hc1)).1]
        exact hp.dead p c i hc1 (hMo p c i hc1 hmt) (hAt i ha) hb (fun h => hlv ((hal p hlp).2 h))
      · exact absurd hnew hlv
    · intro p c hc ha hlv
      rw [hh] at hc
      rcases get_append_cases hc with ⟨hlp, hc1⟩ | ⟨rfl, rfl⟩
      · rw [(hother c.id (hold p c hc1)).1]
        exact hp.kept p c hc1 (hAd p c hc1 ha) ((hal p hlp).1 hlv)
      · exfalso
        rcases ha with h | ⟨m2, l, h1, h2⟩
        · rw [ho] at h; cases h
        · rw [hm'] at h1; cases h1
          rw [hsame.2.2.2, hl] at h2; cases h2
    · intro p c hc ha hlv
      rw [hh] at hc
      rcases get_append_cases hc with ⟨hlp, hc1⟩ | ⟨rfl, rfl⟩
      · rw [(hother c.id (hold p c hc1)).1]
        exact hp.gone p c hc1 (hAd p c hc1 ha) (fun h => hlv ((hal p hlp).2 h))
      · exact absurd hnew hlv
  | failed c0 hh ho hd hal hnew =>
    have hc0 : s'.heap[s.heap.length]? = some c0 := by rw [hh]; simp
    have hid0 : cssIdent c0.id = true := hid c0 (List.mem_of_getElem? hc0)
    have hother : ∀ x, x ≠ c0.id → withId x s'.dom.inDoc = withId x s.dom.inDoc ∧
        ∀ i, withId x (s'.dom.childrenOf i) = withId x (s.dom.childrenOf i) := by
      intro x hx
      rw [hd]
      exact unmount_other env hid0 (fun h => hx h.symm) s.dom
    have hnotin : c0.id ∉ s.heap.map Content.id := by
      intro hmem
      obtain ⟨c', hc', he⟩ := List.mem_map.1 hmem
      obtain ⟨q, hq⟩ := List.getElem?_of_mem hc'
      have hq' : s'.heap[q]? = some c' := by rw [hh]; exact getElem?_append_of _ hq
      exact id_ne hn hc0 hq' (by have := heap_lt hq; omega) he
    have hold : ∀ (p : Nat) (c : Content), s.heap[p]? = some c → c.id ≠ c0.id := by
      intro p c hc he
      exact hnotin (he ▸ List.mem_map.2 ⟨c, List.mem_of_getElem? hc, rfl⟩)
    have hself : withId c0.id s'.dom.inDoc = (withId c0.id d0.inDoc).tail := by
      rw [hd, unmount_self env hw hid0, hp.foreign _ hnotin]
    refine ⟨?_, ?_, ?_, ?_, ?_⟩
    · intro x hx
      have hx0 : x ≠ c0.id := by
        rintro rfl; apply hx; rw [hh]; simp
      rw [(hother x hx0).1]
      apply hp.foreign
      intro h; apply hx; rw [hh, List.map_append]; exact List.mem_append_left _ h
    · intro p c i hc hmt ha hb hlv
      rw [hh] at hc
      rcases get_append_cases hc with ⟨hlp, hc1⟩ | ⟨rfl, rfl⟩
      · have := hp.alive p c i hc1 (hMo p c i hc1 hmt) (hAt i ha) hb ((hal p hlp).1 hlv)
        have h2 := hother c.id (hold p c hc1)
        rw [h2.1, h2.2]; exact this
      · exact absurd hlv hnew
    · intro p c i hc hmt ha hb hlv
      rw [hh] at hc
      rcases get_append_cases hc with ⟨hlp, hc1⟩ | ⟨rfl, rfl⟩
      · rw [(hother c.id (hold p c hc1)).1]
        exact hp.dead p c i hc1 (hMo p c i hc1 hmt) (hAt i ha) hb (fun h => hlv ((hal p hlp).2 h))
      · rw [hself, hb]; rfl
    · intro p c hc ha hlv
      rw [hh] at hc
      rcases get_append_cases hc with ⟨hlp, hc1⟩ | ⟨rfl, rfl⟩
      · rw [(hother c.id (hold p c hc1)).1]
        exact hp.kept p c hc1 (hAd p c hc1 ha) ((hal p hlp).1 hlv)
      · exact absurd hlv hnew
    · intro p c hc ha hlv
      rw [hh] at hc
      rcases get_append_cases hc with ⟨hlp, hc1⟩ | ⟨rfl, rfl⟩
      · rw [(hother c.id (hold p c hc1)).1]
        exact hp.gone p c hc1 (hAd p c hc1 ha) (fun h => hlv ((hal p hlp).2 h))
      · exact hself
  | dropped qs hh hq hqs hal hd =>
    rw [hh] at hid hn
    have hother : ∀ x, (∀ q ∈ qs, ∀ c, s.heap[q]? = some c → c.id ≠ x) →
        withId x s'.dom.inDoc = withId x s.dom.inDoc ∧
        ∀ i, withId x (s'.dom.childrenOf i) = withId x (s.dom.childrenOf i) := by
      intro x hx
      rw [hd]
      exact unmountAll_filter env s.heap qs s.dom (fun y => y.styleId? = some x) (fun q h1 c h2 =>
        ⟨hid c (List.mem_of_getElem? h2), fun t => by simp [Child.styleId?, hx q h1 c h2]⟩)
    have hnot : ∀ (p : Nat) (c : Content), s.heap[p]? = some c → p ∉ qs →
        ∀ q ∈ qs, ∀ c', s.heap[q]? = some c' → c'.id ≠ c.id := by
      intro p c hc hpq q hqq c' hc'
      exact id_ne hn hc hc' (by rintro rfl; exact hpq hqq)
    have hself : ∀ (p : Nat) (c : Content), s.heap[p]? = some c → p ∈ qs →
        withId c.id s'.dom.inDoc = (withId c.id s.dom.inDoc).tail := by
      intro p c hc hpq
      rw [hd]; exact unmountAll_self env hw s.heap hid hn qs s.dom p c hq hpq hc
    refine ⟨?_, ?_, ?_, ?_, ?_⟩
    · intro x hx
      rw [hh] at hx
      rw [(hother x (fun q _ c hc he => hx (he ▸ List.mem_map.2 ⟨c, List.mem_of_getElem? hc, rfl⟩))).1]
      exact hp.foreign x hx
    · intro p c i hc hmt ha hb hlv
      rw [hh] at hc
      obtain ⟨h1, h2⟩ := (hal p).1 hlv
      have h3 := hother c.id (hnot p c hc h2)
      rw [h3.1, h3.2]
      exact hp.alive p c i hc (hMo p c i hc hmt) (hAt i ha) hb h1
    · intro p c i hc hmt ha hb hlv
      rw [hh] at hc
      by_cases hpq : p ∈ qs
      · rw [hself p c hc hpq, (hp.alive p c i hc (hMo p c i hc hmt) (hAt i ha) hb (hqs p hpq).1).1]; rfl
      · rw [(hother c.id (hnot p c hc hpq)).1]
        exact hp.dead p c i hc (hMo p c i hc hmt) (hAt i ha) hb (fun h => hlv ((hal p).2 ⟨h, hpq⟩))
    · intro p c hc ha hlv
      rw [hh] at hc
      obtain ⟨h1, h2⟩ := (hal p).1 hlv
      rw [(hother c.id (hnot p c hc h2)).1]
      exact hp.kept p c hc (hAd p c hc ha) h1
    · intro p c hc ha hlv
      rw [hh] at hc
      by_cases hpq : p ∈ qs
      · rw [hself p c hc hpq, hp.kept p c hc (hAd p c hc ha) (hqs p hpq).1]
      · rw [(hother c.id (hnot p c hc hpq)).1]
        exact hp.gone p c hc (hAd p c hc ha) (fun h => hlv ((hal p).2 ⟨h, hpq⟩))

theorem PageInv.run {env : Env} (hw : env.wasm = true) {d0 : Dom} : ∀ (ops : List Op) {s : St}, Inv s →
    (∀ c ∈ (Manager.run env ops s).heap, cssIdent c.id = true) →
    ((Manager.run env ops s).heap.map Content.id).Nodup → PageInv d0 s → PageInv d0 (Manager.run env ops s)
  | [], _, _, _, _, hp => hp
  | op :: ops, s, hi, hid, hn, hp => by
    have hi' := inv_step env op hi
    obtain ⟨n, hh⟩ := heap_run env ops hi'
    simp only [Manager.run] at hid hn ⊢
    refine PageInv.run hw ops hi' hid hn (hp.step hw (step_tr env hi op) hi ?_ ?_)
    · intro c hc; exact hid c (by rw [hh]; exact List.mem_append_left _ hc)
    · rw [hh, List.map_append] at hn
      exact (List.nodup_append.1 hn).1

end Manager
