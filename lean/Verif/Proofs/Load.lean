import Verif.Proofs.Order

/-!
# Loading style data
-/

namespace Manager

theorem step_load (env : Env) {s : St} (hi : Inv s) {mh i : Nat} (h : s.mgrOf mh = some i) (data : List Entry) :
    ∃ s' r, LoadRun i data s s' r ∧
      step env (.load mh data) s = (s', match r with | .ok _ => .unit | .err e => .err e | .panic => .panic) := by
  obtain ⟨m, hm⟩ := mgrOf_get hi h
  obtain ⟨s', r, h1, h2, m', hm', hb'⟩ := loadBody_run i data s m hm (hi.borrow m (List.mem_of_getElem? hm))
    (fun e he => hi.reg_lt (List.mem_of_getElem? hm) he)
  refine ⟨s', r, h1, ?_⟩
  simp only [step, h]
  rw [loadStyleData, withBorrow_eq hi hm, h2]
  simp only [unborrow' hm' hb']
  cases r <;> rfl

theorem registeredId_eq {s : St} {i : Nat} {m : Mgr} (hm : s.mgrs[i]? = some m) (k : Key) :
    s.registeredId i k = (regGet m.reg k).bind (fun p => (s.heap[p]?).map Content.id) := by
  simp [St.registeredId, hm]

theorem firstId_known {known : Key → Option Str} {e : Entry} {es : List Entry} {x : Str}
    (h : known e.key = some x) (k : Key) : firstId known (e :: es) k = firstId known es k := by
  by_cases hk : e.key = k
  · subst hk; simp [firstId, h]
  · simp [firstId, hk]

theorem firstId_fresh {known known' : Key → Option Str} {e : Entry} {es : List Entry}
    (h : known e.key = none) (h1 : known' e.key = some e.id) (h2 : ∀ k, k ≠ e.key → known' k = known k) (k : Key) :
    firstId known (e :: es) k = firstId known' es k := by
  by_cases hk : k = e.key
  · subst hk; simp [firstId, h, h1]
  · have : ¬ e.key = k := fun h => hk h.symm
    simp [firstId, h2 k hk, this]

/-- What loading does to the classes of a manager. -/
theorem LoadRun.ids {i : Nat} {es : List Entry} {s s' : St} {r : Res Unit} (h : LoadRun i es s s' r)
    (hlt : ∀ m, s.mgrs[i]? = some m → ∀ e ∈ m.reg, e.2 < s.heap.length) :
    ((r = .ok () ∧ ∀ e ∈ es, firstId (s.registeredId i) es e.key = some e.id) ∨
      (r = .panic ∧ ∃ e ∈ es, firstId (s.registeredId i) es e.key ≠ some e.id)) ∧
    (r = .ok () → ∀ k, s'.registeredId i k = firstId (s.registeredId i) es k) := by
  induction h with
  | nil s => simp [firstId]
  | same e es s s' r m p c h1 h2 h3 h4 _ ih =>
    obtain ⟨i1, i2⟩ := ih hlt
    have hk : s.registeredId i e.key = some e.id := by simp [registeredId_eq h1, h2, h3, h4]
    have hf := firstId_known (es := es) hk
    refine ⟨?_, fun hr k => by rw [hf]; exact i2 hr k⟩
    rcases i1 with ⟨hr, i1⟩ | ⟨hr, e', he', i1⟩
    · refine Or.inl ⟨hr, fun e' he' => ?_⟩
      rw [hf]
      rcases List.mem_cons.1 he' with rfl | he'
      · simp [firstId, hk]
      · exact i1 e' he'
    · exact Or.inr ⟨hr, e', List.mem_cons_of_mem _ he', by rw [hf]; exact i1⟩
  | conflict e es s m p c h1 h2 h3 h4 =>
    have hk : s.registeredId i e.key = some c.id := by simp [registeredId_eq h1, h2, h3]
    refine ⟨Or.inr ⟨rfl, e, by simp, ?_⟩, by intro h; cases h⟩
    simp [firstId, hk, h4]
  | fresh e es s s' r m h1 h2 _ ih =>
    generalize hs1 : (({ s with heap := s.heap ++ [loadedContent i e] } : St).modReg i
        (fun reg => reg ++ [(e.key, s.heap.length)])) = s1 at ih
    have hm1 : s1.mgrs[i]? = some { m with reg := m.reg ++ [(e.key, s.heap.length)] } := by
      rw [← hs1]; simp [St.modReg, St.modMgr, h1]
    have hh1 : s1.heap = s.heap ++ [loadedContent i e] := by rw [← hs1]; rfl
    have hlt1 : ∀ m, s1.mgrs[i]? = some m → ∀ e ∈ m.reg, e.2 < s1.heap.length := by
      intro m' hm' e' he'
      rw [hm1] at hm'; cases hm'
      rw [hh1, List.length_append]
      simp only [List.mem_append, List.mem_cons, List.not_mem_nil, or_false] at he'
      rcases he' with he' | he'
      · have := hlt m h1 e' he'; omega
      · subst he'; simp
    obtain ⟨i1, i2⟩ := ih hlt1
    have hk : s.registeredId i e.key = none := by simp [registeredId_eq h1, h2]
    have hk1 : s1.registeredId i e.key = some e.id := by
      rw [registeredId_eq hm1, regGet_append_self h2, hh1]
      simp [loadedContent]
    have hk2 : ∀ k, k ≠ e.key → s1.registeredId i k = s.registeredId i k := by
      intro k hk
      rw [registeredId_eq hm1, registeredId_eq h1, regGet_append_ne _ hk]
      cases hg : regGet m.reg k with
      | none => rfl
      | some p =>
        have := hlt m h1 _ (regGet_mem hg)
        simp only [Option.bind_some]
        rw [hh1, List.getElem?_append_left this]
    have hf := firstId_fresh (es := es) hk hk1 hk2
    refine ⟨?_, fun hr k => by rw [hf]; exact i2 hr k⟩
    rcases i1 with ⟨hr, i1⟩ | ⟨hr, e', he', i1⟩
    · refine Or.inl ⟨hr, fun e' he' => ?_⟩
      rw [hf]
      rcases List.mem_cons.1 he' with rfl | he'
      · simp [firstId, hk1]
      · exact i1 e' he'
    · exact Or.inr ⟨hr, e', List.mem_cons_of_mem _ he', by rw [hf]; exact i1⟩

/-- Loading what is known changes nothing. -/
theorem LoadRun.again {i : Nat} {es : List Entry} {s s' : St} {r : Res Unit} (h : LoadRun i es s s' r)
    (hk : ∀ e ∈ es, s.registeredId i e.key = some e.id) : s' = s ∧ r = .ok () := by
  induction h with
  | nil s => exact ⟨rfl, rfl⟩
  | same e es s s' r m p c h1 h2 h3 h4 _ ih => exact ih (fun e he => hk e (List.mem_cons_of_mem _ he))
  | conflict e es s m p c h1 h2 h3 h4 =>
    have := hk e (by simp)
    rw [registeredId_eq h1, h2] at this
    simp only [Option.bind_some, h3, Option.map_some, Option.some.injEq] at this
    exact absurd this h4
  | fresh e es s s' r m h1 h2 _ ih =>
    have := hk e (by simp)
    rw [registeredId_eq h1, h2] at this
    cases this

/-- Loading looks at keys and ids only. -/
theorem loadBody_congr (i : Nat) : ∀ (es es' : List Entry) (s : St),
    es.map (fun e => (e.key, e.id)) = es'.map (fun e => (e.key, e.id)) → loadBody i es s = loadBody i es' s
  | [], [], _, _ => rfl
  | [], _ :: _, _, h => by cases h
  | _ :: _, [], _, h => by cases h
  | e :: es, e' :: es', s, h => by
    simp only [List.map_cons, List.cons.injEq, Prod.mk.injEq] at h
    obtain ⟨⟨h1, h2⟩, h3⟩ := h
    simp only [loadBody, h1, h2]
    split
    · rfl
    · split
      · split
        · rfl
        · split
          · exact loadBody_congr i es es' _ h3
          · rfl
      · exact loadBody_congr i es es' _ h3

theorem LoadRun.mgrs_length {i : Nat} {es : List Entry} {s s' : St} {r : Res Unit} (h : LoadRun i es s s' r) :
    s'.mgrs.length = s.mgrs.length := by
  induction h with
  | nil => rfl
  | same e es s s' r m p c _ _ _ _ _ ih => exact ih
  | conflict => rfl
  | fresh e es s s' r m _ _ _ ih => rw [ih]; simp [St.modReg, St.modMgr]

end Manager
