import Verif.Spec.Growth
import Verif.Proofs.Effects
import Verif.Model.Cache

/-!
# What an application keeps in memory
-/

namespace Manager

theorem LoadRun.regs {i : Nat} {es : List Entry} {s s' : St} {r : Res Unit} (h : LoadRun i es s s' r) :
    ∀ (j : Nat) (g' : Mgr), s'.mgrs[j]? = some g' → ∀ e ∈ g'.reg,
      (∃ g, s.mgrs[j]? = some g ∧ e ∈ g.reg) ∨ (j, e.1) ∈ es.map fun x => (i, x.key) := by
  induction h with
  | nil s => intro j g' hg e he; exact .inl ⟨g', hg, he⟩
  | same x es s s' r m p c _ _ _ _ _ ih =>
    intro j g' hg e he
    rcases ih j g' hg e he with h | h
    · exact .inl h
    · exact .inr (List.mem_cons_of_mem _ h)
  | conflict x es s m p c _ _ _ _ => intro j g' hg e he; exact .inl ⟨g', hg, he⟩
  | fresh x es s s' r m hm hn _ ih =>
    intro j g' hg e he
    rcases ih j g' hg e he with ⟨g, h1, h2⟩ | h
    · obtain ⟨g0, h3, rfl⟩ := getElem?_modReg h1
      by_cases hij : i = j
      · subst hij
        simp only [if_true] at h2
        rcases List.mem_append.1 h2 with h4 | h4
        · exact .inl ⟨g0, h3, h4⟩
        · simp only [List.mem_cons, List.not_mem_nil, or_false] at h4
          subst h4
          exact .inr (by simp)
      · simp only [hij, if_false] at h2
        exact .inl ⟨g0, h3, h2⟩
    · exact .inr (List.mem_cons_of_mem _ h)

theorem regs_modReg {s t : St} {i : Nat} {f : List (Key × Nat) → List (Key × Nat)} {j : Nat} {g' : Mgr} {e : Key × Nat}
    {P : Prop} (hg : (t.modReg i f).mgrs[j]? = some g') (ht : t.mgrs = s.mgrs) (he : e ∈ g'.reg)
    (hf : ∀ g, s.mgrs[j]? = some g → i = j → e ∈ f g.reg → e ∈ g.reg ∨ P) :
    (∃ g, s.mgrs[j]? = some g ∧ e ∈ g.reg) ∨ P := by
  obtain ⟨g0, h3, rfl⟩ := getElem?_modReg hg
  rw [ht] at h3
  by_cases hij : i = j
  · simp only [hij, if_true] at he
    rcases hf g0 h3 hij he with h | h
    · exact .inl ⟨g0, h3, h⟩
    · exact .inr h
  · simp only [hij, if_false] at he
    exact .inl ⟨g0, h3, he⟩

theorem regs_step (env : Env) {s : St} (hi : Inv s) (op : Op) (j : Nat) (g' : Mgr)
    (hg : (step env op s).1.mgrs[j]? = some g') (e : Key × Nat) (he : e ∈ g'.reg) :
    (∃ g, s.mgrs[j]? = some g ∧ e ∈ g.reg) ∨ (j, e.1) ∈ requested s op := by
  have ht := step_tr env hi op
  generalize (step env op s).1 = s' at *
  generalize (step env op s).2 = out at *
  cases ht with
  | newMgr pref cont append writer cont' s hw h1 h2 h3 =>
    simp only [List.getElem?_append] at hg
    split at hg
    · exact .inl ⟨g', hg, he⟩
    · rw [List.getElem?_singleton] at hg
      split at hg
      · cases hg; cases he
      · cases hg
  | dropMgrLast mh i s m h1 h2 h3 =>
    have hmg : (releaseAll env (m.reg.map Prod.snd)
          (({ s with mgrHandles := s.mgrHandles.set mh none } : St).modReg i (fun _ => []))).mgrs =
        (({ s with mgrHandles := s.mgrHandles.set mh none } : St).modReg i (fun _ => [])).mgrs := by
      have : ∀ (ps : List Nat) (t : St), (releaseAll env ps t).mgrs = t.mgrs := by
        intro ps
        induction ps with
        | nil => intro t; rfl
        | cons p ps ih =>
          intro t
          obtain ⟨d, -, e⟩ := release_eq env p t
          simp only [releaseAll]
          rw [ih, e]
      exact this _ _
    rw [hmg] at hg
    exact regs_modReg (s := s) hg rfl he (fun g _ _ h => by cases h)
  | createStatic mh kind src fault s i m ast l log c h1 h2 h3 h4 h5 h6 h7 h8 =>
    refine regs_modReg (s := s) hg rfl he (fun g hg' hij h => ?_)
    subst hij
    rcases List.mem_append.1 h with h | h
    · exact .inl h
    · simp only [List.mem_cons, List.not_mem_nil, or_false] at h
      subst h h5
      exact .inr (by simp [requested, asks, h1, h2, h3, newContent])
  | createMount mh kind src fault s i m ast c d h1 h2 h3 h4 h5 h6 h7 h8 =>
    refine regs_modReg (s := s) hg rfl he (fun g hg' hij h => ?_)
    subst hij
    rcases List.mem_append.1 h with h | h
    · exact .inl h
    · simp only [List.mem_cons, List.not_mem_nil, or_false] at h
      subst h h5
      exact .inr (by simp [requested, asks, h1, h2, h3, newContent])
  | drop k p s h1 =>
    obtain ⟨d, -, e1⟩ := release_eq env p { s with handles := s.handles.set k none }
    rw [e1] at hg
    exact .inl ⟨g', hg, he⟩
  | unregister k p q s c m h1 h2 h3 h4 =>
    obtain ⟨d, -, e1⟩ := release_eq env q (s.modReg c.mgr (fun reg => regRemove reg c.key))
    rw [e1] at hg
    exact regs_modReg (s := s) hg rfl he (fun g _ _ h => .inl (List.mem_filter.1 h).1)
  | load mh i data s s' r out h1 h2 h3 =>
    rcases h2.regs j g' hg e he with h | h
    · exact .inl h
    · exact .inr (by simpa [requested, h1] using h)
  | _ => exact .inl ⟨g', hg, he⟩

theorem regs_run (env : Env) : ∀ (ops : List Op) {s : St}, Inv s → ∀ (j : Nat) (g' : Mgr),
    (run env ops s).mgrs[j]? = some g' → ∀ e ∈ g'.reg,
      (∃ g, s.mgrs[j]? = some g ∧ e ∈ g.reg) ∨ (j, e.1) ∈ requests env ops s
  | [], s, _, j, g', hg, e, he => .inl ⟨g', hg, he⟩
  | op :: ops, s, hi, j, g', hg, e, he => by
    rcases regs_run env ops (inv_step env op hi) j g' hg e he with ⟨g, h1, h2⟩ | h
    · rcases regs_step env hi op j g h1 e h2 with h | h
      · exact .inl h
      · exact .inr (List.mem_append_left _ h)
    · exact .inr (List.mem_append_right _ h)

end Manager

namespace CacheP

open Cache

/-- Who has the lock, and what it knows. -/
structure Locked (st : State) : Prop where
  owner : ∀ t, (match st.pc t with | .idle | .wantLock _ => False | _ => True) → st.lock = some t
  missed : ∀ t s, st.pc t = .missed s → st.cache.get s = none
  parsed : ∀ t s x, st.pc t = .parsed s x → st.cache.get s = none ∧ Css.parse s = some x
  nodup : (st.cache.map Prod.fst).Nodup

theorem get_none {m : Map} {s : Str} : m.get s = none ↔ s ∉ m.map Prod.fst := by
  simp only [Map.get, Option.map_eq_none_iff, List.find?_eq_none, List.mem_map]
  constructor
  · rintro h ⟨e, he, rfl⟩
    exact h e he (by simp)
  · intro h e he hs
    exact h ⟨e, he, by simpa using hs⟩

theorem Locked.step {st : State} (h : Locked st) (c : Choice) : Locked (st.step c) := by
  obtain ⟨ho, hm, hp, hn⟩ := h
  simp only [State.step]
  cases hpc : st.pc c.t with
  | idle =>
    refine ⟨fun t ht => ?_, fun t s ht => ?_, fun t s x ht => ?_, hn⟩ <;>
      simp only [State.goto] at ht ⊢ <;> by_cases e : t = c.t <;> simp only [e, if_true, if_false] at ht
    · exact ho t ht
    · cases ht
    · exact hm t s ht
    · cases ht
    · exact hp t s x ht
  | wantLock s0 =>
    simp only
    cases hl : st.lock with
    | some u => exact ⟨ho, hm, hp, hn⟩
    | none =>
      refine ⟨fun t ht => ?_, fun t s ht => ?_, fun t s x ht => ?_, hn⟩ <;>
        simp only [State.goto] at ht ⊢ <;> by_cases e : t = c.t <;> simp only [e, if_true, if_false] at ht ⊢
      · exact absurd (ho t ht) (by rw [hl]; simp)
      · cases ht
      · exact hm t s ht
      · cases ht
      · exact hp t s x ht
  | locked s0 =>
    have hl := ho c.t (by rw [hpc]; trivial)
    simp only
    cases hg : st.cache.get s0 with
    | some x0 =>
      refine ⟨fun t ht => ?_, fun t s ht => ?_, fun t s x ht => ?_, hn⟩ <;>
        simp only [State.goto] at ht ⊢ <;> by_cases e : t = c.t <;> simp only [e, if_true, if_false] at ht ⊢
      · exact hl
      · exact ho t ht
      · cases ht
      · exact hm t s ht
      · cases ht
      · exact hp t s x ht
    | none =>
      refine ⟨fun t ht => ?_, fun t s ht => ?_, fun t s x ht => ?_, hn⟩ <;>
        simp only [State.goto] at ht ⊢ <;> by_cases e : t = c.t <;> simp only [e, if_true, if_false] at ht ⊢
      · exact hl
      · exact ho t ht
      · cases ht; exact hg
      · exact hm t s ht
      · cases ht
      · exact hp t s x ht
  | missed s0 =>
    have hl := ho c.t (by rw [hpc]; trivial)
    simp only
    cases hg : Css.parse s0 with
    | none =>
      refine ⟨fun t ht => ?_, fun t s ht => ?_, fun t s x ht => ?_, hn⟩ <;>
        simp only [State.goto] at ht ⊢ <;> by_cases e : t = c.t <;> simp only [e, if_true, if_false] at ht ⊢
      · exact hl
      · exact ho t ht
      · cases ht
      · exact hm t s ht
      · cases ht
      · exact hp t s x ht
    | some x0 =>
      refine ⟨fun t ht => ?_, fun t s ht => ?_, fun t s x ht => ?_, hn⟩ <;>
        simp only [State.goto] at ht ⊢ <;> by_cases e : t = c.t <;> simp only [e, if_true, if_false] at ht ⊢
      · exact hl
      · exact ho t ht
      · cases ht
      · exact hm t s ht
      · cases ht; exact ⟨hm c.t s0 hpc, hg⟩
      · exact hp t s x ht
  | parsed s0 x0 =>
    have hl := ho c.t (by rw [hpc]; trivial)
    have h0 := hp c.t s0 x0 hpc
    simp only
    refine ⟨fun t ht => ?_, fun t s ht => ?_, fun t s x ht => ?_, ?_⟩
    · simp only [State.goto] at ht ⊢
      by_cases e : t = c.t
      · simp only [e]; exact hl
      · simp only [e, if_false] at ht; exact ho t ht
    · simp only [State.goto] at ht
      by_cases e : t = c.t
      · simp only [e, if_true] at ht; cases ht
      · simp only [e, if_false] at ht
        have := ho t (by rw [ht]; trivial)
        rw [hl] at this
        exact absurd (Option.some.inj this).symm e
    · simp only [State.goto] at ht
      by_cases e : t = c.t
      · simp only [e, if_true] at ht; cases ht
      · simp only [e, if_false] at ht
        have := ho t (by rw [ht]; trivial)
        rw [hl] at this
        exact absurd (Option.some.inj this).symm e
    · simp only [List.map_cons, List.nodup_cons]
      exact ⟨get_none.1 h0.1, hn⟩
  | returning s0 r0 =>
    have hl := ho c.t (by rw [hpc]; trivial)
    simp only
    refine ⟨fun t ht => ?_, fun t s ht => ?_, fun t s x ht => ?_, hn⟩ <;>
      simp only [State.goto] at ht ⊢ <;> by_cases e : t = c.t <;> simp only [e, if_true, if_false] at ht ⊢
    · have := ho t ht
      rw [hl] at this
      exact absurd (Option.some.inj this).symm e
    · cases ht
    · exact hm t s ht
    · cases ht
    · exact hp t s x ht

theorem Locked.init : Locked State.init :=
  ⟨fun t ht => ht.elim, fun t s ht => (by cases ht), fun t s x ht => (by cases ht), List.Pairwise.nil⟩

theorem Locked.run : ∀ {st : State}, Locked st → ∀ cs, Locked (st.run cs)
  | _, h, [] => h
  | _, h, c :: cs => Locked.run (h.step c) cs

/-- The text that a thread is working on. -/
def textOf : Pc → Option Str
  | .idle => none
  | .wantLock s | .locked s | .missed s | .parsed s _ | .returning s _ => some s

/-- Every text that is being worked on or cached was asked for. -/
theorem asked_step {st : State} {A : List Str} (hc : ∀ e ∈ st.cache, e.1 ∈ A) (hp : ∀ t, ∀ s ∈ textOf (st.pc t), s ∈ A)
    (c : Choice) (ha : c.arg ∈ A) :
    (∀ e ∈ (st.step c).cache, e.1 ∈ A) ∧ ∀ t, ∀ s ∈ textOf ((st.step c).pc t), s ∈ A := by
  have hgoto : ∀ p : Pc, (∀ s ∈ textOf p, s ∈ A) → ∀ t, ∀ s ∈ textOf ((st.goto c.t p).pc t), s ∈ A := by
    intro p hpp t s hs
    simp only [State.goto] at hs
    split at hs
    · exact hpp s hs
    · exact hp t s hs
  have hself := hp c.t
  simp only [State.step]
  cases hpc : st.pc c.t with
  | idle => exact ⟨hc, hgoto _ (by rintro s ⟨⟩; exact ha)⟩
  | wantLock s0 =>
    rw [hpc] at hself
    simp only
    cases st.lock with
    | some u => exact ⟨hc, hp⟩
    | none => exact ⟨hc, hgoto _ hself⟩
  | locked s0 =>
    rw [hpc] at hself
    simp only
    cases st.cache.get s0 with
    | some x0 => exact ⟨hc, hgoto _ hself⟩
    | none => exact ⟨hc, hgoto _ hself⟩
  | missed s0 =>
    rw [hpc] at hself
    simp only
    cases Css.parse s0 with
    | some x0 => exact ⟨hc, hgoto _ hself⟩
    | none => exact ⟨hc, hgoto _ hself⟩
  | parsed s0 x0 =>
    rw [hpc] at hself
    refine ⟨fun e he => ?_, hgoto _ hself⟩
    rcases List.mem_cons.1 he with rfl | he
    · exact hself s0 rfl
    · exact hc e he
  | returning s0 r0 => exact ⟨hc, hgoto _ (by rintro s ⟨⟩)⟩

theorem asked_run {A : List Str} : ∀ (cs : List Choice) {st : State}, (∀ e ∈ st.cache, e.1 ∈ A) →
    (∀ t, ∀ s ∈ textOf (st.pc t), s ∈ A) → (∀ c ∈ cs, c.arg ∈ A) → ∀ e ∈ (st.run cs).cache, e.1 ∈ A
  | [], _, hc, _, _ => hc
  | c :: cs, _, hc, hp, ha => by
    obtain ⟨h1, h2⟩ := asked_step hc hp c (ha c (by simp))
    exact asked_run cs h1 h2 (fun x hx => ha x (List.mem_cons_of_mem _ hx))

theorem get_mem : ∀ {m : Map} {e : Str × Sheet}, (m.map Prod.fst).Nodup → e ∈ m → m.get e.1 = some e.2
  | [], _, _, h => by cases h
  | a :: m, e, hn, h => by
    simp only [List.map_cons, List.nodup_cons] at hn
    rcases List.mem_cons.1 h with rfl | h
    · simp [Map.get]
    · have hne : a.1 ≠ e.1 := fun he => hn.1 (he ▸ List.mem_map.2 ⟨e, h, rfl⟩)
      have := get_mem hn.2 h
      simpa [Map.get, hne] using this

/-- What was parsed is in the cache. -/
structure Kept (st : State) : Prop where
  returning : ∀ t s x, st.pc t = .returning s (some x) → s ∈ st.cache.map Prod.fst
  log : ∀ s x, (s, some x) ∈ st.log → s ∈ st.cache.map Prod.fst

theorem get_some {m : Map} {s : Str} {x : Sheet} (h : m.get s = some x) : s ∈ m.map Prod.fst :=
  Classical.byContradiction fun hn => by rw [get_none.2 hn] at h; cases h

theorem Kept.step {st : State} (h : Kept st) (c : Choice) : Kept (st.step c) := by
  obtain ⟨hr, hl⟩ := h
  have hgoto : ∀ p : Pc, (∀ s x, p = .returning s (some x) → s ∈ st.cache.map Prod.fst) → Kept (st.goto c.t p) := by
    intro p hp
    refine ⟨fun t s x ht => ?_, hl⟩
    simp only [State.goto] at ht
    split at ht
    · exact hp s x ht
    · exact hr t s x ht
  simp only [State.step]
  cases hpc : st.pc c.t with
  | idle => exact hgoto _ (by rintro s x ⟨⟩)
  | wantLock s0 =>
    simp only
    cases st.lock with
    | some u => exact ⟨hr, hl⟩
    | none => exact ⟨(hgoto (.locked s0) (by rintro s x ⟨⟩)).returning, hl⟩
  | locked s0 =>
    simp only
    cases hg : st.cache.get s0 with
    | some x0 => exact hgoto _ (by rintro s x ⟨⟩; exact get_some hg)
    | none => exact hgoto _ (by rintro s x ⟨⟩)
  | missed s0 =>
    simp only
    cases Css.parse s0 with
    | some x0 => exact hgoto _ (by rintro s x ⟨⟩)
    | none => exact hgoto _ (by rintro s x ⟨⟩)
  | parsed s0 x0 =>
    refine ⟨fun t s x ht => ?_, fun s x ht => List.mem_cons_of_mem _ (hl s x ht)⟩
    simp only [State.goto] at ht
    split at ht
    · cases ht; simp
    · exact List.mem_cons_of_mem _ (hr t s x ht)
  | returning s0 r0 =>
    refine ⟨(hgoto .idle (by rintro s x ⟨⟩)).returning, fun s x ht => ?_⟩
    rcases List.mem_append.1 ht with ht | ht
    · exact hl s x ht
    · simp only [List.mem_cons, List.not_mem_nil, or_false, Prod.mk.injEq] at ht
      obtain ⟨rfl, rfl⟩ := ht
      exact hr _ _ _ hpc

theorem Kept.run : ∀ {st : State}, Kept st → ∀ cs, Kept (st.run cs)
  | _, h, [] => h
  | _, h, c :: cs => Kept.run (h.step c) cs

end CacheP
