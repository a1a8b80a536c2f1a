import Verif.Proofs.Order
import Verif.Spec.Yew

/-!
# Components on top of managers
-/

namespace Yew

open Manager

/-- Content `p` is the style with key `k` of manager `i`. -/
def IsK (s : St) (i : Nat) (k : Key) (p : Nat) : Prop := ∃ c, s.heap[p]? = some c ∧ c.mgr = i ∧ c.key = k

/-- Manager `i` has `p` registered under `k`. -/
def RegK (s : St) (i : Nat) (k : Key) (p : Nat) : Prop := ∃ m, s.mgrs[i]? = some m ∧ (k, p) ∈ m.reg

theorem IsK.mono {env : Env} {op : Op} {s : St} (hi : Inv s) {i : Nat} {k : Key} {p : Nat} (h : IsK s i k p) :
    IsK (step env op s).1 i k p := by
  obtain ⟨c, h1, h2⟩ := h
  obtain ⟨n, hn⟩ := ((step_tr env hi op).eff hi).heap
  exact ⟨c, by rw [hn]; exact getElem?_append_of n h1, h2⟩

/-- A content that was there before keeps its key. -/
theorem IsK.back {env : Env} {op : Op} {s : St} (hi : Inv s) {i : Nat} {k : Key} {p : Nat}
    (h : IsK (step env op s).1 i k p) (hp : p < s.heap.length) : IsK s i k p := by
  obtain ⟨c, h1, h2⟩ := h
  obtain ⟨n, hn⟩ := ((step_tr env hi op).eff hi).heap
  rw [hn, List.getElem?_append_left hp] at h1
  exact ⟨c, h1, h2⟩

theorem mgrHandles_cases {env : Env} {op : Op} {s s' : St} {out : Out} (h : Tr env op s s' out) :
    (∃ n, s'.mgrHandles = s.mgrHandles ++ n) ∨ ∃ mh, op = .dropMgr mh ∧ s'.mgrHandles = s.mgrHandles.set mh none := by
  cases h with
  | newMgr => exact Or.inl ⟨_, rfl⟩
  | cloneMgr => exact Or.inl ⟨_, rfl⟩
  | dropMgr mh => exact Or.inr ⟨mh, rfl, rfl⟩
  | dropMgrLast mh i _ m0 h ha hm0 =>
    exact Or.inr ⟨mh, rfl, by rw [(releaseAll_fields env _ _).2.2.2.1]; rfl⟩
  | drop => exact Or.inl ⟨[], by rw [(release_fields env _ _).2.2.2.1]; simp⟩
  | unregister => exact Or.inl ⟨[], by rw [(release_fields env _ _).2.2.2.1]; simp [St.modReg, St.modMgr]⟩
  | load mh i data _ _ r _ h hr _ => exact Or.inl ⟨[], by rw [hr.mgrs.1]; simp⟩
  | _ => exact Or.inl ⟨[], by simp [St.modReg, St.modMgr]⟩

theorem mgrOf_lt {s : St} {mh i : Nat} (e : s.mgrOf mh = some i) : mh < s.mgrHandles.length := by
  simp only [St.mgrOf, Option.join_eq_some_iff] at e
  exact (List.getElem?_eq_some_iff.1 e).1

/-- A manager handle is kept until it is dropped. -/
theorem mgrOf_step {env : Env} {op : Op} {s : St} (hi : Inv s) {mh i : Nat} (e : s.mgrOf mh = some i)
    (hop : op ≠ .dropMgr mh) : (step env op s).1.mgrOf mh = some i := by
  rcases mgrHandles_cases (step_tr env hi op) with ⟨n, hn⟩ | ⟨mh', rfl, hn⟩
  · rw [St.mgrOf, hn, List.getElem?_append_left (mgrOf_lt e)]; exact e
  · have hne : mh' ≠ mh := fun h => hop (by rw [h])
    rw [St.mgrOf, hn, List.getElem?_set_ne hne]; exact e

theorem contentOf_keep {env : Env} {op : Op} {s : St} (hi : Inv s) {h p : Nat} (e : s.contentOf h = some p)
    (hop : op ≠ .drop h) : (step env op s).1.contentOf h = some p := by
  rcases (contentOf_step env op hi (contentOf_lt e)).2 with h1 | ⟨h1, -⟩
  · rw [h1, e]
  · exact absurd h1 hop

/-- Where a handle comes from. -/
theorem handle_from {env : Env} {op : Op} {s s' : St} {out : Out} (hi : Inv s) (ht : Tr env op s s' out)
    {i : Nat} {k : Key} {h p : Nat} (hc : s'.contentOf h = some p) (hk : IsK s' i k p) (hs' : s' = (step env op s).1) :
    (s.contentOf h = some p ∧ IsK s i k p ∧ op ≠ .drop h) ∨
    (h = s.handles.length ∧ out = .style h ∧ (∃ h0, op = .clone h0 ∧ s.contentOf h0 = some p ∧ IsK s i k p)) ∨
    (h = s.handles.length ∧ out = .style h ∧ Makes op s i k) := by
  have old : ∀ (n : List (Option Nat)) , s'.handles = s.handles ++ n → h < s.handles.length → (∀ x, op ≠ .drop x) →
      (s.contentOf h = some p ∧ IsK s i k p ∧ op ≠ .drop h) := by
    intro n hn hlt hd
    have h1 : s.contentOf h = some p := by
      rw [← hc, St.contentOf, St.contentOf, hn, List.getElem?_append_left hlt]
    exact ⟨h1, (hs' ▸ hk : IsK (step env op s).1 i k p).back hi (hi.handle p (contentOf_mem h1)), hd h⟩
  have same : s'.handles = s.handles → (∀ x, op ≠ .drop x) → (s.contentOf h = some p ∧ IsK s i k p ∧ op ≠ .drop h) := by
    intro hn hd
    have hlt := contentOf_lt hc
    rw [hn] at hlt
    exact old [] (by simp [hn]) hlt hd
  have new : ∀ q : Nat, s'.handles = s.handles ++ [some q] → ¬ h < s.handles.length → h = s.handles.length ∧ p = q := by
    intro q hn hlt
    have hl := contentOf_lt hc
    rw [hn, List.length_append, List.length_cons, List.length_nil] at hl
    have h1 : h = s.handles.length := by omega
    rw [St.contentOf, hn, h1, List.getElem?_append_right (Nat.le_refl _)] at hc
    simp at hc
    exact ⟨h1, hc.symm⟩
  cases ht with
  | createHit mh kind src fault _ i0 m ast q e1 e2 e3 e4 =>
    by_cases hlt : h < s.handles.length
    · exact Or.inl (old _ rfl hlt (by simp))
    · obtain ⟨h1, h2⟩ := new q rfl hlt
      subst h2
      refine Or.inr (Or.inr ⟨h1, by rw [h1], Or.inl ⟨mh, kind, src, fault, m, ast, rfl, ?_⟩⟩)
      obtain ⟨c, c1, c2, c3⟩ := hi.reg i0 m e2 _ (regGet_mem e4)
      obtain ⟨c', d1, d2, d3⟩ := hk
      simp only at d1 c1 c2
      rw [c1] at d1; cases d1
      rw [← d2, c3]
      exact ⟨e1, e2, e3, by rw [← c2, d3]⟩
  | createStatic mh kind src fault _ i0 m ast l log c e1 e2 e3 e4 e5 =>
    by_cases hlt : h < s.handles.length
    · exact Or.inl (old _ rfl hlt (by simp))
    · obtain ⟨h1, h2⟩ := new s.heap.length rfl hlt
      subst h2
      refine Or.inr (Or.inr ⟨h1, by rw [h1], Or.inl ⟨mh, kind, src, fault, m, ast, rfl, ?_⟩⟩)
      obtain ⟨c', d1, d2, d3⟩ := hk
      simp [St.modReg, St.modMgr] at d1
      subst d1; subst e5
      subst d2; subst d3
      exact ⟨e1, e2, e3, rfl⟩
  | createMount mh kind src fault _ i0 m ast c d e1 e2 e3 e4 e5 =>
    by_cases hlt : h < s.handles.length
    · exact Or.inl (old _ rfl hlt (by simp))
    · obtain ⟨h1, h2⟩ := new s.heap.length rfl hlt
      subst h2
      refine Or.inr (Or.inr ⟨h1, by rw [h1], Or.inl ⟨mh, kind, src, fault, m, ast, rfl, ?_⟩⟩)
      obtain ⟨c', d1, d2, d3⟩ := hk
      simp [St.modReg, St.modMgr] at d1
      subst d1; subst e5
      subst d2; subst d3
      exact ⟨e1, e2, e3, rfl⟩
  | clone h0 q _ e =>
    by_cases hlt : h < s.handles.length
    · exact Or.inl (old _ rfl hlt (by simp))
    · obtain ⟨h1, h2⟩ := new q rfl hlt
      subst h2
      exact Or.inr (Or.inl ⟨h1, by rw [h1], h0, rfl, e,
        (hs' ▸ hk : IsK (step env _ s).1 i k p).back hi (hi.handle p (contentOf_mem e))⟩)
  | drop h0 q _ e =>
    have hh : ((({ s with handles := s.handles.set h0 none } : St).release env q)).handles = s.handles.set h0 none :=
      (release_fields env _ _).2.1
    have hlt := contentOf_lt hc
    rw [St.contentOf, hh] at hc
    rw [hh, List.length_set] at hlt
    have hne : h0 ≠ h := by
      rintro rfl
      rw [List.getElem?_set_self hlt] at hc
      simp at hc
    rw [List.getElem?_set_ne hne] at hc
    refine Or.inl ⟨hc, (hs' ▸ hk : IsK (step env _ s).1 i k p).back hi (hi.handle p (contentOf_mem (h := h) hc)), ?_⟩
    intro h'; cases h'; exact hne rfl
  | dropMgrLast mh j _ m0 h ha hm0 =>
    exact Or.inl (same (by rw [(releaseAll_fields env _ _).2.1]; rfl) (by simp))
  | unregister => exact Or.inl (same (by rw [(release_fields env _ _).2.1]; rfl) (by simp))
  | load mh j data _ _ r _ h hr _ =>
    obtain ⟨-, -, -, h3, -⟩ := hr.eff
    exact Or.inl (same h3 (by simp))
  | invalid =>
    by_cases hd : ∃ x, op = .drop x
    · obtain ⟨x, rfl⟩ := hd
      refine Or.inl ⟨hc, hk, ?_⟩
      intro h'; cases h'
      -- a drop of a live handle is valid
      have h1 := hs'
      simp only [step, hc] at h1
      have h2 := congrArg St.handles h1
      rw [(release_fields env _ _).2.1] at h2
      rw [St.contentOf, h2] at hc
      simp only at hc
      by_cases hlt : h < s.handles.length
      · rw [List.getElem?_set_self hlt] at hc; simp at hc
      · rw [List.getElem?_eq_none (by simpa using hlt)] at hc; simp at hc
    · exact Or.inl (same rfl (fun x h => hd ⟨x, h⟩))
  | createSyntax => exact Or.inl (same rfl (by simp))
  | _ => exact Or.inl (same rfl (by simp))

/-- Where a registration comes from. -/
theorem reg_from {env : Env} {op : Op} {s s' : St} {out : Out} (hi : Inv s) (ht : Tr env op s s' out)
    {i : Nat} {k : Key} {p : Nat} (hr : RegK s' i k p) (hout : out = (step env op s).2) :
    (RegK s i k p ∧ (∀ h q, op = .unregister h → s.contentOf h = some q → ¬ IsK s i k q)) ∨ Makes op s i k := by
  obtain ⟨m', hm', hp⟩ := hr
  have same : s'.mgrs = s.mgrs → (∀ h, op ≠ .unregister h) →
      (RegK s i k p ∧ (∀ h q, op = .unregister h → s.contentOf h = some q → ¬ IsK s i k q)) := by
    intro h1 h2
    rw [h1] at hm'
    exact ⟨⟨m', hm', hp⟩, fun h q e => absurd e (h2 h)⟩
  have add : ∀ (i0 : Nat) (m0 : Mgr) (k0 : Key) (q : Nat), s.mgrs[i0]? = some m0 →
      s'.mgrs = (s.modReg i0 (fun reg => reg ++ [(k0, q)])).mgrs →
      (∃ m, s.mgrs[i]? = some m ∧ (k, p) ∈ m.reg) ∨ (i0 = i ∧ k0 = k) := by
    intro i0 m0 k0 q h0 h1
    rw [h1] at hm'
    obtain ⟨m1, hm1, rfl⟩ := getElem?_modReg hm'
    by_cases hij : i0 = i
    · subst hij
      simp only [if_true, List.mem_append, List.mem_cons, List.not_mem_nil, or_false, Prod.mk.injEq] at hp
      rcases hp with hp | ⟨rfl, -⟩
      · exact Or.inl ⟨m1, hm1, hp⟩
      · exact Or.inr ⟨rfl, rfl⟩
    · simp only [hij, if_false] at hp
      exact Or.inl ⟨m1, hm1, hp⟩
  cases ht with
  | invalid =>
    by_cases hu : ∃ h, op = .unregister h
    · obtain ⟨h, rfl⟩ := hu
      refine Or.inl ⟨⟨m', hm', hp⟩, ?_⟩
      rintro _ q ⟨⟩ h2 ⟨c, h3, -⟩
      simp only [step, h2, h3] at hout
      split at hout
      · split at hout <;> cases hout
      · cases hout
    · exact Or.inl (same rfl (fun h e => hu ⟨h, e⟩))
  | newMgr =>
    by_cases hlt : i < s.mgrs.length
    · rw [List.getElem?_append_left hlt] at hm'
      exact Or.inl ⟨⟨m', hm', hp⟩, by simp⟩
    · have := List.getElem?_eq_some_iff.1 hm'
      obtain ⟨h1, h2⟩ := this
      simp only [List.length_append, List.length_cons, List.length_nil] at h1
      have h3 : i = s.mgrs.length := by omega
      subst h3
      simp at h2
      subst h2
      cases hp
  | dropMgrLast mh j _ m0 h ha hm0 =>
    rw [(releaseAll_fields env _ _).2.2.1] at hm'
    obtain ⟨m1, hm1, rfl⟩ := getElem?_modReg hm'
    by_cases hij : j = i
    · simp [hij] at hp
    · simp only [hij, if_false] at hp
      exact Or.inl ⟨⟨m1, hm1, hp⟩, by simp⟩
  | createStatic mh kind src fault _ i0 m ast l log c e1 e2 e3 e4 e5 =>
    rcases add i0 m c.key s.heap.length e2 rfl with h | ⟨rfl, h⟩
    · exact Or.inl ⟨h, by simp⟩
    · exact Or.inr (Or.inl ⟨mh, kind, src, fault, m, ast, rfl, e1, e2, e3, by rw [← h, e5]; rfl⟩)
  | createMount mh kind src fault _ i0 m ast c d e1 e2 e3 e4 e5 =>
    rcases add i0 m c.key s.heap.length e2 rfl with h | ⟨rfl, h⟩
    · exact Or.inl ⟨h, by simp⟩
    · exact Or.inr (Or.inl ⟨mh, kind, src, fault, m, ast, rfl, e1, e2, e3, by rw [← h, e5]; rfl⟩)
  | drop => exact Or.inl (same (by rw [(release_fields env _ _).2.2.1]) (by simp))
  | unregisterDead h q _ c e1 e2 e3 =>
    refine Or.inl ⟨⟨m', hm', hp⟩, ?_⟩
    rintro _ q' ⟨⟩ h2 ⟨c', h3, h4, -⟩
    rw [e1] at h2; cases h2
    rw [e2] at h3; cases h3
    rw [h4] at e3
    exact e3 (hi.dead i m' hm' (List.ne_nil_of_mem hp))
  | unregisterNone h q _ c m e1 e2 e3 e4 =>
    refine Or.inl ⟨⟨m', hm', hp⟩, ?_⟩
    rintro _ q' ⟨⟩ h2 ⟨c', h3, h4, h5⟩
    rw [e1] at h2; cases h2
    rw [e2] at h3; cases h3
    rw [h4, hm'] at e3; cases e3
    rw [h5] at e4
    exact regGet_eq_none.1 e4 (List.mem_map.2 ⟨_, hp, rfl⟩)
  | unregister h q q0 _ c m e1 e2 e3 e4 =>
    rw [(release_fields env _ _).2.2.1] at hm'
    obtain ⟨m1, hm1, rfl⟩ := getElem?_modReg hm'
    by_cases hij : c.mgr = i
    · simp only [hij, if_true] at hp
      obtain ⟨hp1, hp2⟩ := List.mem_filter.1 hp
      refine Or.inl ⟨⟨m1, hm1, hp1⟩, ?_⟩
      rintro _ q' ⟨⟩ h2 ⟨c', h3, h4, h5⟩
      rw [e1] at h2; cases h2
      rw [e2] at h3; cases h3
      simp [h5] at hp2
    · simp only [hij, if_false] at hp
      refine Or.inl ⟨⟨m1, hm1, hp⟩, ?_⟩
      rintro _ q' ⟨⟩ h2 ⟨c', h3, h4, h5⟩
      rw [e1] at h2; cases h2
      rw [e2] at h3; cases h3
      exact hij h4
  | load mh j data _ _ r _ h hr _ =>
    have key : ∀ {es : List Entry} {t t' : St} {r : Res Unit}, LoadRun j es t t' r → ∀ {m' : Mgr}, t'.mgrs[i]? = some m' →
        (k, p) ∈ m'.reg → (∃ m, t.mgrs[i]? = some m ∧ (k, p) ∈ m.reg) ∨ (j = i ∧ ∃ e ∈ es, e.key = k) := by
      intro es t t' r hr
      induction hr with
      | nil s => intro m' h1 h2; exact Or.inl ⟨m', h1, h2⟩
      | same e es s s' r m p c _ _ _ _ _ ih =>
        intro m' h1 h2
        rcases ih h1 h2 with h | ⟨h, e', h3, h4⟩
        · exact Or.inl h
        · exact Or.inr ⟨h, e', by simp [h3], h4⟩
      | conflict e es s m p c _ _ _ _ => intro m' h1 h2; exact Or.inl ⟨m', h1, h2⟩
      | fresh e es s s' r m0 hm0 hg hrun ih =>
        intro m' h1 h2
        rcases ih h1 h2 with ⟨m1, h3, h4⟩ | ⟨h, e', h3, h4⟩
        · obtain ⟨m2, hm2, rfl⟩ := getElem?_modReg h3
          by_cases hij : j = i
          · simp only [hij, if_true, List.mem_append, List.mem_cons, List.not_mem_nil, or_false, Prod.mk.injEq] at h4
            rcases h4 with h4 | ⟨h4, -⟩
            · exact Or.inl ⟨m2, hm2, h4⟩
            · exact Or.inr ⟨hij, e, by simp, h4.symm⟩
          · simp only [hij, if_false] at h4
            exact Or.inl ⟨m2, hm2, h4⟩
        · exact Or.inr ⟨h, e', by simp [h3], h4⟩
    rcases key hr hm' hp with h1 | ⟨rfl, e, h1, h2⟩
    · exact Or.inl ⟨h1, by simp⟩
    · exact Or.inr (Or.inr ⟨mh, data, e, rfl, h, h1, h2⟩)
  | _ => exact Or.inl (same rfl (by simp))

theorem RegK.isK {s : St} (hi : Inv s) {i : Nat} {k : Key} {p : Nat} (h : RegK s i k p) : IsK s i k p := by
  obtain ⟨m, h1, h2⟩ := h
  obtain ⟨c, c1, c2, c3⟩ := hi.reg i m h1 _ h2
  exact ⟨c, c1, c3, c2⟩

theorem RegK.unique {s : St} (hi : Inv s) {i : Nat} {k : Key} {p q : Nat} (h : RegK s i k p) (h' : RegK s i k q) :
    p = q := by
  obtain ⟨m, h1, h2⟩ := h
  obtain ⟨m', h1', h2'⟩ := h'
  rw [h1] at h1'; cases h1'
  have e1 := mem_regGet (hi.keys m (List.mem_of_getElem? h1)) h2
  have e2 := mem_regGet (hi.keys m (List.mem_of_getElem? h1)) h2'
  rw [e1] at e2; cases e2; rfl

/-- The handles to the style with key `k` of manager `i` are among `O`, and it is only
registered if one of them refers to it, or if `G` holds: it was loaded and has not been
unregistered since. -/
structure Hold (G : Prop) (O : Nat → Prop) (i : Nat) (k : Key) (s : St) : Prop where
  handle : ∀ h p, s.contentOf h = some p → IsK s i k p → O h
  reg : ∀ p, RegK s i k p → G ∨ ∃ h, O h ∧ s.contentOf h = some p

theorem Hold.imp {G G' : Prop} {O : Nat → Prop} {i : Nat} {k : Key} {s : St} (h : Hold G O i k s) (e : G → G') :
    Hold G' O i k s where
  handle := h.handle
  reg p h1 := (h.reg p h1).imp_left e

theorem Hold.congr {G : Prop} {O O' : Nat → Prop} {i : Nat} {k : Key} {s : St} (h : Hold G O i k s)
    (e : ∀ x p, s.contentOf x = some p → (O x ↔ O' x)) : Hold G O' i k s where
  handle x p h1 h2 := (e x p h1).1 (h.handle x p h1 h2)
  reg p h1 := by
    refine (h.reg p h1).imp_right ?_
    rintro ⟨x, h2, h3⟩
    exact ⟨x, (e x p h3).1 h2, h3⟩

/-- Somebody else does something. -/
theorem Hold.other {G : Prop} {O : Nat → Prop} {i : Nat} {k : Key} {env : Env} {op : Op} {s : St} (hi : Inv s) (h : Hold G O i k s)
    (h1 : ∀ x, op = .clone x → ¬ O x) (h2 : ∀ x, op = .drop x → ¬ O x) (h3 : ¬ Makes op s i k) :
    Hold G O i k (step env op s).1 := by
  have ht := step_tr env hi op
  constructor
  · intro x p e1 e2
    rcases handle_from hi ht e1 e2 rfl with ⟨a1, a2, -⟩ | ⟨-, -, x0, a1, a2, a3⟩ | ⟨-, -, a1⟩
    · exact h.handle x p a1 a2
    · exact absurd (h.handle x0 p a2 a3) (h1 x0 a1)
    · exact absurd a1 h3
  · intro p e1
    rcases reg_from hi ht e1 rfl with ⟨a1, -⟩ | a1
    · refine (h.reg p a1).imp_right ?_
      rintro ⟨x, b1, b2⟩
      exact ⟨x, b1, contentOf_keep hi b2 (fun e => h2 x e b1)⟩
    · exact absurd a1 h3

theorem step_create_handle {env : Env} {s : St} (hi : Inv s) {mh : Nat} {kind : Kind} {src : Source} {fault : Bool} {h : Nat}
    (hs : (step env (.create mh kind src fault) s).2 = .style h) : h = s.handles.length := by
  have ht := step_tr env hi (.create mh kind src fault)
  generalize (step env (.create mh kind src fault) s).1 = s' at ht
  rw [hs] at ht
  cases ht <;> first | rfl | assumption

/-- A component creates a style. -/
theorem Hold.create {G : Prop} {O : Nat → Prop} {i : Nat} {k : Key} {env : Env} {s s' : St} {mh : Nat} {kind : Kind} {src : Source}
    {fault : Bool} {x : Nat} (hi : Inv s) (h : Hold G O i k s)
    (hs : step env (.create mh kind src fault) s = (s', .style x)) : Hold G (fun y => O y ∨ y = x) i k s' := by
  have ht := step_tr env hi (.create mh kind src fault)
  have hx := step_create_handle hi (env := env) (mh := mh) (kind := kind) (src := src) (fault := fault) (h := x) (by rw [hs])
  have e' : s' = (step env (.create mh kind src fault) s).1 := by rw [hs]
  subst e'
  constructor
  · intro y p e1 e2
    rcases handle_from hi ht e1 e2 rfl with ⟨a1, a2, -⟩ | ⟨-, -, x0, a1, a2, a3⟩ | ⟨a0, -, a1⟩
    · exact Or.inl (h.handle y p a1 a2)
    · cases a1
    · exact Or.inr (a0.trans hx.symm)
  · intro p e1
    rcases reg_from hi ht e1 rfl with ⟨a1, -⟩ | a1
    · refine (h.reg p a1).imp_right ?_
      rintro ⟨y, b1, b2⟩
      exact ⟨y, Or.inl b1, contentOf_keep hi b2 (by simp)⟩
    · rcases a1 with ⟨_, _, _, _, m, ast, b0, b1, b2, b3, b4⟩ | ⟨_, _, _, b0, -⟩
      · cases b0
        obtain ⟨p', c, m', c1, c2, c3, -, c5, -, -⟩ := create_style hi b1 b2 b3 (h := x) (by rw [hs])
        rw [b4] at c5
        have := e1.unique (inv_step env _ hi) ⟨m', c3, regGet_mem c5⟩
        exact Or.inr ⟨x, Or.inr rfl, by rw [this]; exact c1⟩
      · cases b0

/-- A component drops its guard. -/
theorem Hold.close {G G' : Prop} {O : Nat → Prop} {i : Nat} {k : Key} {env : Env} {s : St} {x q : Nat} (hi : Inv s)
    (h : Hold G O i k s) (hx : s.contentOf x = some q) (hG : G → ¬ IsK s i k q → G') : Hold G' (fun y => O y ∧ y ≠ x) i k (run env [.unregister x, .drop x] s) := by
  have h1 : Hold G O i k (step env (.unregister x) s).1 := h.other hi (by simp) (by simp) (by simp [Makes])
  have hi1 := inv_step env (.unregister x) hi
  have hun : IsK s i k q → ∀ p, ¬ RegK (step env (.unregister x) s).1 i k p := by
    intro hk p hr
    rcases reg_from hi (step_tr env hi _) hr rfl with ⟨-, a⟩ | a
    · exact a x q rfl hx hk
    · simp [Makes] at a
  have hx1 : (step env (.unregister x) s).1.contentOf x = some q := contentOf_keep hi hx (by simp)
  have hback : ∀ p, s.contentOf x = some p → IsK (step env (.unregister x) s).1 i k p → IsK s i k p :=
    fun p e hk => hk.back hi (hi.handle p (contentOf_mem e))
  simp only [run]
  generalize (step env (.unregister x) s).1 = s1 at *
  have ht := step_tr env hi1 (.drop x)
  constructor
  · intro y p e1 e2
    rcases handle_from hi1 ht e1 e2 rfl with ⟨a1, a2, a3⟩ | ⟨-, -, x0, a1, a2, a3⟩ | ⟨-, -, a1⟩
    · exact ⟨h1.handle y p a1 a2, fun e => a3 (by rw [e])⟩
    · cases a1
    · simp [Makes] at a1
  · intro p e1
    rcases reg_from hi1 ht e1 rfl with ⟨a1, -⟩ | a1
    · refine (h1.reg p a1).imp (fun g => hG g (fun hk => hun hk _ a1)) ?_
      rintro ⟨y, b1, b2⟩
      have hne : y ≠ x := by
        rintro rfl
        rw [hx1] at b2; cases b2
        exact hun (hback _ hx (a1.isK hi1)) _ a1
      exact ⟨y, ⟨b1, hne⟩, contentOf_keep hi1 b2 (by simpa using fun e => hne e.symm)⟩
    · simp [Makes] at a1

/-! ## One style per key, as long as it is not unregistered -/

/-- At most one style with key `k` of manager `i` is alive, and it is registered. -/
structure Uniq (i : Nat) (k : Key) (s : St) : Prop where
  unique : ∀ p q, IsK s i k p → s.Alive p → IsK s i k q → s.Alive q → p = q
  reg : some i ∈ s.mgrHandles → ∀ p, IsK s i k p → s.Alive p → RegK s i k p

theorem alive_cases {s : St} (hi : Inv s) {i : Nat} {k : Key} {p : Nat} (hk : IsK s i k p) (h : s.Alive p) :
    (∃ h, s.contentOf h = some p) ∨ RegK s i k p := by
  rcases h with h | ⟨m, hm, k', hk'⟩
  · obtain ⟨x, hx⟩ := List.getElem?_of_mem h
    exact Or.inl ⟨x, by simp [St.contentOf, hx]⟩
  · obtain ⟨j, hj⟩ := List.getElem?_of_mem hm
    obtain ⟨c, c1, c2, c3⟩ := hi.reg j m hj _ hk'
    obtain ⟨c', d1, d2, d3⟩ := hk
    simp only at c1 c2
    rw [c1] at d1; cases d1
    rw [c3] at d2; rw [c2] at d3
    subst d2; subst d3
    exact Or.inr ⟨m, hj, hk'⟩

theorem RegK.alive {s : St} {i : Nat} {k : Key} {p : Nat} (h : RegK s i k p) : s.Alive p := by
  obtain ⟨m, h1, h2⟩ := h
  exact Or.inr ⟨m, List.mem_of_getElem? h1, k, h2⟩

theorem Makes.handles {env : Env} {op : Op} {s : St} {i : Nat} {k : Key} (hi : Inv s) (h : Makes op s i k) :
    some i ∈ (step env op s).1.mgrHandles := by
  rcases h with ⟨mh, kind, src, fault, m, ast, rfl, h1, -⟩ | ⟨mh, data, e, rfl, h1, -⟩
  · exact mgrOf_mem (mgrOf_step (env := env) hi h1 (by simp))
  · exact mgrOf_mem (mgrOf_step (env := env) hi h1 (by simp))

theorem load_handles {env : Env} {mh : Nat} {data : List Entry} {s s' : St} {out : Out}
    (h : Tr env (.load mh data) s s' out) : s'.handles = s.handles := by
  cases h with
  | load _ j _ _ _ r _ e1 hr _ =>
    obtain ⟨-, -, -, h3, -⟩ := hr.eff
    exact h3
  | invalid => rfl

theorem Uniq.step {i : Nat} {k : Key} {env : Env} {op : Op} {s : St} (hi : Inv s) (h : Uniq i k s)
    (hun : ¬ Unregisters op s i k) : Uniq i k (Manager.step env op s).1 := by
  have ht := step_tr env hi op
  have hi' := inv_step env op hi
  -- Who is alive afterwards.
  have old : ∀ p, IsK (Manager.step env op s).1 i k p → (Manager.step env op s).1.Alive p →
      (IsK s i k p ∧ s.Alive p) ∨ (RegK (Manager.step env op s).1 i k p ∧ Makes op s i k) := by
    intro p hk hl
    rcases alive_cases hi' hk hl with ⟨x, hx⟩ | hr
    · rcases handle_from hi ht hx hk rfl with ⟨a1, a2, -⟩ | ⟨-, -, x0, -, a1, a2⟩ | ⟨a0, a1, a2⟩
      · exact Or.inl ⟨a2, Or.inl (contentOf_mem a1)⟩
      · exact Or.inl ⟨a2, Or.inl (contentOf_mem a1)⟩
      · refine Or.inr ⟨?_, a2⟩
        rcases a2 with ⟨mh, kind, src, fault, m, ast, rfl, b1, b2, b3, b4⟩ | ⟨mh, data, e, rfl, -⟩
        · obtain ⟨p', c, m', c1, c2, c3, -, c5, -⟩ := create_style hi b1 b2 b3 (h := x) a1
          rw [hx] at c1; cases c1
          rw [b4] at c5
          exact ⟨m', c3, regGet_mem c5⟩
        · exfalso
          have hl := contentOf_lt hx
          rw [load_handles ht] at hl
          omega
    · rcases reg_from hi ht hr rfl with ⟨a1, -⟩ | a1
      · exact Or.inl ⟨a1.isK hi, a1.alive⟩
      · exact Or.inr ⟨hr, a1⟩
  have reg : some i ∈ (Manager.step env op s).1.mgrHandles → ∀ p, IsK (Manager.step env op s).1 i k p →
      (Manager.step env op s).1.Alive p → RegK (Manager.step env op s).1 i k p := by
    intro hal p hk hl
    rcases old p hk hl with ⟨a1, a2⟩ | ⟨a1, -⟩
    · have hlt : i < s.mgrs.length := by
        obtain ⟨c, c1, c2, -⟩ := a1
        rw [← c2]; exact hi.contentMgr c (List.mem_of_getElem? c1)
      have hal0 : some i ∈ s.mgrHandles := by
        refine Classical.byContradiction (fun hn => ht.mgrHandles hlt hn hal)
      obtain ⟨m, h1, h2⟩ := h.reg hal0 p a1 a2
      obtain ⟨m', b1, -, b3, -⟩ := ht.mgr h1
      rcases b3 k p (mem_regGet (hi.keys m (List.mem_of_getElem? h1)) h2) with b | b | b
      · exact ⟨m', b1, regGet_mem b⟩
      · exact absurd b hun
      · exact absurd hal b
    · exact a1
  refine ⟨?_, reg⟩
  intro p q hp1 hp2 hq1 hq2
  by_cases hal : some i ∈ (Manager.step env op s).1.mgrHandles
  · exact (reg hal p hp1 hp2).unique hi' (reg hal q hq1 hq2)
  · rcases old p hp1 hp2 with ⟨a1, a2⟩ | ⟨-, a⟩
    · rcases old q hq1 hq2 with ⟨b1, b2⟩ | ⟨-, b⟩
      · exact h.unique p q a1 a2 b1 b2
      · exact absurd (b.handles hi) hal
    · exact absurd (a.handles hi) hal

theorem Uniq.run {i : Nat} {k : Key} {env : Env} : ∀ (ops : List Op) {s : St}, Inv s → Uniq i k s →
    Along env (fun t op => ¬ Unregisters op t i k) ops s → Uniq i k (Manager.run env ops s)
  | [], _, _, h, _ => h
  | op :: ops, _, hi, h, ha => (h.step hi ha.1).run ops (inv_step env op hi) ha.2

theorem Uniq.init (i : Nat) (k : Key) (d : Dom) : Uniq i k (St.init d) := by
  constructor
  · rintro p q ⟨c, h, -⟩; simp [St.init] at h
  · rintro - p ⟨c, h, -⟩; simp [St.init] at h

/-! ## Components -/

/-- What a mounted component keeps is what it should be. -/
def CompOk (s : St) (c : Comp) : Prop :=
  ∃ (i : Nat) (m : Mgr) (p : Nat) (ct : Content), s.mgrOf c.mh = some i ∧ s.mgrs[i]? = some m ∧
    s.contentOf c.h = some p ∧ s.heap[p]? = some ct ∧ ct.mgr = i ∧ ct.key = globalKey m c.css

theorem CompOk.step {env : Env} {op : Op} {s : St} {c : Comp} (hi : Inv s) (h : CompOk s c) (h1 : op ≠ .drop c.h)
    (h2 : op ≠ .dropMgr c.mh) :
    CompOk (Manager.step env op s).1 c ∧ (Manager.step env op s).1.mgrOf c.mh = s.mgrOf c.mh := by
  obtain ⟨i, m, p, ct, a1, a2, a3, a4, a5, a6⟩ := h
  obtain ⟨m', b1, b2, -⟩ := (step_tr env hi op).mgr a2
  obtain ⟨n, hn⟩ := ((step_tr env hi op).eff hi).heap
  have hm := mgrOf_step (env := env) hi a1 h2
  refine ⟨⟨i, m', p, ct, hm, b1, contentOf_keep hi a3 h1, ?_, a5, ?_⟩, by rw [hm, a1]⟩
  · rw [hn]; exact getElem?_append_of n a4
  · rw [a6, globalKey, globalKey, b2.1]

theorem CompOk.run {env : Env} : ∀ (ops : List Op) {s : St} {c : Comp}, Inv s → CompOk s c →
    (∀ op ∈ ops, op ≠ .drop c.h ∧ op ≠ .dropMgr c.mh) →
    CompOk (Manager.run env ops s) c ∧ (Manager.run env ops s).mgrOf c.mh = s.mgrOf c.mh
  | [], s, c, _, h, _ => ⟨h, rfl⟩
  | op :: ops, s, c, hi, h, ho => by
    obtain ⟨h1, h2⟩ := h.step (env := env) hi (ho op (by simp)).1 (ho op (by simp)).2
    obtain ⟨h3, h4⟩ := h1.run ops (inv_step env op hi) (fun op' h' => ho op' (by simp [h']))
    exact ⟨h3, h4.trans h2⟩

theorem dropMemo_ne {o : Order} {c c' : Comp} (h1 : c'.h ≠ c.h) (h2 : c'.mh ≠ c.mh) :
    ∀ op ∈ dropMemo o c, op ≠ .drop c'.h ∧ op ≠ .dropMgr c'.mh := by
  intro op hop
  have : op = .dropMgr c.mh ∨ op = .unregister c.h ∨ op = .drop c.h := by
    rw [dropMemo] at hop
    split at hop <;> simp [dropGuard] at hop <;> grind
  rcases this with rfl | rfl | rfl
  · exact ⟨by simp, by simpa using fun e => h2 e.symm⟩
  · exact ⟨by simp, by simp⟩
  · exact ⟨by simpa using fun e => h1 e.symm, by simp⟩

/-- A component drops what it keeps. -/
theorem Hold.dropMemo {G G' : Prop} {O : Nat → Prop} {i : Nat} {k : Key} {env : Env} {o : Order} {s : St} {c : Comp}
    (hi : Inv s) (h : Hold G O i k s) (hc : CompOk s c)
    (hG : G → (∀ q, s.contentOf c.h = some q → ¬ IsK s i k q) → G') :
    Hold G' (fun y => O y ∧ y ≠ c.h) i k (run env (dropMemo o c) s) := by
  obtain ⟨_, _, q, _, -, -, hq, -⟩ := hc
  rw [Yew.dropMemo]
  split
  · have h1 : Hold G O i k (step env (.dropMgr c.mh) s).1 := h.other hi (by simp) (by simp) (by simp [Makes])
    refine h1.close (inv_step env _ hi) (contentOf_keep hi hq (by simp)) (fun g hk => hG g ?_)
    intro q' hq' hk'
    rw [hq] at hq'; cases hq'
    exact hk (hk'.mono hi)
  · rw [run_append]
    have h1 : Hold G' _ _ _ _ := h.close (env := env) hi hq (fun g hk => hG g (by
      intro q' hq' hk'
      rw [hq] at hq'; cases hq'
      exact hk hk'))
    exact h1.other (inv_run env _ hi) (by simp) (by simp) (by simp [Makes])

/-- The components have different handles. -/
def Apart (cs : List (Option Comp)) : Prop :=
  ∀ (j j' : Nat) (c c' : Comp), cs[j]? = some (some c) → cs[j']? = some (some c') → j ≠ j' → c.h ≠ c'.h ∧ c.mh ≠ c'.mh

/-- The handle belongs to a component. -/
def Own (cs : List (Option Comp)) (h : Nat) : Prop := ∃ (j : Nat) (c : Comp), cs[j]? = some (some c) ∧ c.h = h

/-- All is well. -/
structure AppOk (a : App) : Prop where
  inv : Inv a.st
  comp : ∀ (j : Nat) (c : Comp), a.comps[j]? = some (some c) → CompOk a.st c
  apart : Apart a.comps

theorem AppOk.init (d : Dom) : AppOk (App.init d) :=
  ⟨Inv.init d, by simp [App.init], by simp [App.init, Apart]⟩

/-- The props, read off the components. -/
def propsOf (a : App) : List (Option Props) := a.comps.map (fun c => c.map (fun c => (a.st.mgrOf c.mh, c.css)))

theorem cloneMgr_cases {env : Env} {s s1 : St} {mh mh' : Nat} (h : step env (.cloneMgr mh) s = (s1, .mgr mh')) :
    ∃ i, s.mgrOf mh = some i ∧ mh' = s.mgrHandles.length ∧ s1.mgrOf mh' = some i := by
  simp only [step] at h
  split at h
  · cases h
  · rename_i i hi
    cases h
    exact ⟨i, hi, rfl, by simp [St.mgrOf]⟩

/-- What a component creates. -/
theorem create_compOk {env : Env} {s s' : St} (hi : Inv s) {mh i h : Nat} {css : Sheet} {tag : Nat} {fault : Bool}
    (hm : s.mgrOf mh = some i) (hs : step env (.create mh .global (.sheet css) fault) s = (s', .style h)) :
    CompOk s' { mh, css, tag, h } ∧ s'.mgrOf mh = some i := by
  obtain ⟨m, hm'⟩ := mgrOf_get hi hm
  obtain ⟨p, ct, m', c1, c2, c3, c4, -, c6, c7⟩ := create_style (env := env) (fault := fault) (kind := .global) hi hm hm'
    (src := .sheet css) (ast := css) rfl (h := h) (by rw [hs])
  have := mgrOf_step (env := env) hi hm (op := .create mh .global (.sheet css) fault) (by simp)
  rw [hs] at c1 c2 c3 this
  refine ⟨⟨i, m', p, ct, this, c3, c1, c2, c7, ?_⟩, this⟩
  rw [c6, globalKey, Kind.key, c4.1]

theorem CompOk.lt {s : St} {c : Comp} (h : CompOk s c) : c.h < s.handles.length ∧ c.mh < s.mgrHandles.length := by
  obtain ⟨i, m, p, ct, a1, a2, a3, a4, a5, a6⟩ := h
  exact ⟨contentOf_lt a3, mgrOf_lt a1⟩

/-- One render. -/
theorem render_ok {env : Env} {o : Order} {mh : Nat} {css : Sheet} {tag : Nat} {fault : Bool} {old : Option Comp}
    {s s' : St} {c : Comp} (hi : Inv s) (hold : ∀ c0 ∈ old, CompOk s c0)
    (hr : render env o mh css tag fault old s = some (s', c)) :
    Inv s' ∧ CompOk s' c ∧ s'.mgrOf c.mh = s.mgrOf mh ∧ c.css = css ∧ (∃ ops, s' = run env ops s) ∧
    (∀ c', CompOk s c' → (∀ c0 ∈ old, c'.h ≠ c0.h ∧ c'.mh ≠ c0.mh) →
      CompOk s' c' ∧ s'.mgrOf c'.mh = s.mgrOf c'.mh ∧ c'.h ≠ c.h ∧ c'.mh ≠ c.mh) ∧
    (∀ (G G' : Prop) O i k, Hold G O i k s → (∀ c0 ∈ old, O c0.h) →
      (G → (∀ c0 ∈ old, sameDeps s mh css tag c0 = false → ∀ q, s.contentOf c0.h = some q → ¬ IsK s i k q) → G') →
      Hold G' (fun y => (O y ∧ ∀ c0 ∈ old, y ≠ c0.h) ∨ y = c.h) i k s') := by
  rw [render] at hr
  split at hr
  case h_2 => cases hr
  rename_i s1 mh' hcl
  obtain ⟨i, hmi, hlen, hmi'⟩ := cloneMgr_cases hcl
  have hs1 : s1 = (step env (.cloneMgr mh) s).1 := by rw [hcl]
  have hi1 : Inv s1 := hs1 ▸ inv_step env _ hi
  have ok1 : ∀ c', CompOk s c' → CompOk s1 c' ∧ s1.mgrOf c'.mh = s.mgrOf c'.mh ∧ c'.mh ≠ mh' := by
    intro c' h
    have h1 := h.step (env := env) (op := .cloneMgr mh) hi (by simp) (by simp)
    rw [← hs1] at h1
    exact ⟨h1.1, h1.2, by have := h.lt.2; omega⟩
  have hold1 : ∀ (G : Prop) O i k, Hold G O i k s → Hold G O i k s1 := by
    intro G O i k h
    rw [hs1]
    exact h.other hi (by simp) (by simp) (by simp [Makes])
  have run1 : ∀ {s2 ops}, s2 = run env ops s1 → ∃ ops, s2 = run env ops s := by
    rintro s2 ops rfl
    exact ⟨.cloneMgr mh :: ops, by rw [hs1]; rfl⟩
  cases old with
  | none =>
    simp only at hr
    split at hr
    case h_2 => cases hr
    rename_i s2 h hcr
    simp only [Option.some.injEq, Prod.mk.injEq] at hr
    obtain ⟨rfl, rfl⟩ := hr
    obtain ⟨hok, hmg⟩ := create_compOk hi1 (tag := tag) hmi' hcr
    have hs2 : s2 = (step env (.create mh' .global (.sheet css) fault) s1).1 := by rw [hcr]
    have hh := step_create_handle hi1 (env := env) (mh := mh') (kind := .global) (src := .sheet css) (fault := fault) (h := h)
      (by rw [hcr])
    refine ⟨hs2 ▸ inv_step env _ hi1, hok, by rw [hmg, hmi], rfl, run1 (ops := [_]) hs2, ?_, ?_⟩
    · intro c' h' _
      obtain ⟨b1, b2, b3⟩ := ok1 c' h'
      have h1 := b1.step (env := env) (op := .create mh' .global (.sheet css) fault) hi1 (by simp) (by simp)
      rw [← hs2] at h1
      refine ⟨h1.1, h1.2.trans b2, ?_, b3⟩
      have := b1.lt.1
      simp only; omega
    · intro G G' O i k h' _ hG
      exact (((hold1 G O i k h').imp (fun g => hG g (by simp))).create hi1 hcr).congr (fun x p _ => by simp)
  | some c0 =>
    simp only at hr
    have hc0 := hold c0 rfl
    obtain ⟨hc01, hc02, hc03⟩ := ok1 c0 hc0
    split at hr
    · rename_i hsame
      simp only [Option.some.injEq, Prod.mk.injEq] at hr
      obtain ⟨rfl, rfl⟩ := hr
      simp only [sameDeps, decide_eq_true_eq] at hsame
      have h1 := hc01.step (env := env) (op := .dropMgr mh') hi1 (by simp) (by simpa using fun e => hc03 e.symm)
      refine ⟨inv_step env _ hi1, h1.1, ?_, hsame.2.1, run1 (ops := [.dropMgr mh']) rfl, ?_, ?_⟩
      · rw [h1.2, hsame.1, hmi', hmi]
      · intro c' h' hne
        obtain ⟨b1, b2, b3⟩ := ok1 c' h'
        have h2 := b1.step (env := env) (op := .dropMgr mh') hi1 (by simp) (by simpa using fun e => b3 e.symm)
        exact ⟨h2.1, h2.2.trans b2, hne c0 rfl⟩
      · intro G G' O i k h' hO hG
        have hd : sameDeps s mh css tag c0 = true := by
          rw [sameDeps, decide_eq_true_eq]
          exact ⟨by rw [← hc02, hsame.1, hmi', hmi], hsame.2⟩
        have h2 : Hold G' O i k (step env (.dropMgr mh') s1).1 :=
          ((hold1 G O i k h').imp (fun g => hG g (by
            rintro _ ⟨⟩ hf
            rw [hd] at hf; cases hf))).other hi1 (by simp) (by simp) (by simp [Makes])
        refine h2.congr (fun x p _ => ?_)
        have := hO c0 rfl
        simp only [Option.mem_def, Option.some.injEq, forall_eq']
        by_cases hx : x = c0.h
        · simp [hx, this]
        · simp [hx]
    · by_cases hdf : o.dropFirst = true
      · simp only [hdf, if_true] at hr
        split at hr
        case h_2 => cases hr
        rename_i s3 h hcr
        simp only [Option.some.injEq, Prod.mk.injEq] at hr
        obtain ⟨rfl, rfl⟩ := hr
        have hi2 : Inv (run env (dropMemo o c0) s1) := inv_run env _ hi1
        have hm2 : (run env (dropMemo o c0) s1).mgrOf mh' = some i := by
          have : ∀ (ops : List Op) (s : St), Inv s → s.mgrOf mh' = some i → (∀ op ∈ ops, op ≠ .dropMgr mh') →
              (run env ops s).mgrOf mh' = some i := by
            intro ops
            induction ops with
            | nil => intro s _ h _; exact h
            | cons op ops ih =>
              intro s hi h hop
              exact ih _ (inv_step env op hi) (mgrOf_step hi h (hop op (by simp))) (fun o ho => hop o (by simp [ho]))
          refine this _ _ hi1 hmi' (fun op hop => ?_)
          rw [dropMemo] at hop
          rintro rfl
          split at hop <;> simp [dropGuard] at hop <;> exact hc03 hop.symm
        obtain ⟨hok, hmg⟩ := create_compOk hi2 (tag := tag) hm2 hcr
        have hs3 : s3 = (step env (.create mh' .global (.sheet css) fault) (run env (dropMemo o c0) s1)).1 := by rw [hcr]
        have hh := step_create_handle hi2 (env := env) (mh := mh') (kind := .global) (src := .sheet css) (fault := fault)
          (h := h) (by rw [hcr])
        refine ⟨hs3 ▸ inv_step env _ hi2, hok, by rw [hmg, hmi], rfl,
          run1 (ops := dropMemo o c0 ++ [.create mh' .global (.sheet css) fault]) (by rw [run_append]; exact hs3), ?_, ?_⟩
        · intro c' h' hne
          obtain ⟨b1, b2, b3⟩ := ok1 c' h'
          obtain ⟨hn1, hn2⟩ := hne c0 rfl
          obtain ⟨d1, d2⟩ := b1.run (env := env) (dropMemo o c0) hi1 (dropMemo_ne hn1 hn2)
          have h1 := d1.step (env := env) (op := .create mh' .global (.sheet css) fault) hi2 (by simp) (by simp)
          rw [← hs3] at h1
          refine ⟨h1.1, (h1.2.trans d2).trans b2, ?_, b3⟩
          have := d1.lt.1
          simp only; omega
        · intro G G' O i k h' _ hG
          have h2 := ((hold1 G O i k h').dropMemo (G' := G') (env := env) (o := o) hi1 hc01 (fun g hk => hG g (by
            rintro _ ⟨⟩ - q hq hkq
            refine hk q ?_ ?_
            · rw [hs1]; exact contentOf_keep hi hq (by simp)
            · rw [hs1]; exact hkq.mono hi))).create hi2 hcr
          exact h2.congr (fun x p _ => by simp)
      · simp only [hdf] at hr
        split at hr
        case h_2 => cases hr
        rename_i s3 h hcr
        simp only [Option.some.injEq, Prod.mk.injEq, Bool.false_eq_true, if_false] at hr
        obtain ⟨rfl, rfl⟩ := hr
        simp only [Bool.false_eq_true, if_false] at hcr
        have hs3 : s3 = (step env (.create mh' .global (.sheet css) fault) s1).1 := by rw [hcr]
        have hi3 : Inv s3 := hs3 ▸ inv_step env _ hi1
        obtain ⟨hok, hmg⟩ := create_compOk hi1 (tag := tag) hmi' hcr
        have hh := step_create_handle hi1 (env := env) (mh := mh') (kind := .global) (src := .sheet css) (fault := fault)
          (h := h) (by rw [hcr])
        have hnew : ∀ c', CompOk s1 c' → c'.h ≠ h := fun c' h' => by have := h'.lt.1; omega
        have hok' := hok.run (env := env) (dropMemo o c0) hi3
          (dropMemo_ne (fun e => hnew c0 hc01 e.symm) (fun e => hc03 e.symm))
        have hc03' : CompOk s3 c0 := by
          have h1 := hc01.step (env := env) (op := .create mh' .global (.sheet css) fault) hi1 (by simp) (by simp)
          rw [← hs3] at h1
          exact h1.1
        refine ⟨inv_run env _ hi3, hok'.1, ?_, rfl,
          run1 (ops := .create mh' .global (.sheet css) fault :: dropMemo o c0) (by rw [hs3]; rfl), ?_, ?_⟩
        · rw [hok'.2]; simp only; rw [hmg, hmi]
        · intro c' h' hne
          obtain ⟨b1, b2, b3⟩ := ok1 c' h'
          obtain ⟨hn1, hn2⟩ := hne c0 rfl
          have h1 := b1.step (env := env) (op := .create mh' .global (.sheet css) fault) hi1 (by simp) (by simp)
          rw [← hs3] at h1
          obtain ⟨d1, d2⟩ := h1.1.run (env := env) (dropMemo o c0) hi3 (dropMemo_ne hn1 hn2)
          exact ⟨d1, (d2.trans h1.2).trans b2, hnew c' b1, b3⟩
        · intro G G' O i k h' _ hG
          have h2 := (((hold1 G O i k h').create hi1 hcr).dropMemo (G' := G') (env := env) (o := o) hi3 hc03' (fun g hk => hG g (by
            rintro _ ⟨⟩ - q hq hkq
            refine hk q ?_ ?_
            · rw [hs3]; refine contentOf_keep hi1 ?_ (by simp)
              rw [hs1]; exact contentOf_keep hi hq (by simp)
            · rw [hs3]; refine IsK.mono hi1 ?_
              rw [hs1]; exact hkq.mono hi)))
          refine h2.congr (fun x p _ => ?_)
          have := hnew c0 hc01
          simp only [Option.mem_def, Option.some.injEq, forall_eq']
          grind

theorem set_some_cases {cs : List (Option Comp)} {j j' : Nat} {x : Option Comp} {c : Comp}
    (h : (cs.set j x)[j']? = some (some c)) : (j' = j ∧ x = some c) ∨ (j' ≠ j ∧ cs[j']? = some (some c)) := by
  by_cases e : j = j'
  · subst e
    have hlt := (List.getElem?_eq_some_iff.1 h).1
    rw [List.length_set] at hlt
    rw [List.getElem?_set_self hlt] at h
    exact Or.inl ⟨rfl, by simpa using h⟩
  · rw [List.getElem?_set_ne e] at h
    exact Or.inr ⟨fun e' => e e'.symm, h⟩

theorem append_some_cases {cs : List (Option Comp)} {j : Nat} {x : Option Comp} {c : Comp}
    (h : (cs ++ [x])[j]? = some (some c)) : (j = cs.length ∧ x = some c) ∨ (cs[j]? = some (some c)) := by
  by_cases e : j < cs.length
  · rw [List.getElem?_append_left e] at h; exact Or.inr h
  · have hlt := (List.getElem?_eq_some_iff.1 h).1
    simp only [List.length_append, List.length_cons, List.length_nil] at hlt
    have : j = cs.length := by omega
    subst this
    rw [List.getElem?_append_right (Nat.le_refl _)] at h
    exact Or.inl ⟨rfl, by simpa using h⟩

theorem not_private_style {a : App} {op : Op} {x : Nat} (hp : a.private op = false)
    (hop : op = .clone x ∨ op = .drop x ∨ op = .unregister x) : ¬ Own a.comps x := by
  rintro ⟨j, c, h1, h2⟩
  have : a.private op = true := by
    rcases hop with rfl | rfl | rfl <;>
    · simp only [App.private, List.any_eq_true]
      exact ⟨_, List.mem_of_getElem? h1, by simp [h2]⟩
  rw [hp] at this; cases this

theorem not_private_mgr {a : App} {mh : Nat} (hp : a.private (.dropMgr mh) = false) {j : Nat} {c : Comp}
    (h1 : a.comps[j]? = some (some c)) : c.mh ≠ mh := by
  intro h2
  have : a.private (.dropMgr mh) = true := by
    simp only [App.private, List.any_eq_true]
    exact ⟨_, List.mem_of_getElem? h1, by simp [h2]⟩
  rw [hp] at this; cases this

theorem CompOk.uses {a : App} {c : Comp} {i : Nat} {k : Key} {p : Nat} (h : CompOk a.st c)
    (hc : a.st.contentOf c.h = some p) : IsK a.st i k p ↔ Uses a c i k := by
  obtain ⟨i', m, p', ct, a1, a2, a3, a4, a5, a6⟩ := h
  rw [hc] at a3; cases a3
  constructor
  · rintro ⟨ct', b1, b2, b3⟩
    rw [a4] at b1; cases b1
    rw [a5] at b2; subst b2
    exact ⟨a1, m, a2, by rw [← b3, a6]⟩
  · rintro ⟨b1, m', b2, b3⟩
    rw [a1] at b1; cases b1
    rw [a2] at b2; cases b2
    exact ⟨ct, a4, a5, by rw [a6, b3]⟩

/-- One event. -/
theorem event_ok {env : Env} {o : Order} {a a' : App} {e : Event} (hok : AppOk a) (he : event env o a e = some a') :
    AppOk a' ∧ (∃ ops, a'.st = run env ops a.st) ∧ propsOf a' = propsAfter a (propsOf a) e ∧
    (∀ (G G' : Prop) i k, Hold G (Own a.comps) i k a.st → OnlyGlobals i k a e → (G → ¬ Closes i k a e → G') →
      Hold G' (Own a'.comps) i k a'.st) := by
  have hi := hok.inv
  -- The props of components that are not touched.
  have keep : ∀ (s' : St) (cs : List (Option Comp)), (∀ c, some c ∈ cs → s'.mgrOf c.mh = a.st.mgrOf c.mh) →
      cs.map (fun c => c.map (fun c => (s'.mgrOf c.mh, c.css))) =
      cs.map (fun c => c.map (fun c => (a.st.mgrOf c.mh, c.css))) := by
    intro s' cs h
    refine List.map_congr_left (fun c hc => ?_)
    cases c with
    | none => rfl
    | some c => simp [h c hc]
  cases e with
  | other op =>
    simp only [event] at he
    split at he
    · cases he
    rename_i hp
    simp only [Bool.not_eq_true] at hp
    simp only [Option.some.injEq] at he
    subst he
    have hc : ∀ (j : Nat) (c : Comp), a.comps[j]? = some (some c) →
        CompOk (step env op a.st).1 c ∧ (step env op a.st).1.mgrOf c.mh = a.st.mgrOf c.mh := by
      intro j c h
      refine (hok.comp j c h).step hi ?_ ?_
      · intro e; exact not_private_style hp (Or.inr (Or.inl e)) ⟨j, c, h, rfl⟩
      · intro e; subst e; exact not_private_mgr hp h rfl
    refine ⟨⟨inv_step env op hi, fun j c h => (hc j c h).1, hok.apart⟩, ⟨[op], rfl⟩, ?_, ?_⟩
    · refine keep _ _ (fun c h => ?_)
      obtain ⟨j, hj⟩ := List.getElem?_of_mem h
      exact (hc j c hj).2
    · intro G G' i k h hg hG
      refine (h.imp (fun g => hG g ?_)).other hi ?_ ?_ (hg op rfl)
      · rintro ⟨x, p, ct, rfl, e1, e2, e3, e4⟩
        exact not_private_style hp (Or.inr (Or.inr rfl)) (h.handle x p e1 ⟨ct, e2, e3, e4⟩)
      · intro x e; exact not_private_style hp (Or.inl e)
      · intro x e; exact not_private_style hp (Or.inr (Or.inl e))
  | unmount j =>
    simp only [event] at he
    split at he
    case h_2 => cases he
    rename_i c hj
    simp only [Option.some.injEq] at he
    subst he
    have hc : ∀ (j' : Nat) (c' : Comp), a.comps[j']? = some (some c') → j' ≠ j →
        CompOk (run env (dropMemo o c) a.st) c' ∧ (run env (dropMemo o c) a.st).mgrOf c'.mh = a.st.mgrOf c'.mh := by
      intro j' c' h hne
      have := hok.apart j' j c' c h hj hne
      exact (hok.comp j' c' h).run _ hi (dropMemo_ne this.1 this.2)
    refine ⟨⟨inv_run env _ hi, ?_, ?_⟩, ⟨_, rfl⟩, ?_, ?_⟩
    · intro j' c' h
      rcases set_some_cases h with ⟨-, h1⟩ | ⟨h1, h2⟩
      · cases h1
      · exact (hc j' c' h2 h1).1
    · intro j1 j2 c1 c2 h1 h2 hne
      rcases set_some_cases h1 with ⟨-, h⟩ | ⟨-, h1⟩
      · cases h
      rcases set_some_cases h2 with ⟨-, h⟩ | ⟨-, h2⟩
      · cases h
      exact hok.apart j1 j2 c1 c2 h1 h2 hne
    · simp only [propsOf, propsAfter]
      rw [keep _ (a.comps.set j none), List.map_set]
      · rfl
      · intro c' h
        obtain ⟨j', hj'⟩ := List.getElem?_of_mem h
        rcases set_some_cases hj' with ⟨-, h1⟩ | ⟨h1, h2⟩
        · cases h1
        · exact (hc j' c' h2 h1).2
    · intro G G' i k h _ hG
      refine (h.dropMemo hi (hok.comp j c hj) (fun g hk => hG g ?_)).congr (fun x p _ => ?_)
      · rintro ⟨c', h1, h2⟩
        rw [hj] at h1; cases h1
        obtain ⟨_, _, q, _, -, -, hq, -⟩ := hok.comp j c hj
        exact hk q hq (((hok.comp j c hj).uses hq).2 h2)
      constructor
      · rintro ⟨⟨j', c', h1, rfl⟩, hne⟩
        refine ⟨j', c', ?_, rfl⟩
        have : j ≠ j' := by
          rintro rfl
          rw [hj] at h1; cases h1
          exact hne rfl
        rw [List.getElem?_set_ne this]; exact h1
      · rintro ⟨j', c', h1, rfl⟩
        rcases set_some_cases h1 with ⟨-, h⟩ | ⟨hne, h1⟩
        · cases h
        · exact ⟨⟨j', c', h1, rfl⟩, (hok.apart j' j c' c h1 hj hne).1⟩
  | mount mh css tag fault =>
    simp only [event] at he
    split at he
    · cases he
    simp only [Option.map_eq_some_iff, Prod.exists] at he
    obtain ⟨s', c, hr, rfl⟩ := he
    obtain ⟨h1, h2, h3, h4, h5, h6, h7⟩ := render_ok hi (by simp) hr
    have hc : ∀ (j : Nat) (c' : Comp), a.comps[j]? = some (some c') →
        CompOk s' c' ∧ s'.mgrOf c'.mh = a.st.mgrOf c'.mh ∧ c'.h ≠ c.h ∧ c'.mh ≠ c.mh :=
      fun j c' h => h6 c' (hok.comp j c' h) (by simp)
    refine ⟨⟨h1, ?_, ?_⟩, h5, ?_, ?_⟩
    · intro j c' h
      rcases append_some_cases h with ⟨-, h⟩ | h
      · cases h; exact h2
      · exact (hc j c' h).1
    · intro j1 j2 c1 c2 e1 e2 hne
      rcases append_some_cases e1 with ⟨e1', e⟩ | e1
      · cases e
        rcases append_some_cases e2 with ⟨e2', e⟩ | e2
        · omega
        · have := (hc j2 c2 e2).2.2
          exact ⟨fun e => this.1 e.symm, fun e => this.2 e.symm⟩
      · rcases append_some_cases e2 with ⟨e2', e⟩ | e2
        · cases e; exact (hc j1 c1 e1).2.2
        · exact hok.apart j1 j2 c1 c2 e1 e2 hne
    · simp only [propsOf, propsAfter, List.map_append, List.map_cons, List.map_nil, Option.map_some, h3, h4]
      rw [keep _ a.comps]
      intro c' h
      obtain ⟨j', hj'⟩ := List.getElem?_of_mem h
      exact (hc j' c' hj').2.1
    · intro G G' i k h _ hG
      refine (h7 _ _ _ i k h (by simp) (fun g _ => hG g (by simp [Closes]))).congr (fun x p _ => ?_)
      simp only [Option.mem_def, reduceCtorEq, false_implies, implies_true, and_true]
      constructor
      · rintro (⟨j', c', e1, rfl⟩ | rfl)
        · exact ⟨j', c', getElem?_append_of _ e1, rfl⟩
        · exact ⟨a.comps.length, c, by simp, rfl⟩
      · rintro ⟨j', c', e1, rfl⟩
        rcases append_some_cases e1 with ⟨-, e⟩ | e
        · cases e; exact Or.inr rfl
        · exact Or.inl ⟨j', c', e, rfl⟩
  | update j mh css tag fault =>
    simp only [event] at he
    split at he
    · cases he
    split at he
    case h_2 => cases he
    rename_i c0 hj
    simp only [Option.map_eq_some_iff, Prod.exists] at he
    obtain ⟨s', c, hr, rfl⟩ := he
    obtain ⟨h1, h2, h3, h4, h5, h6, h7⟩ := render_ok hi (by rintro _ ⟨⟩; exact hok.comp j c0 hj) hr
    have hc : ∀ (j' : Nat) (c' : Comp), a.comps[j']? = some (some c') → j' ≠ j →
        CompOk s' c' ∧ s'.mgrOf c'.mh = a.st.mgrOf c'.mh ∧ c'.h ≠ c.h ∧ c'.mh ≠ c.mh := by
      intro j' c' h hne
      refine h6 c' (hok.comp j' c' h) ?_
      rintro _ ⟨⟩
      exact hok.apart j' j c' c0 h hj hne
    have hlt := (List.getElem?_eq_some_iff.1 hj).1
    refine ⟨⟨h1, ?_, ?_⟩, h5, ?_, ?_⟩
    · intro j' c' h
      rcases set_some_cases h with ⟨-, h⟩ | ⟨hne, h⟩
      · cases h; exact h2
      · exact (hc j' c' h hne).1
    · intro j1 j2 c1 c2 e1 e2 hne
      rcases set_some_cases e1 with ⟨e1', e⟩ | ⟨e1', e1⟩
      · cases e
        rcases set_some_cases e2 with ⟨e2', e⟩ | ⟨e2', e2⟩
        · omega
        · have := (hc j2 c2 e2 e2').2.2
          exact ⟨fun e => this.1 e.symm, fun e => this.2 e.symm⟩
      · rcases set_some_cases e2 with ⟨e2', e⟩ | ⟨e2', e2⟩
        · cases e; exact (hc j1 c1 e1 e1').2.2
        · exact hok.apart j1 j2 c1 c2 e1 e2 hne
    · simp only [propsOf, propsAfter, List.map_set, Option.map_some, h3, h4]
      refine List.ext_getElem? (fun j' => ?_)
      by_cases hjj : j = j'
      · subst hjj
        rw [List.getElem?_set_self (by simpa using hlt), List.getElem?_set_self (by simpa using hlt)]
      · rw [List.getElem?_set_ne hjj, List.getElem?_set_ne hjj, List.getElem?_map, List.getElem?_map]
        cases hx : a.comps[j']? with
        | none => rfl
        | some x =>
          cases x with
          | none => rfl
          | some x => simp [(hc j' x hx (fun e => hjj e.symm)).2.1]
    · intro G G' i k h _ hG
      refine (h7 _ _ _ i k h (by rintro _ ⟨⟩; exact ⟨j, c0, hj, rfl⟩) (fun g hk => hG g ?_)).congr (fun x p _ => ?_)
      · rintro ⟨c', e1, e2, e3⟩
        rw [hj] at e1; cases e1
        obtain ⟨_, _, q, _, -, -, hq, -⟩ := hok.comp j c0 hj
        refine hk c0 rfl ?_ q hq (((hok.comp j c0 hj).uses hq).2 e2)
        rw [sameDeps, decide_eq_false_iff_not]
        rintro ⟨f1, f2, f3⟩
        exact e3 ⟨by rw [← f1]; exact e2.1, f2.symm, f3.symm⟩
      simp only [Option.mem_def, Option.some.injEq, forall_eq']
      constructor
      · rintro (⟨⟨j', c', e1, rfl⟩, hne⟩ | rfl)
        · have : j ≠ j' := by
            rintro rfl
            rw [hj] at e1; cases e1
            exact hne rfl
          exact ⟨j', c', by rw [List.getElem?_set_ne this]; exact e1, rfl⟩
        · exact ⟨j, c, by rw [List.getElem?_set_self hlt], rfl⟩
      · rintro ⟨j', c', e1, rfl⟩
        rcases set_some_cases e1 with ⟨-, e⟩ | ⟨hne, e⟩
        · cases e; exact Or.inr rfl
        · exact Or.inl ⟨⟨j', c', e, rfl⟩, (hok.apart j' j c' c0 e hj hne).1⟩

/-- A history of events. -/
theorem events_ok {env : Env} {o : Order} : ∀ (es : List Event) {a a' : App}, AppOk a → events env o es a = some a' →
    AppOk a' ∧ (∃ ops, a'.st = run env ops a.st) ∧ propsOf a' = props env o es a (propsOf a) ∧
    (∀ (G G' : Prop) i k, Hold G (Own a.comps) i k a.st → AlongEvents env o (OnlyGlobals i k) es a →
      (G → AlongEvents env o (fun a e => ¬ Closes i k a e) es a → G') → Hold G' (Own a'.comps) i k a'.st)
  | [], a, a', hok, he => by
    simp only [events, Option.some.injEq] at he
    subst he
    exact ⟨hok, ⟨[], rfl⟩, rfl, fun _ _ _ _ h _ hG => h.imp (fun g => hG g trivial)⟩
  | e :: es, a, a', hok, he => by
    simp only [events, Option.bind_eq_some_iff] at he
    obtain ⟨a1, he1, he2⟩ := he
    obtain ⟨h1, ⟨ops1, h2⟩, h3, h4⟩ := event_ok hok he1
    obtain ⟨b1, ⟨ops2, b2⟩, b3, b4⟩ := events_ok es h1 he2
    refine ⟨b1, ⟨ops1 ++ ops2, by rw [run_append, ← h2, b2]⟩, ?_, ?_⟩
    · rw [b3, props, he1, h3]
    · rintro G G' i k h ⟨hg1, hg2⟩ hG
      refine b4 (G ∧ ¬ Closes i k a e) G' i k (h4 _ _ i k h hg1 (fun g hc => ⟨g, hc⟩)) (hg2 a1 he1) ?_
      rintro ⟨g, hc⟩ hn
      exact hG g ⟨hc, fun a' ha' => by rw [he1] at ha'; cases ha'; exact hn⟩

theorem events_init {env : Env} {o : Order} {d : Dom} {es : List Event} {a : App}
    (h : events env o es (App.init d) = some a) :
    AppOk a ∧ (∃ ops, a.st = run env ops (St.init d)) ∧ propsOf a = props env o es (App.init d) [] ∧
    (∀ i k, AlongEvents env o (OnlyGlobals i k) es (App.init d) → Hold False (Own a.comps) i k a.st) := by
  obtain ⟨h1, h2, h3, h4⟩ := events_ok es (AppOk.init d) h
  refine ⟨h1, h2, h3, fun i k hg => h4 False False i k ⟨?_, ?_⟩ hg (fun h _ => h)⟩
  · intro h p e; simp [App.init, St.init, St.contentOf] at e
  · rintro p ⟨m, e, -⟩; simp [App.init, St.init] at e

/-! ## One style per key -/

theorem not_unregisters {op : Op} {s : St} {i : Nat} {k : Key} (h : ∀ x, op ≠ .unregister x) : ¬ Unregisters op s i k := by
  rintro ⟨x, _, _, e, -⟩; exact h x e

/-- What holds before dropping a memo holds afterwards, if every operation that does not
unregister the style with key `k` of manager `i` keeps it, and the memo is not one of that
style. -/
theorem quiet_dropMemo {P : St → Prop} {i : Nat} {k : Key} {env : Env} {o : Order} {s : St} {c : Comp} {p : Nat}
    (hP : ∀ {s : St} {op : Op}, Inv s → P s → ¬ Unregisters op s i k → P (Manager.step env op s).1) (hi : Inv s) (h : P s)
    (hc : s.contentOf c.h = some p) (hk : ¬ IsK s i k p) : P (Manager.run env (dropMemo o c) s) := by
  have un : ∀ {s : St}, Inv s → P s → s.contentOf c.h = some p → ¬ IsK s i k p →
      P (Manager.run env (dropGuard c) s) := by
    intro s hi h hc hk
    have h1 : P (Manager.step env (.unregister c.h) s).1 := by
      refine hP hi h ?_
      rintro ⟨x, q, ct, e1, e2, e3, e4⟩
      cases e1
      rw [hc] at e2; cases e2
      exact hk ⟨ct, e3, e4⟩
    exact hP (inv_step env _ hi) h1 (not_unregisters (by simp))
  rw [Yew.dropMemo]
  split
  · have h1 : P (Manager.step env (.dropMgr c.mh) s).1 := hP hi h (not_unregisters (by simp))
    exact un (inv_step env _ hi) h1 (contentOf_keep hi hc (by simp))
      (fun hk' => hk (hk'.back hi (hi.handle p (contentOf_mem hc))))
  · rw [run_append]
    exact hP (inv_run env _ hi) (un hi h hc hk) (not_unregisters (by simp))

/-- The same for an event. -/
theorem event_quiet {P : St → Prop} {env : Env} {o : Order} {a a' : App} {e : Event} {i : Nat} {k : Key} (hok : AppOk a)
    (hP : ∀ {s : St} {op : Op}, Inv s → P s → ¬ Unregisters op s i k → P (Manager.step env op s).1)
    (he : event env o a e = some a') (h : P a.st) (hcl : ¬ Closes i k a e) : P a'.st := by
  have hi := hok.inv
  cases e with
  | other op =>
    simp only [event] at he
    split at he
    · cases he
    simp only [Option.some.injEq] at he
    subst he
    exact hP hi h hcl
  | unmount j =>
    simp only [event] at he
    split at he
    case h_2 => cases he
    rename_i c hj
    simp only [Option.some.injEq] at he
    subst he
    have hc := hok.comp j c hj
    obtain ⟨_, _, p, _, _, _, hp, _⟩ := id hc
    exact quiet_dropMemo hP hi h hp (fun hk => hcl ⟨c, hj, (hc.uses hp).1 hk⟩)
  | mount mh css tag fault =>
    simp only [event] at he
    split at he
    · cases he
    simp only [Option.map_eq_some_iff, Prod.exists] at he
    obtain ⟨s', c, hr, rfl⟩ := he
    simp only [render] at hr
    split at hr
    case h_2 => cases hr
    rename_i s1 mh' hc1
    split at hr
    case h_2 => cases hr
    rename_i s2 x hc2
    simp only [Option.some.injEq, Prod.mk.injEq] at hr
    obtain ⟨rfl, -⟩ := hr
    have hs1 : s1 = (step env (.cloneMgr mh) a.st).1 := by rw [hc1]
    have hi1 : Inv s1 := hs1 ▸ inv_step env _ hi
    have h1 : P s1 := hs1 ▸ hP hi h (not_unregisters (by simp))
    have hs2 : s2 = (step env (.create mh' .global (.sheet css) fault) s1).1 := by rw [hc2]
    exact hs2 ▸ hP hi1 h1 (not_unregisters (by simp))
  | update j mh css tag fault =>
    simp only [event] at he
    split at he
    · cases he
    split at he
    case h_2 => cases he
    rename_i c0 hj
    simp only [Option.map_eq_some_iff, Prod.exists] at he
    obtain ⟨s', c, hr, rfl⟩ := he
    simp only [render] at hr
    split at hr
    case h_2 => cases hr
    rename_i s1 mh' hc1
    have hs1 : s1 = (step env (.cloneMgr mh) a.st).1 := by rw [hc1]
    have hi1 : Inv s1 := hs1 ▸ inv_step env _ hi
    have h1 : P s1 := hs1 ▸ hP hi h (not_unregisters (by simp))
    have hc0 := hok.comp j c0 hj
    obtain ⟨_, _, p, _, _, _, hp, _⟩ := id hc0
    have hp1 : s1.contentOf c0.h = some p := hs1 ▸ contentOf_keep hi hp (by simp)
    obtain ⟨im, hmi, -, hmi'⟩ := cloneMgr_cases hc1
    have hmg := (hc0.step (env := env) (op := .cloneMgr mh) hi (by simp) (by simp)).2
    rw [← hs1] at hmg
    split at hr
    · simp only [Option.some.injEq, Prod.mk.injEq] at hr
      obtain ⟨rfl, -⟩ := hr
      exact hP hi1 h1 (not_unregisters (by simp))
    · rename_i hsame
      have hk : ¬ IsK a.st i k p := by
        intro hk
        refine hcl ⟨c0, hj, (hc0.uses hp).1 hk, ?_⟩
        rintro ⟨e1, e2, e3⟩
        apply hsame
        have := ((hc0.uses hp).1 hk).1
        simp only [sameDeps, decide_eq_true_eq]
        exact ⟨by rw [hmg, this, hmi', ← hmi, e1], e2.symm, e3.symm⟩
      have hk1 : ¬ IsK s1 i k p := fun hk' => hk ((hs1 ▸ hk' : IsK (step env (.cloneMgr mh) a.st).1 i k p).back hi
        (hi.handle p (contentOf_mem hp)))
      by_cases hdf : o.dropFirst = true
      · simp only [hdf, if_true] at hr
        split at hr
        case h_2 => cases hr
        rename_i s3 x hcr
        simp only [Option.some.injEq, Prod.mk.injEq] at hr
        obtain ⟨rfl, -⟩ := hr
        have h2 := quiet_dropMemo (o := o) hP hi1 h1 hp1 hk1
        have hs3 : s3 = (step env (.create mh' .global (.sheet css) fault) (run env (dropMemo o c0) s1)).1 := by rw [hcr]
        exact hs3 ▸ hP (inv_run env _ hi1) h2 (not_unregisters (by simp))
      · simp only [hdf] at hr
        split at hr
        case h_2 => cases hr
        rename_i s3 x hcr
        simp only [Option.some.injEq, Prod.mk.injEq, Bool.false_eq_true, if_false] at hr
        obtain ⟨rfl, -⟩ := hr
        simp only [Bool.false_eq_true, if_false] at hcr
        have hs3 : s3 = (step env (.create mh' .global (.sheet css) fault) s1).1 := by rw [hcr]
        have h2 : P s3 := hs3 ▸ hP hi1 h1 (not_unregisters (by simp))
        have hp3 : s3.contentOf c0.h = some p := hs3 ▸ contentOf_keep hi1 hp1 (by simp)
        refine quiet_dropMemo hP (hs3 ▸ inv_step env _ hi1) h2 hp3 (fun hk' => hk1 ?_)
        exact (hs3 ▸ hk' : IsK (step env _ s1).1 i k p).back hi1 (hi1.handle p (contentOf_mem hp1))

/-- The same for a history of events. -/
theorem events_quiet {P : St → Prop} {env : Env} {o : Order} {i : Nat} {k : Key}
    (hP : ∀ {s : St} {op : Op}, Inv s → P s → ¬ Unregisters op s i k → P (Manager.step env op s).1) :
    ∀ (es : List Event) {a a' : App}, AppOk a →
    events env o es a = some a' → P a.st → AlongEvents env o (fun a e => ¬ Closes i k a e) es a → P a'.st
  | [], a, a', _, he, h, _ => by
    simp only [events, Option.some.injEq] at he
    exact he ▸ h
  | e :: es, a, a', hok, he, h, hal => by
    simp only [events, Option.bind_eq_some_iff] at he
    obtain ⟨a1, he1, he2⟩ := he
    exact events_quiet hP es (event_ok hok he1).1 he2 (event_quiet hok hP he1 h hal.1) (hal.2 a1 he1)

theorem events_uniq {env : Env} {o : Order} {i : Nat} {k : Key} (es : List Event) {a a' : App} (hok : AppOk a)
    (he : events env o es a = some a') (h : Uniq i k a.st) (hal : AlongEvents env o (fun a e => ¬ Closes i k a e) es a) :
    Uniq i k a'.st :=
  events_quiet (P := Uniq i k) (fun hi h hn => h.step hi hn) es hok he h hal

/-- The operations of a history in which nobody unregisters the style. -/
theorem events_along {env : Env} {o : Order} {i : Nat} {k : Key} (es : List Event) {a a' : App} (hok : AppOk a)
    (he : events env o es a = some a') (hal : AlongEvents env o (fun a e => ¬ Closes i k a e) es a) :
    ∃ ops, a'.st = run env ops a.st ∧ Along env (fun s op => ¬ Unregisters op s i k) ops a.st := by
  refine events_quiet (P := fun s => ∃ ops, s = run env ops a.st ∧ Along env (fun s op => ¬ Unregisters op s i k) ops a.st)
    ?_ es hok he ⟨[], rfl, trivial⟩ hal
  rintro s op _ ⟨ops, rfl, h⟩ hn
  refine ⟨ops ++ [op], by rw [run_append]; rfl, ?_⟩
  have : ∀ (ops : List Op) (t : St), Along env (fun s op => ¬ Unregisters op s i k) ops t →
      ¬ Unregisters op (run env ops t) i k → Along env (fun s op => ¬ Unregisters op s i k) (ops ++ [op]) t := by
    intro ops
    induction ops with
    | nil => intro t _ hn; exact ⟨hn, trivial⟩
    | cons o ops ih => intro t h hn; exact ⟨h.1, ih _ h.2 hn⟩
  exact this ops _ h hn

/-- Registered nowhere. -/
def Nowhere (s : St) (p : Nat) : Prop := ∀ m ∈ s.mgrs, ∀ k, (k, p) ∉ m.reg

/-- After `unregister` on a style with the key, no such style is registered, now or later. -/
theorem unregister_nowhere {env : Env} {i : Nat} {k : Key} {p x q : Nat} (ops2 : List Op) {s : St} (hi : Inv s)
    (hp : IsK s i k p) (hx : s.contentOf x = some q) (hq : IsK s i k q) :
    Nowhere (run env (.unregister x :: ops2) s) p := by
  have hi1 := inv_step env (.unregister x) hi
  have hp1 : IsK (step env (.unregister x) s).1 i k p := hp.mono hi
  rw [run]
  refine unreg_run env ops2 hi1 ?_ ?_
  · obtain ⟨c, hc, -⟩ := hp1
    exact (List.getElem?_eq_some_iff.1 hc).1
  · intro m hm k' hk'
    obtain ⟨j, hj⟩ := List.getElem?_of_mem hm
    obtain ⟨c, c1, c2, c3⟩ := hi1.reg j m hj _ hk'
    obtain ⟨c', d1, d2, d3⟩ := hp1
    simp only at c1 c2
    rw [c1] at d1; cases d1
    rw [c3] at d2; rw [c2] at d3
    subst d2; subst d3
    rcases reg_from hi (step_tr env hi _) ⟨m, hj, hk'⟩ rfl with ⟨-, a⟩ | a
    · exact a x q rfl hx hq
    · simp [Makes] at a

theorem Nowhere.run {env : Env} (ops : List Op) {s : St} (hi : Inv s) {i : Nat} {k : Key} {p : Nat} (hp : IsK s i k p)
    (h : Nowhere s p) : Nowhere (Manager.run env ops s) p := by
  obtain ⟨c, hc, -⟩ := hp
  exact unreg_run env ops hi (List.getElem?_eq_some_iff.1 hc).1 h

/-- Dropping a memo of the style. -/
theorem dropMemo_nowhere {env : Env} {o : Order} {c : Comp} {i : Nat} {k : Key} {p q : Nat} {s : St} (hi : Inv s)
    (hp : IsK s i k p) (hx : s.contentOf c.h = some q) (hq : IsK s i k q) : Nowhere (run env (dropMemo o c) s) p := by
  rw [Yew.dropMemo]
  split
  · exact unregister_nowhere _ (inv_step env _ hi) (hp.mono hi) (contentOf_keep hi hx (by simp)) (hq.mono hi)
  · exact unregister_nowhere _ hi hp hx hq

theorem IsK.run {env : Env} {i : Nat} {k : Key} {p : Nat} : ∀ (ops : List Op) {s : St}, Inv s → IsK s i k p →
    IsK (Manager.run env ops s) i k p
  | [], _, _, h => h
  | op :: ops, _, hi, h => IsK.run ops (inv_step env op hi) (h.mono hi)

/-- An event that closes a style leaves no style with the key of before registered. -/
theorem event_closes {env : Env} {o : Order} {a a' : App} {e : Event} {i : Nat} {k : Key} (hok : AppOk a)
    (he : event env o a e = some a') (hcl : Closes i k a e) {p : Nat} (hp : IsK a.st i k p) : Nowhere a'.st p := by
  have hi := hok.inv
  cases e with
  | other op =>
    simp only [event] at he
    split at he
    · cases he
    simp only [Option.some.injEq] at he
    subst he
    obtain ⟨x, q, ct, rfl, e2, e3, e4⟩ := hcl
    exact unregister_nowhere [] hi hp e2 ⟨ct, e3, e4⟩
  | unmount j =>
    obtain ⟨c, hj, hu⟩ := hcl
    simp only [event, hj, Option.some.injEq] at he
    subst he
    have hc := hok.comp j c hj
    obtain ⟨_, _, q, _, _, _, hq, _⟩ := id hc
    exact dropMemo_nowhere hi hp hq ((hc.uses hq).2 hu)
  | mount mh css tag fault => exact hcl.elim
  | update j mh css tag fault =>
    obtain ⟨c, hj, hu, hne⟩ := hcl
    have hc := hok.comp j c hj
    obtain ⟨_, _, q, _, _, _, hq, _⟩ := id hc
    have hqk := (hc.uses hq).2 hu
    simp only [event] at he
    split at he
    · cases he
    simp only [hj, Option.map_eq_some_iff, Prod.exists] at he
    obtain ⟨s', c', hr, rfl⟩ := he
    simp only [render] at hr
    split at hr
    case h_2 => cases hr
    rename_i s1 mh' hc1
    obtain ⟨i0, hmi, hlen, hmi'⟩ := cloneMgr_cases hc1
    have hs1 : s1 = (step env (.cloneMgr mh) a.st).1 := by rw [hc1]
    have hi1 : Inv s1 := hs1 ▸ inv_step env _ hi
    have hp1 : IsK s1 i k p := hs1 ▸ hp.mono hi
    have hqk1 : IsK s1 i k q := hs1 ▸ hqk.mono hi
    have hq1 : s1.contentOf c.h = some q := hs1 ▸ contentOf_keep hi hq (by simp)
    have hcm : s1.mgrOf c.mh = some i := hs1 ▸ mgrOf_step (env := env) hi hu.1 (by simp)
    split at hr
    · rename_i hsame
      exfalso
      simp only [sameDeps, decide_eq_true_eq] at hsame
      obtain ⟨e1, e2, e3⟩ := hsame
      rw [hcm, hmi'] at e1
      cases e1
      exact hne ⟨hmi, e2.symm, e3.symm⟩
    · split at hr
      case h_2 => cases hr
      rename_i s3 h3 hcr
      cases o with
      | mk first deps =>
        cases first with
        | true =>
          simp only [if_true, Option.some.injEq, Prod.mk.injEq] at hr hcr
          obtain ⟨rfl, rfl⟩ := hr
          have h4 : Nowhere (run env (dropMemo ⟨true, deps⟩ c) s1) p := dropMemo_nowhere hi1 hp1 hq1 hqk1
          have h5 := h4.run (env := env) [.create mh' .global (.sheet css) fault] (inv_run env _ hi1) (hp1.run _ hi1)
          rw [run, run, hcr] at h5
          exact h5
        | false =>
          simp only [Bool.false_eq_true, if_false, Option.some.injEq, Prod.mk.injEq] at hr hcr
          obtain ⟨rfl, rfl⟩ := hr
          have hs3 : s3 = (step env (.create mh' .global (.sheet css) fault) s1).1 := by rw [hcr]
          exact dropMemo_nowhere (hs3 ▸ inv_step env _ hi1) (hs3 ▸ hp1.mono hi1)
            (hs3 ▸ contentOf_keep hi1 hq1 (by simp)) (hs3 ▸ hqk1.mono hi1)

/-- So do events among which one closes the style. -/
theorem events_closes {env : Env} {o : Order} {i : Nat} {k : Key} {p : Nat} : ∀ (es : List Event) {a a' : App}, AppOk a →
    events env o es a = some a' → IsK a.st i k p → ¬ AlongEvents env o (fun a e => ¬ Closes i k a e) es a → Nowhere a'.st p
  | [], _, _, _, _, _, h => absurd trivial h
  | e :: es, a, a', hok, he, hp, h => by
    simp only [events, Option.bind_eq_some_iff] at he
    obtain ⟨a1, he1, he2⟩ := he
    obtain ⟨h1, ⟨ops1, h2⟩, -⟩ := event_ok hok he1
    have hp1 : IsK a1.st i k p := h2 ▸ hp.run ops1 hok.inv
    by_cases hc : Closes i k a e
    · obtain ⟨-, ⟨ops2, h3⟩, -⟩ := events_ok es h1 he2
      exact h3 ▸ (event_closes hok he1 hc hp).run ops2 h1.inv hp1
    · refine events_closes es h1 he2 hp1 (fun hn => h ⟨hc, fun a2 ha2 => ?_⟩)
      rw [he1] at ha2; cases ha2
      exact hn

/-- What a new component refers to is registered. -/
theorem mount_regK {env : Env} {o : Order} {a a' : App} {mh : Nat} {css : Sheet} {tag : Nat} {fault : Bool} (hok : AppOk a)
    (he : event env o a (.mount mh css tag fault) = some a') :
    ∃ cp i m p, a'.comps = a.comps ++ [some cp] ∧ cp.css = css ∧ a'.st.mgrOf cp.mh = some i ∧ a'.st.mgrs[i]? = some m ∧
      a'.st.contentOf cp.h = some p ∧ regGet m.reg (globalKey m css) = some p ∧ a.st.mgrOf mh = some i ∧
      (∀ p', a.st.mgrs[i]?.bind (fun m => regGet m.reg (globalKey m css)) = some p' → p = p') ∧
      (∃ ops, a'.st = run env ops a.st) := by
  have hi := hok.inv
  simp only [event] at he
  split at he
  · cases he
  simp only [Option.map_eq_some_iff, Prod.exists] at he
  obtain ⟨s', c, hr, rfl⟩ := he
  simp only [render] at hr
  split at hr
  case h_2 => cases hr
  rename_i s1 mh' hc1
  obtain ⟨i, hmi, hlen, hmi'⟩ := cloneMgr_cases hc1
  have hs1 : s1 = (step env (.cloneMgr mh) a.st).1 := by rw [hc1]
  have hi1 : Inv s1 := hs1 ▸ inv_step env _ hi
  split at hr
  case h_2 => cases hr
  rename_i s2 h hcr
  simp only [Option.some.injEq, Prod.mk.injEq] at hr
  obtain ⟨rfl, rfl⟩ := hr
  obtain ⟨m, hm⟩ := mgrOf_get hi1 hmi'
  obtain ⟨p, ct, m', c1, c2, c3, c4, c5, c6, c7⟩ := create_style (env := env) (fault := fault) (kind := .global) hi1 hmi' hm
    (src := .sheet css) (ast := css) rfl (h := h) (by rw [hcr])
  have hmh := mgrOf_step (env := env) hi1 hmi' (op := .create mh' .global (.sheet css) fault) (by simp)
  rw [hcr] at c1 c2 c3 hmh
  have hkey : globalKey m' css = Kind.global.key m.pref css := by rw [globalKey, Kind.key, c4.1]
  refine ⟨_, i, m', p, rfl, rfl, hmh, c3, c1, by rw [hkey]; exact c5, hmi, ?_,
    [.cloneMgr mh, .create mh' .global (.sheet css) fault], by rw [run, run, run, ← hs1, hcr]⟩
  intro p' hp'
  have hmgrs : s1.mgrs = a.st.mgrs := by
    rw [hs1]; simp only [step, hmi]
  rw [← hmgrs, hm, Option.bind_some] at hp'
  obtain ⟨m2, h1, h2, h3, -⟩ := (step_tr env hi1 (.create mh' .global (.sheet css) fault)).mgr hm
  rw [hcr] at h1 h3
  rw [c3] at h1; cases h1
  rcases h3 _ _ hp' with h4 | h4 | h4
  · rw [show globalKey m css = Kind.global.key m.pref css from rfl, c5] at h4
    cases h4; rfl
  · exact absurd h4 (not_unregisters (by simp))
  · exact absurd (mgrOf_mem hmh) h4

theorem AlongEvents.of_all {env : Env} {o : Order} {P : App → Event → Prop} : ∀ (es : List Event) (a : App),
    (∀ e ∈ es, ∀ a, P a e) → AlongEvents env o P es a
  | [], _, _ => trivial
  | e :: es, _, h => ⟨h e (by simp) _, fun a' _ => AlongEvents.of_all es a' (fun e' h' => h e' (by simp [h']))⟩

/-! ## `use_style` -/

/-- `use_style` as operations. -/
theorem useStyle_ops {env : Env} {mh i : Nat} {src : Source} {fault : Bool} {s : St} (h : s.mgrOf mh = some i) :
    useStyle env mh src fault s =
      (run env [.cloneMgr mh, .create s.mgrHandles.length .scoped src fault, .dropMgr s.mgrHandles.length] s,
        (step env (.create s.mgrHandles.length .scoped src fault) (step env (.cloneMgr mh) s).1).2) := by
  have hc : step env (.cloneMgr mh) s =
      ({ s with mgrHandles := s.mgrHandles ++ [some i] }, .mgr s.mgrHandles.length) := by simp [step, h]
  simp only [useStyle, hc, run]

theorem useStyle_none {env : Env} {mh : Nat} {src : Source} {fault : Bool} {s : St} (h : s.mgrOf mh = none) :
    useStyle env mh src fault s = (s, .invalid) := by
  simp [useStyle, step, h]

theorem acts_ok {env : Env} {i : Nat} {k : Key} : ∀ (as : List Act) {s : St}, Inv s → Uniq i k s →
    NeverUnregistered env i k as s → Inv (acts env as s) ∧ Uniq i k (acts env as s)
  | [], _, hi, h, _ => ⟨hi, h⟩
  | a :: as, s, hi, h, hn => by
    have : Inv (act env s a) ∧ Uniq i k (act env s a) := by
      cases a with
      | other op => exact ⟨inv_step env op hi, h.step hi (hn.1 op rfl)⟩
      | useStyle mh src fault =>
        simp only [act]
        cases hm : s.mgrOf mh with
        | none => rw [useStyle_none hm]; exact ⟨hi, h⟩
        | some j =>
          rw [useStyle_ops hm]
          refine ⟨inv_run env _ hi, h.run _ hi ⟨?_, ?_, ?_, trivial⟩⟩ <;> exact not_unregisters (by simp)
    exact acts_ok as this.1 this.2 hn.2

end Yew
