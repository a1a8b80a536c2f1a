import Verif.Spec.FirstUses
import Verif.Proofs.Yew
import Verif.Proofs.WholePage

/-!
# Helper lemmas for applications that only make styles
-/

namespace Manager

open Yew (RegK IsK)

/-- The `n`-th style. -/
def madeNo (env : Env) (n : Nat) (u : Nat × Key) : Content :=
  { id := classNo env n u, key := u.2, text := textNo env n u, mgr := u.1, origin := .created }

/-- All styles in order of the first uses. -/
def allMade (env : Env) (l : List (Nat × Key)) : List Content := l.zipIdx.map fun x => madeNo env x.2 x.1

theorem allMade_length (env : Env) (l : List (Nat × Key)) : (allMade env l).length = l.length := by simp [allMade]

theorem allMade_append (env : Env) (l : List (Nat × Key)) (u : Nat × Key) : allMade env (l ++ [u]) = allMade env l ++ [madeNo env l.length u] := by
  simp [allMade, List.zipIdx_append]

theorem allMade_get (env : Env) (l : List (Nat × Key)) (p : Nat) : (allMade env l)[p]? = (l[p]?).map (madeNo env p) := by
  simp [allMade, List.getElem?_zipIdx]
  cases l[p]? <;> simp

/-- The styles are those of the first uses, and those of living managers are registered. -/
structure UsesInv (env : Env) (s : St) (l : List (Nat × Key)) : Prop where
  heap : s.heap = allMade env l
  ctr : s.ctr = l.length
  nodup : l.Nodup
  reg : ∀ (p : Nat) (u : Nat × Key), l[p]? = some u → some u.1 ∈ s.mgrHandles → RegK s u.1 u.2 p

theorem UsesInv.init (env : Env) (d : Dom) : UsesInv env (St.init d) [] :=
  ⟨rfl, rfl, .nil, by simp⟩

theorem UsesInv.mgr_lt {env : Env} {s : St} {l : List (Nat × Key)} (hi : Inv s) (h : UsesInv env s l) {p : Nat} {u : Nat × Key}
    (hp : l[p]? = some u) : u.1 < s.mgrs.length := by
  have : s.heap[p]? = some (madeNo env p u) := by rw [h.heap, allMade_get, hp]; rfl
  exact hi.contentMgr _ (List.mem_of_getElem? this)

/-- What is registered stays registered. -/
theorem UsesInv.keep {env : Env} {op : Op} {s s' : St} {out : Out} {l : List (Nat × Key)} (hi : Inv s) (h : UsesInv env s l)
    (ht : Tr env op s s' out) (hu : ∀ h, op ≠ .unregister h) (p : Nat) (u : Nat × Key) (hp : l[p]? = some u)
    (hm : some u.1 ∈ s'.mgrHandles) : RegK s' u.1 u.2 p := by
  have hm0 : some u.1 ∈ s.mgrHandles :=
    Classical.byContradiction fun hn => ht.mgrHandles (h.mgr_lt hi hp) hn hm
  obtain ⟨m, h1, h2⟩ := h.reg p u hp hm0
  obtain ⟨m', h3, -, h4, -⟩ := ht.mgr h1
  rcases h4 _ _ (mem_regGet (hi.keys m (List.mem_of_getElem? h1)) h2) with h5 | h5 | h5
  · exact ⟨m', h3, regGet_mem h5⟩
  · exact absurd h5 (Yew.not_unregisters hu)
  · exact absurd hm h5

theorem UsesInv.step {env : Env} {op : Op} {s : St} {l : List (Nat × Key)} (hi : Inv s)
    (h : UsesInv env s l) (hs : Smooth env s op) : UsesInv env (Manager.step env op s).1 (addUse l (asks s op)) := by
  have htr := step_tr env hi op
  obtain ⟨hu, hl, hok⟩ := hs
  generalize (Manager.step env op s).1 = s' at htr
  generalize hout : (Manager.step env op s).2 = out at htr hok
  have same : s'.heap = s.heap → s'.ctr = s.ctr → asks s op = none → UsesInv env s' (addUse l (asks s op)) := by
    intro h1 h2 h3
    rw [h3, addUse]
    exact ⟨h1 ▸ h.heap, h2 ▸ h.ctr, h.nodup, h.keep hi htr hu⟩
  have askC : ∀ {mh kind src fault i m ast}, op = .create mh kind src fault → s.mgrOf mh = some i → s.mgrs[i]? = some m →
      src.sheet? = some ast → asks s op = some (i, kind.key m.pref ast) := by
    intro mh kind src fault i m ast h1 h2 h3 h4
    subst h1
    simp [asks, h2, h3, h4]
  have hnew : ∀ {mh kind src fault i m ast c}, op = .create mh kind src fault → s.mgrOf mh = some i → s.mgrs[i]? = some m →
      src.sheet? = some ast → regGet m.reg (kind.key m.pref ast) = none → c = newContent env s i (kind.key m.pref ast) →
      s'.heap = s.heap ++ [c] → s'.ctr = s.ctr + 1 → RegK s' i (kind.key m.pref ast) s.heap.length →
      UsesInv env s' (addUse l (asks s op)) := by
    intro mh kind src fault i m ast c h1 h2 h3 h4 h5 h6 h7 h8 h9
    have hnot : (i, kind.key m.pref ast) ∉ l := by
      intro hm
      obtain ⟨p, hp⟩ := List.getElem?_of_mem hm
      obtain ⟨m', a1, a2⟩ := h.reg p _ hp (mgrOf_mem h2)
      rw [h3] at a1; cases a1
      rw [mem_regGet (hi.keys m (List.mem_of_getElem? h3)) a2] at h5
      cases h5
    have hlen : s.heap.length = l.length := by rw [h.heap, allMade_length]
    have hc : c = madeNo env l.length (i, kind.key m.pref ast) := by
      rw [h6, newContent, h.ctr]; rfl
    rw [askC h1 h2 h3 h4, addUse, if_neg hnot]
    refine ⟨by rw [h7, allMade_append, h.heap, hc], by rw [h8, h.ctr]; simp, ?_, ?_⟩
    · rw [List.nodup_append]
      exact ⟨h.nodup, by simp, by rintro a ha b hb rfl; simp at hb; exact hnot (hb ▸ ha)⟩
    · intro p u hp hm
      rcases get_append_cases hp with ⟨-, hp⟩ | ⟨rfl, rfl⟩
      · exact h.keep hi htr hu p u hp hm
      · rw [← hlen]; exact h9
  cases htr with
  | dropMgrLast mh i _ m0 h ha hm0 => exact same (releaseAll_fields env _ _).1 (releaseAll_fields env _ _).2.2.2.2.2 rfl
  | createSyntax mh kind css fault _ i e1 e2 => exact same rfl rfl (by simp [asks, e1, Source.sheet?, e2])
  | createHit mh kind src fault _ i m ast p e1 e2 e3 e4 =>
    have hmem : (i, kind.key m.pref ast) ∈ l := by
      obtain ⟨c, c1, c2, c3⟩ := hi.reg i m e2 _ (regGet_mem e4)
      simp only at c1 c2
      rw [h.heap, allMade_get, Option.map_eq_some_iff] at c1
      obtain ⟨u, hu', rfl⟩ := c1
      have : u = (i, kind.key m.pref ast) := by
        cases u; simp only [madeNo] at c2 c3; rw [c2, c3]
      exact this ▸ List.mem_of_getElem? hu'
    have hk := h.keep hi (Tr.createHit mh kind src fault s i m ast p e1 e2 e3 e4 : Tr env _ s _ _) hu
    rw [askC rfl e1 e2 e3, addUse, if_pos hmem]
    exact ⟨h.heap, h.ctr, h.nodup, hk⟩
  | createDebug mh kind src fault _ i m ast e1 e2 e3 =>
    obtain ⟨x, hx⟩ := hok (by rw [askC rfl e1 e2 e3]; rfl)
    cases hx
  | createStatic mh kind src fault _ i m ast l' log c e1 e2 e3 e4 e5 =>
    refine hnew rfl e1 e2 e3 e4 e5 rfl rfl ?_
    refine ⟨{ m with reg := m.reg ++ [(c.key, s.heap.length)] }, by simp [St.modReg, St.modMgr, e2], ?_⟩
    rw [e5]; simp [newContent]
  | createFail mh kind src fault _ i m ast c e1 e2 e3 =>
    obtain ⟨x, hx⟩ := hok (by rw [askC rfl e1 e2 e3]; rfl)
    cases hx
  | createMount mh kind src fault _ i m ast c d e1 e2 e3 e4 e5 =>
    refine hnew rfl e1 e2 e3 e4 e5 rfl rfl ?_
    refine ⟨{ m with reg := m.reg ++ [(c.key, s.heap.length)] }, by simp [St.modReg, St.modMgr, e2], ?_⟩
    rw [e5]; simp [newContent]
  | drop h p _ e => exact same (release_fields env _ _).1 (release_fields env _ _).2.2.2.2.2 rfl
  | unregister => exact absurd rfl (hu _)
  | load => exact absurd rfl (hl _ _)
  | invalid =>
    refine same rfl rfl ?_
    cases ha : asks s op with
    | none => rfl
    | some u =>
      obtain ⟨x, hx⟩ := hok (by rw [ha]; rfl)
      cases hx
  | _ => exact same rfl rfl rfl

theorem UsesInv.run {env : Env} : ∀ (ops : List Op) {s : St} {l : List (Nat × Key)}, Inv s →
    UsesInv env s l → Along env (Smooth env) ops s → UsesInv env (Manager.run env ops s) (firstUses env ops s l)
  | [], _, _, _, h, _ => h
  | op :: ops, _, _, hi, h, hs => UsesInv.run ops (inv_step env op hi) (h.step hi hs.1) hs.2

/-- If all managers are alive, so are all styles. -/
theorem UsesInv.living {env : Env} {s : St} {l : List (Nat × Key)} (hi : Inv s) (h : UsesInv env s l)
    (hal : ∀ j < s.mgrs.length, some j ∈ s.mgrHandles) (hlog : ∀ m ∈ s.mgrs, m.log = none) (i : Nat) :
    living s i = (l.zipIdx.filter (fun x => usesContainer s i x.1)).map (fun x => madeNo env x.2 x.1) := by
  classical
  have h1 : Manager.living s i = s.heap.filter (fun c => decide (∃ m, s.mgrs[c.mgr]? = some m ∧ m.container = some i)) := by
    have key : ∀ (hp : List Content) (f : Nat → Option Content) (q : Content → Bool),
        (∀ p, f p = (hp[p]?).filter q) → (List.range hp.length).filterMap f = hp.filter q := by
      intro hp f q hf
      have : f = fun p => (hp[p]?).filter q := funext hf
      subst this
      clear hf
      induction hp with
      | nil => rfl
      | cons c hp ih =>
        rw [List.length_cons, List.range_succ_eq_map, List.filterMap_cons, List.filterMap_map]
        have : ((fun p => ((c :: hp)[p]?).filter q) ∘ Nat.succ) = fun p => (hp[p]?).filter q := by
          funext p; simp
        rw [this, ih]
        by_cases hq : q c <;> simp [hq, Option.filter]
    rw [Manager.living]
    refine key _ _ _ (fun p => ?_)
    cases hc : s.heap[p]? with
    | none => rfl
    | some c =>
      simp only [Option.filter_some]
      have : (s.Alive p ∧ Mounts s c i) ↔ (∃ m, s.mgrs[c.mgr]? = some m ∧ m.container = some i) := by
        constructor
        · rintro ⟨-, -, m, a1, -, a2⟩; exact ⟨m, a1, a2⟩
        · rintro ⟨m, a1, a2⟩
          have hc' := hc
          rw [h.heap, allMade_get, Option.map_eq_some_iff] at hc'
          obtain ⟨u, hu, rfl⟩ := hc'
          exact ⟨(h.reg p u hu (hal _ (h.mgr_lt hi hu))).alive, rfl, m, a1, hlog m (List.mem_of_getElem? a1), a2⟩
      simp only [this]
  rw [h1, h.heap, allMade, List.filter_map]
  congr 1
  refine List.filter_congr fun x _ => ?_
  simp only [Function.comp_apply, madeNo, usesContainer]
  cases s.mgrs[x.1.1]? <;> simp

/-- `Smooth`, for examples. -/
def smoothB (env : Env) (s : St) (op : Op) : Bool :=
  (match op with | .unregister _ | .load _ _ => false | _ => true) &&
    (!(asks s op).isSome || match (step env op s).2 with | .style _ => true | _ => false)

theorem smooth_of_bool {env : Env} {s : St} {op : Op} (h : smoothB env s op = true) : Smooth env s op := by
  simp only [smoothB, Bool.and_eq_true, Bool.or_eq_true, Bool.not_eq_true'] at h
  refine ⟨?_, ?_, ?_⟩
  · rintro x rfl; simp at h
  · rintro x y rfl; simp at h
  · intro hs
    rcases h.2 with h | h
    · rw [hs] at h; cases h
    · split at h
      · rename_i x hx; exact ⟨x, hx⟩
      · cases h

def alongB (env : Env) : List Op → St → Bool
  | [], _ => true
  | op :: ops, s => smoothB env s op && alongB env ops (step env op s).1

theorem along_of_bool {env : Env} : ∀ (ops : List Op) (s : St), alongB env ops s = true → Along env (Smooth env) ops s
  | [], _, _ => trivial
  | op :: ops, s, h => by
    simp only [alongB, Bool.and_eq_true] at h
    exact ⟨smooth_of_bool h.1, along_of_bool ops _ h.2⟩

end Manager
