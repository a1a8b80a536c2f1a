import Verif.Proofs.Yew
import Verif.Spec.Context

/-!
# Providers on top of managers
-/

namespace Context

open Manager
open Yew (mgrOf_step mgrOf_lt not_unregisters contentOf_keep)

/-! ## Operations that only drop certain handles -/

/-- `s'` comes after `s` by operations that unregister nothing and drop no manager handles but
those in `D`. -/
def Quiet (env : Env) (D : Nat → Prop) (s s' : St) : Prop :=
  ∃ ops, s' = run env ops s ∧ ∀ op ∈ ops, (∀ x, op ≠ .unregister x) ∧ ∀ x, op = .dropMgr x → D x

theorem Quiet.refl {env : Env} {D : Nat → Prop} (s : St) : Quiet env D s s := ⟨[], rfl, by simp⟩

theorem Quiet.step {env : Env} {D : Nat → Prop} {s s' : St} {out : Out} (op : Op) (hs : Manager.step env op s = (s', out))
    (h1 : ∀ x, op ≠ .unregister x) (h2 : ∀ x, op = .dropMgr x → D x) : Quiet env D s s' :=
  ⟨[op], by simp [run, hs], by simpa using ⟨h1, h2⟩⟩

theorem Quiet.trans {env : Env} {D : Nat → Prop} {s s' s'' : St} (h : Quiet env D s s') (h' : Quiet env D s' s'') :
    Quiet env D s s'' := by
  obtain ⟨ops, rfl, h1⟩ := h
  obtain ⟨ops', rfl, h2⟩ := h'
  refine ⟨ops ++ ops', by rw [run_append], ?_⟩
  intro op hop
  rcases List.mem_append.1 hop with h | h
  · exact h1 op h
  · exact h2 op h

theorem Quiet.mono {env : Env} {D D' : Nat → Prop} {s s' : St} (h : Quiet env D s s') (hD : ∀ x, D x → D' x) :
    Quiet env D' s s' := by
  obtain ⟨ops, rfl, h1⟩ := h
  exact ⟨ops, rfl, fun op hop => ⟨(h1 op hop).1, fun x e => hD x ((h1 op hop).2 x e)⟩⟩

theorem Quiet.inv {env : Env} {D : Nat → Prop} {s s' : St} (h : Quiet env D s s') (hi : Inv s) : Inv s' := by
  obtain ⟨ops, rfl, -⟩ := h
  exact inv_run env ops hi

theorem mgrOf_run {env : Env} {x i : Nat} : ∀ (ops : List Op) {s : St}, Inv s → s.mgrOf x = some i →
    (∀ op ∈ ops, op ≠ .dropMgr x) → (run env ops s).mgrOf x = some i
  | [], _, _, h, _ => h
  | op :: ops, s, hi, h, hop =>
    mgrOf_run ops (inv_step env op hi) (mgrOf_step hi h (hop op (by simp))) (fun o ho => hop o (by simp [ho]))

theorem Quiet.mgrOf {env : Env} {D : Nat → Prop} {s s' : St} {x i : Nat} (h : Quiet env D s s') (hi : Inv s)
    (e : s.mgrOf x = some i) (hx : ¬ D x) : s'.mgrOf x = some i := by
  obtain ⟨ops, rfl, h1⟩ := h
  exact mgrOf_run ops hi e (fun op hop e' => hx ((h1 op hop).2 x e'))

theorem Quiet.along {env : Env} {D : Nat → Prop} {s s' : St} (h : Quiet env D s s') :
    ∃ ops, s' = run env ops s ∧ ∀ i k, Along env (fun t op => ¬ Unregisters op t i k) ops s := by
  obtain ⟨ops, e, h1⟩ := h
  refine ⟨ops, e, fun i k => ?_⟩
  clear e
  induction ops generalizing s with
  | nil => trivial
  | cons op ops ih =>
    exact ⟨not_unregisters (h1 op (by simp)).1, ih (fun o ho => h1 o (by simp [ho]))⟩

theorem along_append {env : Env} {P : St → Op → Prop} : ∀ (ops ops' : List Op) {s : St}, Along env P ops s →
    Along env P ops' (run env ops s) → Along env P (ops ++ ops') s
  | [], _, _, _, h => h
  | _ :: ops, ops', _, h, h' => ⟨h.1, along_append ops ops' h.2 h'⟩

theorem length_step {env : Env} {op : Op} {s : St} (hi : Inv s) : s.mgrHandles.length ≤ (step env op s).1.mgrHandles.length := by
  rcases Yew.mgrHandles_cases (step_tr env hi op) with ⟨n, hn⟩ | ⟨mh, -, hn⟩
  · rw [hn]; simp
  · rw [hn]; simp

theorem length_run {env : Env} : ∀ (ops : List Op) {s : St}, Inv s → s.mgrHandles.length ≤ (run env ops s).mgrHandles.length
  | [], _, _ => Nat.le_refl _
  | op :: ops, _, hi => Nat.le_trans (length_step hi) (length_run ops (inv_step env op hi))

theorem Quiet.length {env : Env} {D : Nat → Prop} {s s' : St} (h : Quiet env D s s') (hi : Inv s) :
    s.mgrHandles.length ≤ s'.mgrHandles.length := by
  obtain ⟨ops, rfl, -⟩ := h
  exact length_run ops hi

/-! ## What an application keeps -/

/-- The handles of a provider. -/
def Prov.handles (p : Prov) : List Nat := [p.memo, p.ctx]

theorem mem_own {a : App} {x : Nat} :
    x ∈ a.own ↔ a.dflt = some x ∨ ∃ (j : Nat) (p : Prov), a.provs[j]? = some (some p) ∧ x ∈ p.handles := by
  simp only [App.own, List.mem_append, Option.mem_toList, List.mem_flatten, List.mem_map]
  constructor
  · rintro (h | ⟨l, ⟨o, ho, rfl⟩, hx⟩)
    · exact Or.inl h
    · obtain ⟨j, hj⟩ := List.getElem?_of_mem ho
      cases o with
      | none => cases hx
      | some p => exact Or.inr ⟨j, p, hj, hx⟩
  · rintro (h | ⟨j, p, hj, hx⟩)
    · exact Or.inl h
    · exact Or.inr ⟨_, ⟨_, List.mem_of_getElem? hj, rfl⟩, hx⟩

/-- All is well. -/
structure AppOk (a : App) : Prop where
  inv : Inv a.st
  dflt : ∀ h, a.dflt = some h → ∃ i m, a.st.mgrOf h = some i ∧ a.st.mgrs[i]? = some m ∧ m.pref = c! "stylist" ∧
    m.append = true ∧ m.log = none
  prov : ∀ (j : Nat) (p : Prov), a.provs[j]? = some (some p) → ∃ i, a.st.mgrOf p.memo = some i ∧ a.st.mgrOf p.ctx = some i
  sep : ∀ (j : Nat) (p : Prov), a.provs[j]? = some (some p) → p.memo ≠ p.ctx ∧ ∀ h, a.dflt = some h → h ∉ p.handles
  apart : ∀ (j j' : Nat) (p p' : Prov), a.provs[j]? = some (some p) → a.provs[j']? = some (some p') → j ≠ j' →
    ∀ x ∈ p.handles, x ∉ p'.handles

theorem AppOk.init (d : Dom) : AppOk (App.init d) :=
  ⟨Inv.init d, by simp [App.init], by simp [App.init], by simp [App.init], by simp [App.init]⟩

theorem AppOk.own_mgr {a : App} (h : AppOk a) {x : Nat} (hx : x ∈ a.own) : ∃ i, a.st.mgrOf x = some i := by
  rcases mem_own.1 hx with hx | ⟨j, p, hj, hx⟩
  · obtain ⟨i, m, h1, -⟩ := h.dflt x hx
    exact ⟨i, h1⟩
  · obtain ⟨i, h1, h2⟩ := h.prov j p hj
    simp only [Prov.handles, List.mem_cons, List.not_mem_nil, or_false] at hx
    rcases hx with rfl | rfl
    · exact ⟨i, h1⟩
    · exact ⟨i, h2⟩

theorem AppOk.own_lt {a : App} (h : AppOk a) {x : Nat} (hx : x ∈ a.own) : x < a.st.mgrHandles.length := by
  obtain ⟨i, hi⟩ := h.own_mgr hx
  exact mgrOf_lt hi

/-- The rest happens without touching what is kept. -/
theorem AppOk.ops {env : Env} {a : App} (h : AppOk a) (ops : List Op) (hd : ∀ op ∈ ops, ∀ x, op = .dropMgr x → x ∉ a.own) :
    AppOk { a with st := run env ops a.st } where
  inv := inv_run env ops h.inv
  dflt x hx := by
    obtain ⟨i, m, h1, h2, h3⟩ := h.dflt x hx
    obtain ⟨m', h4, h5⟩ := mgr_run env ops h.inv h2
    exact ⟨i, m', mgrOf_run ops h.inv h1 (fun op ho e => hd op ho x e (mem_own.2 (Or.inl hx))), h4, by rw [h5.1]; exact h3.1,
      by rw [h5.2.2.1]; exact h3.2.1, by rw [h5.2.2.2]; exact h3.2.2⟩
  prov j p hj := by
    obtain ⟨i, h1, h2⟩ := h.prov j p hj
    exact ⟨i, mgrOf_run ops h.inv h1 (fun op ho e => hd op ho _ e (mem_own.2 (Or.inr ⟨j, p, hj, by simp [Prov.handles]⟩))),
      mgrOf_run ops h.inv h2 (fun op ho e => hd op ho _ e (mem_own.2 (Or.inr ⟨j, p, hj, by simp [Prov.handles]⟩)))⟩
  sep := h.sep
  apart := h.apart

theorem AppOk.quiet {env : Env} {D : Nat → Prop} {a : App} {s' : St} (h : AppOk a) (hq : Quiet env D a.st s')
    (hd : ∀ x ∈ a.own, ¬ D x) : AppOk { a with st := s' } := by
  obtain ⟨ops, rfl, h1⟩ := hq
  exact h.ops ops (fun op ho x e hx => hd x hx ((h1 op ho).2 x e))

theorem AppOk.own_kept {env : Env} {D : Nat → Prop} {a : App} {s' : St} (h : AppOk a) (hq : Quiet env D a.st s')
    {x : Nat} (hx : x ∈ a.own) (hd : ¬ D x) : s'.mgrOf x = a.st.mgrOf x := by
  obtain ⟨i, hi⟩ := h.own_mgr hx
  rw [hi, hq.mgrOf h.inv hi hd]

theorem set_some_cases {α : Type} {cs : List (Option α)} {j j' : Nat} {x : Option α} {c : α}
    (h : (cs.set j x)[j']? = some (some c)) : (j' = j ∧ x = some c) ∨ (j' ≠ j ∧ cs[j']? = some (some c)) := by
  by_cases e : j = j'
  · subst e
    have hlt := (List.getElem?_eq_some_iff.1 h).1
    rw [List.length_set] at hlt
    rw [List.getElem?_set_self hlt] at h
    exact Or.inl ⟨rfl, by simpa using h⟩
  · rw [List.getElem?_set_ne e] at h
    exact Or.inr ⟨fun e' => e e'.symm, h⟩

theorem append_some_cases {α : Type} {cs : List (Option α)} {j : Nat} {x : Option α} {c : α}
    (h : (cs ++ [x])[j]? = some (some c)) : (j = cs.length ∧ x = some c) ∨ (j ≠ cs.length ∧ cs[j]? = some (some c)) := by
  by_cases e : j < cs.length
  · rw [List.getElem?_append_left e] at h; exact Or.inr ⟨by omega, h⟩
  · have hlt := (List.getElem?_eq_some_iff.1 h).1
    simp only [List.length_append, List.length_cons, List.length_nil] at hlt
    have : j = cs.length := by omega
    subst this
    rw [List.getElem?_append_right (Nat.le_refl _)] at h
    exact Or.inl ⟨rfl, by simpa using h⟩

/-- A provider is forgotten. -/
theorem AppOk.clear {a : App} (h : AppOk a) (j : Nat) : AppOk { a with provs := a.provs.set j none } where
  inv := h.inv
  dflt := h.dflt
  prov j' p hj := by
    rcases set_some_cases hj with ⟨-, e⟩ | ⟨-, e⟩
    · cases e
    · exact h.prov j' p e
  sep j' p hj := by
    rcases set_some_cases hj with ⟨-, e⟩ | ⟨-, e⟩
    · cases e
    · exact h.sep j' p e
  apart j1 j2 p p' h1 h2 hne := by
    rcases set_some_cases h1 with ⟨-, e⟩ | ⟨-, e1⟩
    · cases e
    rcases set_some_cases h2 with ⟨-, e⟩ | ⟨-, e2⟩
    · cases e
    exact h.apart j1 j2 p p' e1 e2 hne

theorem AppOk.clear_own {a : App} (h : AppOk a) {j : Nat} {p : Prov} (hj : a.provs[j]? = some (some p)) :
    ∀ x ∈ ({ a with provs := a.provs.set j none } : App).own, x ∈ a.own ∧ x ∉ p.handles := by
  intro x hx
  rcases mem_own.1 hx with hx | ⟨j', p', hj', hx⟩
  · exact ⟨mem_own.2 (Or.inl hx), (h.sep j p hj).2 x hx⟩
  · rcases set_some_cases hj' with ⟨-, e⟩ | ⟨hne, e⟩
    · cases e
    · exact ⟨mem_own.2 (Or.inr ⟨j', p', e, hx⟩), h.apart j' j p' p e hj hne x hx⟩

/-- A provider with new handles, in the place of one that is forgotten. -/
theorem AppOk.set {a : App} {j : Nat} {p : Prov} (h : AppOk { a with provs := a.provs.set j none })
    (hm : ∃ i, a.st.mgrOf p.memo = some i ∧ a.st.mgrOf p.ctx = some i) (hne : p.memo ≠ p.ctx)
    (hnew : ∀ x ∈ p.handles, x ∉ ({ a with provs := a.provs.set j none } : App).own) :
    AppOk { a with provs := a.provs.set j (some p) } where
  inv := h.inv
  dflt := h.dflt
  prov j' p' hj := by
    rcases set_some_cases hj with ⟨-, e⟩ | ⟨hne, e⟩
    · cases e; exact hm
    · exact h.prov j' p' (by simp only; rw [List.getElem?_set_ne (fun e => hne e.symm)]; exact e)
  sep j' p' hj := by
    rcases set_some_cases hj with ⟨-, e⟩ | ⟨hne, e⟩
    · cases e
      exact ⟨hne, fun x hx hx' => hnew x hx' (mem_own.2 (Or.inl hx))⟩
    · exact h.sep j' p' (by simp only; rw [List.getElem?_set_ne (fun e => hne e.symm)]; exact e)
  apart j1 j2 p1 p2 h1 h2 hne x hx1 hx2 := by
    rcases set_some_cases h1 with ⟨e1, e⟩ | ⟨n1, e1⟩
    · cases e
      rcases set_some_cases h2 with ⟨e2, e⟩ | ⟨n2, e2⟩
      · exact hne (e1.trans e2.symm)
      · exact hnew x hx1 (mem_own.2 (Or.inr ⟨j2, p2, by simp only; rw [List.getElem?_set_ne (fun e => n2 e.symm)]; exact e2, hx2⟩))
    · rcases set_some_cases h2 with ⟨e2, e⟩ | ⟨n2, e2⟩
      · cases e
        exact hnew x hx2 (mem_own.2 (Or.inr ⟨j1, p1, by simp only; rw [List.getElem?_set_ne (fun e => n1 e.symm)]; exact e1, hx1⟩))
      · exact h.apart j1 j2 p1 p2 (by simp only; rw [List.getElem?_set_ne (fun e => n1 e.symm)]; exact e1)
          (by simp only; rw [List.getElem?_set_ne (fun e => n2 e.symm)]; exact e2) hne x hx1 hx2

/-- One more provider. -/
theorem AppOk.push {a : App} {p : Prov} (h : AppOk a)
    (hm : ∃ i, a.st.mgrOf p.memo = some i ∧ a.st.mgrOf p.ctx = some i) (hne : p.memo ≠ p.ctx)
    (hnew : ∀ x ∈ p.handles, x ∉ a.own) : AppOk { a with provs := a.provs ++ [some p] } where
  inv := h.inv
  dflt := h.dflt
  prov j' p' hj := by
    rcases append_some_cases hj with ⟨-, e⟩ | ⟨-, e⟩
    · cases e; exact hm
    · exact h.prov j' p' e
  sep j' p' hj := by
    rcases append_some_cases hj with ⟨-, e⟩ | ⟨-, e⟩
    · cases e
      exact ⟨hne, fun x hx hx' => hnew x hx' (mem_own.2 (Or.inl hx))⟩
    · exact h.sep j' p' e
  apart j1 j2 p1 p2 h1 h2 hne x hx1 hx2 := by
    rcases append_some_cases h1 with ⟨e1, e⟩ | ⟨n1, e1⟩
    · cases e
      rcases append_some_cases h2 with ⟨e2, e⟩ | ⟨n2, e2⟩
      · exact hne (e1.trans e2.symm)
      · exact hnew x hx1 (mem_own.2 (Or.inr ⟨j2, p2, e2, hx2⟩))
    · rcases append_some_cases h2 with ⟨e2, e⟩ | ⟨n2, e2⟩
      · cases e
        exact hnew x hx2 (mem_own.2 (Or.inr ⟨j1, p1, e1, hx1⟩))
      · exact h.apart j1 j2 p1 p2 e1 e2 hne x hx1 hx2

/-! ## The functions of the model -/

theorem cloneMgr_eq {env : Env} {a : App} {mh i : Nat} (h : a.st.mgrOf mh = some i) :
    cloneMgr env a mh = some ({ a with st := { a.st with mgrHandles := a.st.mgrHandles ++ [some i] } }, a.st.mgrHandles.length) := by
  simp [cloneMgr, step, h]

theorem cloneMgr_ok {env : Env} {a a' : App} {mh mh' : Nat} (h : cloneMgr env a mh = some (a', mh')) :
    ∃ i, a.st.mgrOf mh = some i ∧ mh' = a.st.mgrHandles.length ∧ a' = { a with st := a'.st } ∧ a'.st.mgrOf mh' = some i ∧
      Quiet env (fun _ => False) a.st a'.st ∧ a'.st.mgrHandles.length = a.st.mgrHandles.length + 1 := by
  cases hi : a.st.mgrOf mh with
  | none => simp [cloneMgr, step, hi] at h
  | some i =>
    rw [cloneMgr_eq hi] at h
    cases h
    exact ⟨i, rfl, rfl, rfl, by simp [St.mgrOf],
      Quiet.step (.cloneMgr mh) (out := .mgr a.st.mgrHandles.length) (by simp [step, hi]) (by simp) (by simp), by simp⟩

theorem load_ok {env : Env} {a a' : App} {mh : Nat} {data : Option (List Entry)}
    (h : load env a mh data = some a') :
    a' = { a with st := a'.st } ∧ Quiet env (fun _ => False) a.st a'.st := by
  cases data with
  | none => simp only [load, Option.some.injEq] at h; subst h; exact ⟨rfl, Quiet.refl _⟩
  | some es =>
    simp only [load] at h
    split at h
    · rename_i s' hs
      cases h
      exact ⟨rfl, Quiet.step _ hs (by simp) (by simp)⟩
    · cases h

theorem dropMgr_ok {env : Env} (a : App) (mh : Nat) : Quiet env (fun x => x = mh) a.st (dropMgr env a mh).st :=
  Quiet.step (.dropMgr mh) (out := (step env (.dropMgr mh) a.st).2) rfl (by simp) (by simp)

/-- The managers in the contexts. -/
def givenOf (a : App) : List (Option Nat) := a.provs.map (fun o => o.bind (fun p => a.st.mgrOf p.ctx))

theorem givenOf_kept {env : Env} {D : Nat → Prop} {a : App} {s' : St} (h : AppOk a) (hq : Quiet env D a.st s')
    (hd : ∀ x ∈ a.own, ¬ D x) : givenOf { a with st := s' } = givenOf a := by
  simp only [givenOf]
  refine List.map_congr_left (fun o ho => ?_)
  cases o with
  | none => rfl
  | some p =>
    obtain ⟨j, hj⟩ := List.getElem?_of_mem ho
    have hx := mem_own.2 (Or.inr ⟨j, p, hj, by simp [Prov.handles]⟩ : a.dflt = some p.ctx ∨ _)
    exact h.own_kept hq hx (hd _ hx)

/-- What every event does. -/
structure Ok (env : Env) (a : App) (g : List (Option Nat)) (a' : App) : Prop where
  ok : AppOk a'
  quiet : ∃ D, Quiet env D a.st a'.st ∧ ∀ h, a.dflt = some h → ¬ D h
  dflt : ∀ h, a.dflt = some h → a'.dflt = some h
  given : givenOf a' = g

theorem Ok.of_quiet {env : Env} {D : Nat → Prop} {a : App} {s' : St} (h : AppOk a) (hq : Quiet env D a.st s')
    (hd : ∀ x ∈ a.own, ¬ D x) : Ok env a (givenOf a) { a with st := s' } :=
  ⟨h.quiet hq hd, ⟨D, hq, fun x hx => hd x (mem_own.2 (Or.inl hx))⟩, fun _ hx => hx, givenOf_kept h hq hd⟩

theorem mount_ok {env : Env} {a a' : App} {mh : Nat} {data : Option (List Entry)} (h : AppOk a)
    (he : mount env a mh data = some a') : Ok env a (givenOf a ++ [a.st.mgrOf mh]) a' := by
  simp only [mount] at he
  split at he
  · cases he
  rename_i a1 memo h1
  split at he
  · cases he
  rename_i a2 h2
  split at he
  · cases he
  rename_i a3 ctx h3
  cases he
  obtain ⟨i, i1, i2, i3, i4, i5, i6⟩ := cloneMgr_ok h1
  have ok1 : AppOk a1 := i3 ▸ h.quiet i5 (by simp)
  obtain ⟨l1, l2⟩ := load_ok h2
  have ok2 : AppOk a2 := l1 ▸ ok1.quiet l2 (by simp)
  obtain ⟨i', k1, k2, k3, k4, k5, k6⟩ := cloneMgr_ok h3
  have ok3 : AppOk a3 := k3 ▸ ok2.quiet k5 (by simp)
  have q : Quiet env (fun _ => False) a.st a3.st := i5.trans (l2.trans k5)
  have hii : i' = i := by
    have := (i5.trans l2).mgrOf h.inv i1 (by simp)
    rw [this] at k1; cases k1; rfl
  subst hii
  have e3 : a3 = { a with st := a3.st } := by rw [k3, l1, i3]
  have hlen : a1.st.mgrHandles.length ≤ a2.st.mgrHandles.length := l2.length ok1.inv
  have hmemo : a3.st.mgrOf memo = some i' := (l2.trans k5).mgrOf ok1.inv i4 (by simp)
  have hown : ∀ x ∈ a3.own, x < a.st.mgrHandles.length := by
    rw [e3]; exact fun x hx => h.own_lt (a := a) hx
  have okf : AppOk { a3 with provs := a3.provs ++ [some { data, memo, ctx }] } := by
    refine ok3.push ⟨i', hmemo, k4⟩ (by simp only; omega) ?_
    intro x hx hx'
    have := hown x hx'
    simp only [Prov.handles, List.mem_cons, List.not_mem_nil, or_false] at hx
    omega
  refine ⟨okf, ⟨_, q, by simp⟩, fun x hx => by rw [e3]; exact hx, ?_⟩
  have := givenOf_kept h q (by simp)
  simp only [givenOf] at this ⊢
  rw [List.map_append, i1]
  congr 1
  · rw [e3]; exact this
  · simp [k4]

theorem unmount_ok {env : Env} {a a' : App} {j : Nat} (h : AppOk a) (he : unmount env a j = some a') :
    Ok env a ((givenOf a).set j none) a' := by
  simp only [unmount] at he
  split at he
  case h_2 => cases he
  rename_i p hj
  cases he
  have hc := h.clear j
  have hco := h.clear_own hj
  have q : Quiet env (fun x => x ∈ p.handles) a.st
      (dropMgr env (dropMgr env { a with provs := a.provs.set j none } p.memo) p.ctx).st :=
    ((dropMgr_ok { a with provs := a.provs.set j none } p.memo).mono (by simp [Prov.handles])).trans
      ((dropMgr_ok _ p.ctx).mono (by simp [Prov.handles]))
  have hd : ∀ x ∈ ({ a with provs := a.provs.set j none } : App).own, ¬ x ∈ p.handles := fun x hx => (hco x hx).2
  refine ⟨hc.quiet q hd, ⟨_, q, (h.sep j p hj).2⟩, fun x hx => hx, ?_⟩
  have := givenOf_kept (a := { a with provs := a.provs.set j none }) hc q hd
  refine this.trans ?_
  simp [givenOf, List.map_set]

theorem rerender_ok {env : Env} {o : Bool} {a a' : App} {j mh : Nat} (h : AppOk a)
    (he : rerender env o a j mh = some a') : Ok env a ((givenOf a).set j (a.st.mgrOf mh)) a' := by
  simp only [rerender] at he
  split at he
  case h_2 => cases he
  rename_i p hj
  split at he
  · cases he
  rename_i a1 memo h1
  obtain ⟨i, i1, i2, i3, i4, i5, i6⟩ := cloneMgr_ok h1
  have ok1 : AppOk a1 := i3 ▸ h.quiet i5 (by simp)
  have hgj : (givenOf a)[j]? = some (a.st.mgrOf p.ctx) := by simp [givenOf, hj]
  obtain ⟨ip, p1, p2⟩ := h.prov j p hj
  split at he
  · rename_i hsame
    cases he
    have hown : memo ∉ a.own := fun hx => by have := h.own_lt hx; omega
    have q : Quiet env (fun x => x = memo) a.st (dropMgr env a1 memo).st :=
      (i5.mono (by simp)).trans (dropMgr_ok a1 memo)
    have hd : ∀ x ∈ a.own, ¬ x = memo := fun x hx e => hown (e ▸ hx)
    have e : dropMgr env a1 memo = { a with st := (dropMgr env a1 memo).st } := by
      conv => lhs; rw [dropMgr, i3]
      rfl
    have := Ok.of_quiet h q hd
    rw [← e] at this
    have hset : (givenOf a).set j (a.st.mgrOf mh) = givenOf a := by
      rw [i4, i5.mgrOf h.inv p1 (by simp)] at hsame
      rw [i1, hsame, ← p2]
      obtain ⟨hlt, hv⟩ := List.getElem?_eq_some_iff.1 hgj
      rw [← hv]
      exact List.set_getElem_self hlt
    rw [hset]; exact this
  · rename_i hdiff
    split at he
    · cases he
    rename_i a2 h2
    split at he
    · cases he
    rename_i a3 ctx h3
    cases he
    have hm1 : p.memo ∈ p.handles := by simp [Prov.handles]
    obtain ⟨a1', hb1, hb2, hb3⟩ : ∃ a1', (if o then dropMgr env a1 p.memo else a1) = a1' ∧ a1' = { a1 with st := a1'.st } ∧
        Quiet env (fun x => x ∈ p.handles) a1.st a1'.st := by
      refine ⟨_, rfl, ?_, ?_⟩
      · split <;> rfl
      · split
        · exact (dropMgr_ok a1 p.memo).mono (by simp [Prov.handles])
        · exact Quiet.refl _
    rw [hb1] at h2
    obtain ⟨l1, l2⟩ := load_ok h2
    obtain ⟨a2', hc1, hc2, hc3⟩ : ∃ a2', (if o then a2 else dropMgr env a2 p.memo) = a2' ∧ a2' = { a2 with st := a2'.st } ∧
        Quiet env (fun x => x ∈ p.handles) a2.st a2'.st := by
      refine ⟨_, rfl, ?_, ?_⟩
      · split <;> rfl
      · split
        · exact Quiet.refl _
        · exact (dropMgr_ok a2 p.memo).mono (by simp [Prov.handles])
    rw [hc1] at h3
    obtain ⟨i', k1, k2, k3, k4, k5, k6⟩ := cloneMgr_ok h3
    -- All operations together.
    have qb : Quiet env (fun x => x ∈ p.handles) a1.st a2'.st := (hb3.trans (l2.mono (by simp))).trans hc3
    have inv2 : Inv a2'.st := qb.inv ok1.inv
    have inv3 : Inv a3.st := k5.inv inv2
    have e3 : a3 = { a with st := a3.st } := by rw [k3, hc2, l1, hb2, i3]
    have qa : Quiet env (fun x => x ∈ p.handles) a.st a3.st := ((i5.mono (by simp)).trans qb).trans (k5.mono (by simp))
    have qd : Quiet env (fun x => x ∈ p.handles) a3.st
        (dropMgr env { a3 with provs := a3.provs.set j (some { data := p.data, memo, ctx }) } p.ctx).st :=
      (dropMgr_ok { a3 with provs := a3.provs.set j (some { data := p.data, memo, ctx }) } p.ctx).mono (by simp [Prov.handles])
    have hlow : ∀ x ∈ p.handles, x < a.st.mgrHandles.length :=
      fun x hx => h.own_lt (mem_own.2 (Or.inr ⟨j, p, hj, hx⟩))
    have hlen : a1.st.mgrHandles.length ≤ a2'.st.mgrHandles.length := qb.length ok1.inv
    have hmemo : memo ∉ p.handles := fun hx => by have := hlow _ hx; omega
    have hctx : ctx ∉ p.handles := fun hx => by have := hlow _ hx; omega
    have hne : memo ≠ ctx := by omega
    have ef : dropMgr env { a3 with provs := a3.provs.set j (some { data := p.data, memo, ctx }) } p.ctx =
        { a with
          st := (dropMgr env { a3 with provs := a3.provs.set j (some { data := p.data, memo, ctx }) } p.ctx).st
          provs := a.provs.set j (some { data := p.data, memo, ctx }) } := by
      conv => lhs; rw [dropMgr]
      rw [App.mk.injEq]
      exact ⟨rfl, by simp only; rw [e3], by simp only; rw [e3]⟩
    generalize (dropMgr env { a3 with provs := a3.provs.set j (some { data := p.data, memo, ctx }) } p.ctx).st = sf at ef qd
    rw [ef]
    have qf : Quiet env (fun x => x ∈ p.handles) a.st sf := qa.trans qd
    have hcl := (h.clear j).quiet qf (fun x hx => (h.clear_own hj x hx).2)
    have hmgr1 : sf.mgrOf memo = some i := ((qb.trans (k5.mono (by simp))).trans qd).mgrOf ok1.inv i4 hmemo
    have hmgr2 : sf.mgrOf ctx = some i' := qd.mgrOf inv3 k4 hctx
    have hii : i' = i := by
      have : a2'.st.mgrOf mh = some i := by
        by_cases hx : mh ∈ p.handles
        · -- then the manager would be the same
          exfalso
          apply hdiff
          rw [i4, i5.mgrOf h.inv p1 (by simp)]
          simp only [Prov.handles, List.mem_cons, List.not_mem_nil, or_false] at hx
          rcases hx with rfl | rfl
          · rw [p1] at i1; exact i1.symm
          · rw [p2] at i1; exact i1.symm
        · exact ((i5.mono (by simp)).trans qb).mgrOf h.inv i1 hx
      rw [this] at k1; cases k1; rfl
    subst hii
    refine ⟨?_, ⟨_, qf, (h.sep j p hj).2⟩, fun x hx => hx, ?_⟩
    · refine AppOk.set (a := { a with st := sf }) (j := j) hcl ⟨i', hmgr1, hmgr2⟩ hne ?_
      intro x hx hx'
      have hx2 := (h.clear_own hj x hx').1
      have := h.own_lt hx2
      simp only [Prov.handles, List.mem_cons, List.not_mem_nil, or_false] at hx
      omega
    · have hg := givenOf_kept (a := { a with provs := a.provs.set j none }) (h.clear j) qf
        (fun x hx => (h.clear_own hj x hx).2)
      simp only [givenOf, List.map_set, Option.bind_some, Option.bind_none, hmgr2, i1] at hg ⊢
      have := congrArg (fun l => List.set l j (some i')) hg
      simpa [List.set_set] using this

theorem defaultMgr_ok {env : Env} {a a' : App} {mh' : Nat} (h : AppOk a) (he : defaultMgr env a = some (a', mh')) :
    Ok env a (givenOf a) a' ∧ mh' ∉ a'.own ∧ (∃ h0 i, a'.dflt = some h0 ∧ a'.st.mgrOf h0 = some i ∧ a'.st.mgrOf mh' = some i) ∧
    Quiet env (fun _ => False) a.st a'.st := by
  simp only [defaultMgr] at he
  split at he
  · rename_i mh hd
    obtain ⟨i, i1, i2, i3, i4, i5, i6⟩ := cloneMgr_ok he
    have := Ok.of_quiet h i5 (by simp)
    rw [← i3] at this
    refine ⟨this, ?_, ⟨mh, i, by rw [i3]; exact hd, i5.mgrOf h.inv i1 (by simp), i4⟩, i5⟩
    intro hx
    rw [i3] at hx
    have : mh' < a.st.mgrHandles.length := h.own_lt (a := a) hx
    omega
  · rename_i hd
    split at he
    case h_2 => cases he
    rename_i s mh hs
    obtain ⟨i, i1, i2, i3, i4, i5, i6⟩ := cloneMgr_ok he
    have q1 : Quiet env (fun _ => False) a.st s := Quiet.step _ hs (by simp) (by simp)
    have hi1 : Inv s := q1.inv h.inv
    simp only at i1 i2 i5
    have hnew : mh = a.st.mgrHandles.length ∧ ∃ m, s.mgrs[i]? = some m ∧ m.pref = c! "stylist" ∧
        m.append = true ∧ m.log = none := by
      have ht := step_tr env h.inv (.newMgr (c! "stylist") none true none)
      rw [hs] at ht
      generalize hx : Out.mgr mh = out at ht
      cases ht with
      | newMgr _ _ _ _ cont' =>
        cases hx
        refine ⟨rfl, ?_⟩
        simp [St.mgrOf] at i1
        subst i1
        exact ⟨{ pref := c! "stylist", container := cont', append := true, log := none, reg := [], borrowed := false },
          by simp, rfl, rfl, rfl⟩
      | _ => cases hx
    obtain ⟨hmh, m, hm, hpref⟩ := hnew
    have oks : AppOk { a with st := s } := h.quiet q1 (by simp)
    have hown : ∀ x ∈ a.own, x < a.st.mgrHandles.length := fun x hx => h.own_lt hx
    have okd : AppOk { a with st := s, dflt := some mh } := by
      refine ⟨hi1, ?_, oks.prov, ?_, oks.apart⟩
      · intro x hx; cases hx; exact ⟨i, m, i1, hm, hpref⟩
      · intro j p hj
        refine ⟨(h.sep j p hj).1, ?_⟩
        intro x hx hx'
        cases hx
        have := hown mh (mem_own.2 (Or.inr ⟨j, p, hj, hx'⟩))
        omega
    have okf : AppOk a' := i3 ▸ okd.quiet i5 (by simp)
    have q : Quiet env (fun _ => False) a.st a'.st := q1.trans i5
    refine ⟨⟨okf, ⟨_, q, by simp⟩, by simp [hd], ?_⟩, ?_, ⟨mh, i, by rw [i3], i5.mgrOf hi1 i1 (by simp), i4⟩, q⟩
    · have := givenOf_kept h q (by simp)
      rw [i3]; exact this
    · intro hx
      rw [i3] at hx
      have : mh' < s.mgrHandles.length := okd.own_lt (a := { a with st := s, dflt := some mh }) hx
      omega

theorem contextMgr_ok {env : Env} {a a' : App} {w : Place} {mh' : Nat} (h : AppOk a) (he : contextMgr env a w = some (a', mh')) :
    Ok env a (givenOf a) a' ∧ mh' ∉ a'.own ∧ Quiet env (fun _ => False) a.st a'.st ∧
    ∃ h0 i, h0 ∈ a'.own ∧ a'.st.mgrOf h0 = some i ∧ a'.st.mgrOf mh' = some i ∧
      (match w with
        | .below j => ∃ p, a.provs[j]? = some (some p) ∧ a.st.mgrOf p.ctx = some i
        | .outside => a'.dflt = some h0) := by
  cases w with
  | outside =>
    obtain ⟨h1, h2, ⟨h0, i, h3, h4, h5⟩, h6⟩ := defaultMgr_ok h he
    exact ⟨h1, h2, h6, h0, i, mem_own.2 (Or.inl h3), h4, h5, h3⟩
  | below j =>
    simp only [contextMgr] at he
    split at he
    case h_2 => cases he
    rename_i p hj
    obtain ⟨i, i1, i2, i3, i4, i5, i6⟩ := cloneMgr_ok he
    have := Ok.of_quiet h i5 (by simp)
    rw [← i3] at this
    refine ⟨this, ?_, i5, p.ctx, i, ?_, i5.mgrOf h.inv i1 (by simp), i4, p, hj, i1⟩
    · intro hx
      rw [i3] at hx
      have : mh' < a.st.mgrHandles.length := h.own_lt (a := a) hx
      omega
    · rw [i3]; exact mem_own.2 (Or.inr ⟨j, p, hj, by simp [Prov.handles]⟩)

theorem Ok.trans_quiet {env : Env} {D : Nat → Prop} {a a1 : App} {g : List (Option Nat)} {s' : St} (h : Ok env a g a1)
    (hq : Quiet env D a1.st s') (hd : ∀ x ∈ a1.own, ¬ D x) : Ok env a g { a1 with st := s' } := by
  obtain ⟨D0, q0, d0⟩ := h.quiet
  refine ⟨h.ok.quiet hq hd, ⟨fun x => D0 x ∨ D x, (q0.mono (fun _ => Or.inl)).trans (hq.mono (fun _ => Or.inr)), ?_⟩,
    h.dflt, (givenOf_kept h.ok hq hd).trans h.given⟩
  rintro x hx (hx' | hx')
  · exact d0 x hx hx'
  · exact hd x (mem_own.2 (Or.inl (h.dflt x hx))) hx'

theorem useStyle_ok {env : Env} {a a' : App} {w : Place} {src : Source} {fault : Bool} {h' : Nat} (h : AppOk a)
    (he : useStyle env a w src fault = some (a', h')) : Ok env a (givenOf a) a' := by
  simp only [useStyle] at he
  split at he
  · cases he
  rename_i a1 mh h1
  obtain ⟨b1, b2, b3, -⟩ := contextMgr_ok h h1
  split at he
  case h_2 => cases he
  rename_i s x hs
  cases he
  have q : Quiet env (fun y => y = mh) a1.st (step env (.dropMgr mh) s).1 :=
    (Quiet.step _ hs (by simp) (by simp)).trans (Quiet.step (.dropMgr mh) (out := (step env (.dropMgr mh) s).2) rfl (by simp) (by simp))
  exact b1.trans_quiet q (fun x hx e => b2 (e ▸ hx))

theorem classes_ok {env : Env} {a a' : App} {w : Place} {src : Source} {fault : Bool} {cls : Str} (h : AppOk a)
    (he : classes env a w src fault = some (a', cls)) : Ok env a (givenOf a) a' := by
  simp only [classes] at he
  split at he
  · cases he
  rename_i a1 x h1
  split at he
  · cases he
  cases he
  exact (useStyle_ok h h1).trans_quiet (D := fun _ => False)
    (Quiet.step (.drop x) (out := (step env (.drop x) a1.st).2) rfl (by simp) (by simp)) (by simp)

/-- One event. -/
theorem event_ok {env : Env} {o : Bool} {a a' : App} {e : Event} (h : AppOk a) (he : event env o a e = some a') :
    AppOk a' ∧ givenOf a' = givenAfter a (givenOf a) e ∧
    (∀ x, a.dflt = some x → a'.dflt = some x ∧ a'.st.mgrOf x = a.st.mgrOf x) ∧
    ∃ ops, a'.st = run env ops a.st ∧
      ∀ i k, ¬ Unregs i k a e → Along env (fun t op => ¬ Unregisters op t i k) ops a.st := by
  have fin : ∀ {g}, Ok env a g a' → AppOk a' ∧ givenOf a' = g ∧
      (∀ x, a.dflt = some x → a'.dflt = some x ∧ a'.st.mgrOf x = a.st.mgrOf x) ∧
      ∃ ops, a'.st = run env ops a.st ∧
        ∀ i k, ¬ Unregs i k a e → Along env (fun t op => ¬ Unregisters op t i k) ops a.st := by
    intro g hk
    obtain ⟨D, q, hd⟩ := hk.quiet
    obtain ⟨ops, h1, h2⟩ := q.along
    exact ⟨hk.ok, hk.given, fun x hx => ⟨hk.dflt x hx, h.own_kept q (mem_own.2 (Or.inl hx)) (hd x hx)⟩,
      ops, h1, fun i k _ => h2 i k⟩
  cases e with
  | mount mh data => exact fin (mount_ok h he)
  | rerender j mh => exact fin (rerender_ok h he)
  | unmount j => exact fin (unmount_ok h he)
  | default =>
    simp only [event, Option.map_eq_some_iff, Prod.exists] at he
    obtain ⟨a1, x, h1, rfl⟩ := he
    exact fin (defaultMgr_ok h h1).1
  | useStyle w src fault =>
    simp only [event, Option.map_eq_some_iff, Prod.exists] at he
    obtain ⟨a1, x, h1, rfl⟩ := he
    exact fin (useStyle_ok h h1)
  | classes w src fault =>
    simp only [event, Option.map_eq_some_iff, Prod.exists] at he
    obtain ⟨a1, x, h1, rfl⟩ := he
    exact fin (classes_ok h h1)
  | other op =>
    simp only [event] at he
    split at he
    · cases he
    rename_i hop
    cases he
    have hd : ∀ x ∈ a.own, op ≠ .dropMgr x := by
      intro x hx e
      exact hop (List.any_eq_true.2 ⟨x, hx, by simp [e]⟩)
    have hok := h.ops (env := env) [op] (by
      intro op' ho x e hx
      simp only [List.mem_cons, List.not_mem_nil, or_false] at ho
      exact hd x hx (ho ▸ e))
    have keep : ∀ x ∈ a.own, (step env op a.st).1.mgrOf x = a.st.mgrOf x := by
      intro x hx
      obtain ⟨i, hi⟩ := h.own_mgr hx
      rw [hi, mgrOf_step h.inv hi (hd x hx)]
    refine ⟨hok, ?_, fun x hx => ⟨hx, keep x (mem_own.2 (Or.inl hx))⟩, [op], rfl, ?_⟩
    · simp only [givenOf, givenAfter]
      refine List.map_congr_left (fun o ho => ?_)
      cases o with
      | none => rfl
      | some p =>
        obtain ⟨j, hj⟩ := List.getElem?_of_mem ho
        exact keep _ (mem_own.2 (Or.inr ⟨j, p, hj, by simp [Prov.handles]⟩))
    · intro i k hu
      exact ⟨fun h' => hu ⟨op, rfl, h'⟩, trivial⟩

/-- A history of events. -/
theorem events_ok {env : Env} {o : Bool} : ∀ (es : List Event) {a a' : App}, AppOk a → events env o es a = some a' →
    AppOk a' ∧ givenOf a' = given env o es a (givenOf a) ∧
    (∀ x, a.dflt = some x → a'.dflt = some x ∧ a'.st.mgrOf x = a.st.mgrOf x) ∧
    ∃ ops, a'.st = run env ops a.st ∧ ∀ i k, AlongEvents env o (fun a e => ¬ Unregs i k a e) es a →
      Along env (fun t op => ¬ Unregisters op t i k) ops a.st
  | [], a, a', h, he => by
    simp only [events, Option.some.injEq] at he
    subst he
    exact ⟨h, rfl, fun x hx => ⟨hx, rfl⟩, [], rfl, fun _ _ _ => trivial⟩
  | e :: es, a, a', h, he => by
    simp only [events, Option.bind_eq_some_iff] at he
    obtain ⟨a1, he1, he2⟩ := he
    obtain ⟨h1, h2, h3, ops1, h4, h5⟩ := event_ok h he1
    obtain ⟨b1, b2, b3, ops2, b4, b5⟩ := events_ok es h1 he2
    refine ⟨b1, ?_, ?_, ops1 ++ ops2, by rw [run_append, ← h4, b4], ?_⟩
    · rw [b2, given, he1, h2]
    · intro x hx
      obtain ⟨c1, c2⟩ := h3 x hx
      obtain ⟨c3, c4⟩ := b3 x c1
      exact ⟨c3, c4.trans c2⟩
    · rintro i k ⟨hu1, hu2⟩
      exact along_append _ _ (h5 i k hu1) (h4 ▸ b5 i k (hu2 a1 he1))

/-! ## Creating a style does not look at the manager handles -/

/-- The same state with other manager handles. -/
def withMh (l : List (Option Nat)) (s : St) : St := { s with mgrHandles := l }

theorem getOrRegister_withMh {env : Env} {fault : Bool} {i : Nat} {m : Mgr} {key : Key} {s : St} {l : List (Option Nat)}
    (hi : Inv s) (hi' : Inv (withMh l s)) (hm : s.mgrs[i]? = some m) :
    getOrRegister env fault i key (withMh l s) =
      (withMh l (getOrRegister env fault i key s).1, (getOrRegister env fault i key s).2) := by
  have hm' : (withMh l s).mgrs[i]? = some m := hm
  have hn : newContent env (withMh l s) i key = newContent env s i key := rfl
  have hd : (withMh l s).dom = s.dom := rfl
  have hl : (withMh l s).logs = s.logs := rfl
  have h1 := getOrRegister_eq env hi hm fault key
  have h2 := getOrRegister_eq env hi' hm' fault key
  rw [hn, hd, hl] at h2
  rcases h1 with ⟨p, a1, a2⟩ | ⟨a1, ⟨b1, b2, b3⟩ | ⟨b1, ⟨lg, log, c1, c2, c3⟩ | ⟨c1, c2, c3⟩ | ⟨d, c1, c2, c3⟩⟩⟩
  · rcases h2 with ⟨p', a1', a2'⟩ | ⟨a1', -⟩
    · rw [a1] at a1'; cases a1'
      rw [a2, a2']
    · rw [a1] at a1'; cases a1'
  · rcases h2 with ⟨p', a1', a2'⟩ | ⟨a1', ⟨b1', b2', b3'⟩ | ⟨b1', -⟩⟩
    · rw [a1] at a1'; cases a1'
    · rw [b3, b3']; rfl
    · exact absurd b2 (b1' b1)
  · rcases h2 with ⟨p', a1', a2'⟩ | ⟨a1', ⟨b1', b2', b3'⟩ | ⟨b1', ⟨lg', log', c1', c2', c3'⟩ | ⟨c1', c2', c3'⟩ | ⟨d', c1', c2', c3'⟩⟩⟩
    · rw [a1] at a1'; cases a1'
    · exact absurd b2' (b1 b1')
    · rw [c1] at c1'; cases c1'
      rw [c2] at c2'; cases c2'
      rw [c3, c3']; rfl
    · rw [c1] at c1'; cases c1'
    · rw [c1] at c1'; cases c1'
  · rcases h2 with ⟨p', a1', a2'⟩ | ⟨a1', ⟨b1', b2', b3'⟩ | ⟨b1', ⟨lg', log', c1', c2', c3'⟩ | ⟨c1', c2', c3'⟩ | ⟨d', c1', c2', c3'⟩⟩⟩
    · rw [a1] at a1'; cases a1'
    · exact absurd b2' (b1 b1')
    · rw [c1] at c1'; cases c1'
    · rw [c3, c3']; rfl
    · rw [c2] at c2'; cases c2'
  · rcases h2 with ⟨p', a1', a2'⟩ | ⟨a1', ⟨b1', b2', b3'⟩ | ⟨b1', ⟨lg', log', c1', c2', c3'⟩ | ⟨c1', c2', c3'⟩ | ⟨d', c1', c2', c3'⟩⟩⟩
    · rw [a1] at a1'; cases a1'
    · exact absurd b2' (b1 b1')
    · rw [c1] at c1'; cases c1'
    · rw [c2] at c2'; cases c2'
    · rw [c2] at c2'; cases c2'
      rw [c3, c3']; rfl

theorem create_withMh {env : Env} {mh mh' i : Nat} {kind : Kind} {src : Source} {fault : Bool} {s : St}
    {l : List (Option Nat)} (hi : Inv s) (hi' : Inv (withMh l s)) (h : s.mgrOf mh = some i)
    (h' : (withMh l s).mgrOf mh' = some i) :
    step env (.create mh' kind src fault) (withMh l s) =
      (withMh l (step env (.create mh kind src fault) s).1, (step env (.create mh kind src fault) s).2) := by
  obtain ⟨m, hm⟩ := mgrOf_get hi h
  have hm' : (withMh l s).mgrs[i]? = some m := hm
  simp only [step, create, h, h', hm, hm']
  cases src.sheet? with
  | none => rfl
  | some ast =>
    simp only [getOrRegister_withMh hi hi' hm]
    generalize getOrRegister env fault i _ s = r
    obtain ⟨r1, r2⟩ := r
    cases r2 <;> rfl

/-- Dropping one of several handles of a manager. -/
theorem dropMgr_clone {env : Env} {s : St} {mh mh0 i : Nat} (h : s.mgrOf mh = some i) (h0 : s.mgrOf mh0 = some i)
    (hne : mh0 ≠ mh) : step env (.dropMgr mh) s = (withMh (s.mgrHandles.set mh none) s, .unit) := by
  have : ({ s with mgrHandles := s.mgrHandles.set mh none } : St).mgrAlive i = true := by
    simp only [St.mgrAlive, List.elem_eq_mem, decide_eq_true_eq]
    have : (s.mgrHandles.set mh none)[mh0]? = some (some i) := by
      rw [List.getElem?_set_ne (fun e => hne e.symm)]
      simpa [St.mgrOf, Option.join_eq_some_iff] using h0
    exact List.mem_of_getElem? this
  simp only [step, h, this, if_true]
  rfl

theorem create_mgrHandles {env : Env} {s : St} (hi : Inv s) {mh : Nat} {kind : Kind} {src : Source} {fault : Bool} :
    (step env (.create mh kind src fault) s).1.mgrHandles = s.mgrHandles := by
  have ht := step_tr env hi (.create mh kind src fault)
  generalize (step env (.create mh kind src fault) s).1 = s' at ht
  generalize (step env (.create mh kind src fault) s).2 = out at ht
  cases ht <;> rfl

/-- `use_style` is `Style::new` with the manager of the context. -/
theorem useStyle_eq {env : Env} {a : App} (hi : Inv a.st) {w : Place} {h0 mh i : Nat} (hc : contextMgr env a w = cloneMgr env a h0)
    (h1 : a.st.mgrOf h0 = some i) (h2 : a.st.mgrOf mh = some i) (src : Source) (fault : Bool) :
    (∀ s h, step env (.create mh .scoped src fault) a.st = (s, .style h) →
      useStyle env a w src fault = some ({ a with st := { s with mgrHandles := s.mgrHandles ++ [none] } }, h)) ∧
    ((∀ h, (step env (.create mh .scoped src fault) a.st).2 ≠ .style h) → useStyle env a w src fault = none) := by
  have hmh : (withMh (a.st.mgrHandles ++ [some i]) a.st).mgrOf a.st.mgrHandles.length = some i := by
    simp [withMh, St.mgrOf]
  have hi' : Inv (withMh (a.st.mgrHandles ++ [some i]) a.st) := by
    have := inv_step env (.cloneMgr h0) hi
    simp only [step, h1] at this
    exact this
  have hx := create_withMh (env := env) (kind := .scoped) (src := src) (fault := fault) hi hi' h2 hmh
  have hlen := create_mgrHandles (env := env) hi (mh := mh) (kind := .scoped) (src := src) (fault := fault)
  have hl0 := mgrOf_lt h1
  simp only [useStyle, hc, cloneMgr_eq h1, show ({ a.st with mgrHandles := a.st.mgrHandles ++ [some i] } : St) =
    withMh (a.st.mgrHandles ++ [some i]) a.st from rfl, hx]
  generalize step env (.create mh .scoped src fault) a.st = r at hlen
  obtain ⟨r1, r2⟩ := r
  constructor
  · rintro s h ⟨⟩
    simp only at hlen ⊢
    have e1 : (withMh (a.st.mgrHandles ++ [some i]) r1).mgrOf a.st.mgrHandles.length = some i := by simp [withMh, St.mgrOf]
    have e2 : (withMh (a.st.mgrHandles ++ [some i]) r1).mgrOf h0 = some i := by
      rw [St.mgrOf, withMh, List.getElem?_append_left hl0]; exact h1
    rw [dropMgr_clone e1 e2 (by omega)]
    simp [withMh, hlen]
  · intro h
    cases r2 with
    | style h' => exact absurd rfl (h h')
    | _ => rfl

/-- Dropping a handle of a registered style. -/
theorem drop_registered {env : Env} {s : St} {h p i : Nat} {m : Mgr} {k : Key} (hc : s.contentOf h = some p)
    (hm : s.mgrs[i]? = some m) (hr : (k, p) ∈ m.reg) :
    step env (.drop h) s = ({ s with handles := s.handles.set h none }, .unit) := by
  simp only [step, hc]
  have hl : ({ s with handles := s.handles.set h none } : St).Alive p := Or.inr ⟨m, List.mem_of_getElem? hm, k, hr⟩
  have := alive_iff.1 hl
  simp [St.release, this]

/-- The operations of `use_style` and `css!`. -/
theorem gives_ops {env : Env} {a a' : App} {w : Place} {src : Source} {fault : Bool} {cls : Str} (h : AppOk a)
    (he : Gives env a w src fault a' cls) :
    Ok env a (givenOf a) a' ∧
    ∃ (t u : St) (mh st i : Nat) (rest : List Op), Quiet env (fun _ => False) a.st t ∧ t.mgrOf mh = some i ∧
      step env (.create mh .scoped src fault) t = (u, .style st) ∧ u.className st = some cls ∧
      a'.st = run env rest u ∧ (∀ j k, Along env (fun t op => ¬ Unregisters op t j k) rest u) ∧
      ∀ i', ManagerAt a' (givenOf a') w i' → i' = i := by
  have main : ∀ a2 st, useStyle env a w src fault = some (a2, st) → a2.st.className st = some cls →
      ∃ (t u : St) (mh i : Nat), Quiet env (fun _ => False) a.st t ∧ t.mgrOf mh = some i ∧
      step env (.create mh .scoped src fault) t = (u, .style st) ∧ u.className st = some cls ∧
      a2.st = run env [.dropMgr mh] u ∧ ∀ i', ManagerAt a2 (givenOf a2) w i' → i' = i := by
    intro a2 st h2 hcls
    have hok := useStyle_ok h h2
    simp only [useStyle] at h2
    split at h2
    · cases h2
    rename_i a1 mh h1
    split at h2
    case h_2 => cases h2
    rename_i u st' hs
    cases h2
    obtain ⟨b1, b2, b3, h0, i, b4, b5, b6, b7⟩ := contextMgr_ok h h1
    have hne : h0 ≠ mh := fun e => b2 (e ▸ b4)
    have hu : u = (step env (.create mh .scoped src fault) a1.st).1 := by rw [hs]
    have hui : Inv u := hu ▸ inv_step env _ b1.ok.inv
    have e1 : u.mgrOf h0 = some i := hu ▸ mgrOf_step b1.ok.inv b5 (by simp)
    have e2 : u.mgrOf mh = some i := hu ▸ mgrOf_step b1.ok.inv b6 (by simp)
    have hd := dropMgr_clone (env := env) e2 e1 hne
    refine ⟨a1.st, u, mh, i, b3, b6, hs, ?_, rfl, ?_⟩
    · rw [hd] at hcls; exact hcls
    · intro i' hw
      cases w with
      | below j =>
        obtain ⟨p, p1, p2⟩ := b7
        simp only [ManagerAt] at hw
        rw [hok.given, givenOf, List.getElem?_map, p1] at hw
        simp only [Option.map_some, Option.bind_some, p2, Option.some.injEq] at hw
        exact hw.symm
      | outside =>
        obtain ⟨x, x1, x2⟩ := hw
        have x3 := mgrOf_run (env := env) [.dropMgr mh] hui e1 (by simpa using fun e => hne e.symm)
        simp only [b7, Option.some.injEq] at x1
        subst x1
        simp only [run] at x3
        rw [x3] at x2
        exact (Option.some.inj x2).symm
  rcases he with ⟨st, h1, h2⟩ | he
  · obtain ⟨t, u, mh, i, c1, c2, c3, c4, c5, c6⟩ := main a' st h1 h2
    refine ⟨useStyle_ok h h1, t, u, mh, st, i, _, c1, c2, c3, c4, c5, fun j k => ⟨not_unregisters (by simp), trivial⟩, c6⟩
  · have hok := classes_ok h he
    simp only [classes] at he
    split at he
    · cases he
    rename_i a2 st h2
    split at he
    · cases he
    rename_i cls' hcls
    cases he
    obtain ⟨t, u, mh, i, c1, c2, c3, c4, c5, c6⟩ := main a2 st h2 hcls
    refine ⟨hok, t, u, mh, st, i, [.dropMgr mh, .drop st], c1, c2, c3, c4, by simp [run, c5],
      fun j k => ⟨not_unregisters (by simp), not_unregisters (by simp), trivial⟩, ?_⟩
    intro i' hw
    refine c6 i' ?_
    have hok2 := useStyle_ok h h2
    cases w with
    | below j =>
      simp only [ManagerAt] at hw ⊢
      rw [hok.given] at hw; rw [hok2.given]; exact hw
    | outside =>
      obtain ⟨x, x1, x2⟩ := hw
      simp only at x1 x2
      obtain ⟨i2, -, y1, -⟩ := hok2.ok.dflt x x1
      have := mgrOf_step (env := env) (op := .drop st) hok2.ok.inv y1 (by simp)
      rw [x2] at this; cases this
      exact ⟨x, x1, y1⟩

end Context
