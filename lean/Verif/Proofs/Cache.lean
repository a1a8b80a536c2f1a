import Verif.Model.Cache

/-! # The cache holds only what parsing gives -/

seal Css.parse

namespace CacheP
open Cache Css

/-- What the cache holds is what parsing gives. -/
def Sound (m : Map) : Prop := ∀ s x, m.get s = some x → parse s = some x

theorem sound_insert {m : Map} (h : Sound m) {s : Str} {x : Sheet} (hp : parse s = some x) :
    Sound ((s, x) :: m) := by
  intro t y ht
  unfold Map.get at ht
  rw [List.find?_cons] at ht
  by_cases e : s = t
  · subst e; simp at ht; rw [← ht]; exact hp
  · simp [e] at ht
    exact h t y (by unfold Map.get; simpa using ht)

theorem fromStr_spec {m : Map} (h : Sound m) (s : Str) :
    Sound (fromStr m s).1 ∧ (fromStr m s).2 = parse s := by
  unfold fromStr
  cases hg : m.get s with
  | some x => exact ⟨h, (h s x hg).symm⟩
  | none =>
    cases hp : parse s with
    | none => exact ⟨h, rfl⟩
    | some x => exact ⟨sound_insert h hp, rfl⟩

/-- What a thread has in its hands is what parsing gives. -/
def PcOk : Pc → Prop
  | .parsed s x => parse s = some x
  | .returning s r => r = parse s
  | _ => True

/-- The invariant. -/
structure Inv (st : State) : Prop where
  cache : Sound st.cache
  pcs : ∀ t, PcOk (st.pc t)
  log : ∀ e ∈ st.log, e.2 = parse e.1

theorem pcs_goto {st : State} (h : ∀ t, PcOk (st.pc t)) (t : Nat) (p : Pc) (hp : PcOk p) :
    ∀ u, PcOk ((st.goto t p).pc u) := by
  intro u
  simp only [State.goto]
  split
  · exact hp
  · exact h u

theorem step_inv {st : State} (h : Inv st) (c : Choice) : Inv (st.step c) := by
  have hpc := h.pcs c.t
  unfold State.step
  split
  · exact ⟨h.cache, pcs_goto h.pcs _ _ trivial, h.log⟩
  · split
    · exact h
    · exact ⟨h.cache, pcs_goto h.pcs _ _ trivial, h.log⟩
  · split
    · rename_i s e _ x hg
      exact ⟨h.cache, pcs_goto h.pcs _ _ (h.cache s x hg).symm, h.log⟩
    · exact ⟨h.cache, pcs_goto h.pcs _ _ trivial, h.log⟩
  · split
    · rename_i s e _ hp
      exact ⟨h.cache, pcs_goto h.pcs _ _ hp.symm, h.log⟩
    · rename_i s e _ x hp
      exact ⟨h.cache, pcs_goto h.pcs _ _ hp, h.log⟩
  · rename_i s x e
    rw [e] at hpc
    exact ⟨sound_insert h.cache hpc, pcs_goto h.pcs _ _ hpc.symm, h.log⟩
  · rename_i s r e
    rw [e] at hpc
    refine ⟨h.cache, pcs_goto h.pcs _ _ trivial, ?_⟩
    intro e he
    rcases List.mem_append.1 he with he | he
    · exact h.log e he
    · simp only [List.mem_cons, List.not_mem_nil, or_false] at he
      subst he
      exact hpc

theorem run_inv {st : State} (h : Inv st) (cs : List Choice) : Inv (st.run cs) := by
  induction cs generalizing st with
  | nil => exact h
  | cons c cs ih => exact ih (step_inv h c)

end CacheP
