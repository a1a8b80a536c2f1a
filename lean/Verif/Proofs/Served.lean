import Verif.Proofs.Requests
import Verif.Proofs.Locks
import Verif.Proofs.Context

/-!
# Helper lemmas for pages that a server with threads sends
-/

namespace Manager

theorem tr_kept {env : Env} {op : Op} {s s' : St} {out : Out} (ht : Tr env op s s' out) : s.heap <+: s'.heap ∧
    ∀ (i : Nat) (m : Mgr), s.mgrs[i]? = some m → ∃ m', s'.mgrs[i]? = some m' ∧ m'.log = m.log := by
  refine ⟨?_, fun i m hm => ?_⟩
  · rcases ht.newContents with ⟨h1, -⟩ | ⟨i, key, h1, -⟩ | ⟨i, data, r, -, hr, -⟩
    · rw [h1]; exact List.prefix_refl _
    · rw [h1]; exact List.prefix_append _ _
    · obtain ⟨es', -, h3⟩ := hr.newContents
      rw [h3]; exact List.prefix_append _ _
  · obtain ⟨m', h1, h2, -⟩ := ht.mgr hm
    exact ⟨m', h1, h2.2.2.2⟩

/-- Every style of a thread is listed once. -/
theorem heard_nodup {l : Nat} {a : Option Asked} {e : Done} (h : ∀ b, a = some b → b.keys.Nodup) :
    ∀ b, heard l a e = some b → b.keys.Nodup := by
  intro b hb
  unfold heard at hb
  split at hb
  · split at hb
    · cases hb; exact List.nodup_nil
    · exact h b hb
  · rw [Option.map_eq_some_iff] at hb
    obtain ⟨b', h1, h2⟩ := hb
    split at h2 <;> subst h2 <;> exact h b' h1
  · rw [Option.map_eq_some_iff] at hb
    obtain ⟨b', h1, h2⟩ := hb
    have h3 := h _ h1
    split at h2
    · subst h2; exact h3
    · split at h2
      · rename_i hc
        subst h2
        simp only
        rw [List.nodup_append]
        refine ⟨h3, by simp, ?_⟩
        rintro x hx y hy rfl
        simp only [List.mem_singleton] at hy
        subst hy
        exact hc.2 hx
      · subst h2; exact h3
  · exact h b hb

theorem foldl_heard_nodup {l : Nat} : ∀ (calls : List Done) {a : Option Asked}, (∀ b, a = some b → b.keys.Nodup) →
    ∀ b, calls.foldl (heard l) a = some b → b.keys.Nodup
  | [], _, h => h
  | _ :: calls, _, h => foldl_heard_nodup calls (heard_nodup h)

theorem keysAsked_nodup (l : Nat) (calls : List Done) : (keysAsked l calls).Nodup := by
  unfold keysAsked
  cases h : calls.foldl (heard l) none with
  | none => exact List.nodup_nil
  | some b => exact foldl_heard_nodup calls (a := none) (by simp) b h

/-- What is known begins with the call that made the manager. -/
theorem foldl_heard_made {l : Nat} : ∀ (calls : List Done) {a : Option Asked} {b : Asked},
    calls.foldl (heard l) a = some b → a ≠ none ∨ ∃ e ∈ calls, e.MakesFor l
  | [], a, b, h => .inl (by simp only [List.foldl_nil] at h; rw [h]; simp)
  | e :: calls, a, b, h => by
    rcases foldl_heard_made calls h with h1 | ⟨e', h1, h2⟩
    · unfold heard at h1
      split at h1
      · split at h1
        · rename_i pref cont append writer hh h2 h3 h4
          exact .inr ⟨e, by simp, pref, cont, append, hh, by rw [h2, h4], h3⟩
        · exact .inl h1
      · exact .inl (by simpa using h1)
      · exact .inl (by simpa using h1)
      · exact .inl h1
    · exact .inr ⟨e', List.mem_cons_of_mem _ h1, h2⟩

end Manager

namespace Locks

open Manager

/-- Styles that were made stay, managers keep their style data, finished calls stay finished. -/
structure Kept (x x' : Sys) : Prop where
  heap : x.st.heap <+: x'.st.heap
  mgrs : ∀ (i : Nat) (m : Mgr), x.st.mgrs[i]? = some m → ∃ m', x'.st.mgrs[i]? = some m' ∧ m'.log = m.log
  done : x.done <+: x'.done

theorem Kept.same {x x' : Sys} (h : x'.st.heap = x.st.heap) (h' : x'.st.mgrs = x.st.mgrs) (hd : x.done <+: x'.done) : Kept x x' :=
  ⟨by rw [h]; exact List.prefix_refl _, fun i m hm => ⟨m, by rw [h']; exact hm, rfl⟩, hd⟩

theorem Kept.trans {x y z : Sys} (h : Kept x y) (h' : Kept y z) : Kept x z :=
  ⟨h.heap.trans h'.heap, fun i m hm => by
    obtain ⟨m', a1, a2⟩ := h.mgrs i m hm
    obtain ⟨m'', a3, a4⟩ := h'.mgrs i m' a1
    exact ⟨m'', a3, a4.trans a2⟩, h.done.trans h'.done⟩

/-- The end of a creation. -/
theorem J.finish_kept {env : Env} {d : Dom} {x : Sys} (h : J env d x) {t : Nat} {p : Pending}
    (hp : (x.pc t).pending = some p) (hpass : Passed env p) :
    x.st.heap <+: (finish env p x.st).1.heap ∧
      ∀ (i : Nat) (m : Mgr), x.st.mgrs[i]? = some m → ∃ m', (finish env p x.st).1.mgrs[i]? = some m' ∧ m'.log = m.log := by
  obtain ⟨calls, used, hu⟩ := h.tinv
  have := theap_step hu (t, .renderStatic)
  unfold Threads.step at this
  have hpc : (abs x calls).pc t = some p := hp
  simp only [hpc] at this
  rw [← finish_passed hpass]
  exact this

theorem J.kept {env : Env} {d : Dom} {x : Sys} (h : J env d x) (c : Nat × Op) : Kept x (x.step env c) := by
  obtain ⟨t, op⟩ := c
  have hk := h.knows t
  have refl : Kept x x := Kept.same rfl rfl (List.prefix_refl _)
  cases hpc : x.pc t with
  | idle =>
    simp only [Sys.step, hpc]
    split
    · have tr := tr_kept (step_tr env h.inv op)
      unfold Sys.begin
      cases op with
      | create mh kind src fault =>
        simp only
        split
        · exact ⟨tr.1, tr.2, List.prefix_append _ _⟩
        · split <;> exact Kept.same rfl rfl (List.prefix_refl _)
      | readData l =>
        simp only
        split
        · exact ⟨tr.1, tr.2, List.prefix_append _ _⟩
        · split
          · exact ⟨tr.1, tr.2, List.prefix_append _ _⟩
          · split
            · exact refl
            · exact Kept.same rfl rfl (List.prefix_append _ _)
      | styleData mh =>
        simp only
        split
        · exact ⟨tr.1, tr.2, List.prefix_append _ _⟩
        · split
          · exact ⟨tr.1, tr.2, List.prefix_append _ _⟩
          · split
            · exact refl
            · exact Kept.same rfl rfl (List.prefix_append _ _)
      | _ => exact ⟨tr.1, tr.2, List.prefix_append _ _⟩
    · exact refl
  | source mh kind css fault =>
    simp only [Sys.step, hpc]
    split <;> exact Kept.same rfl rfl (List.prefix_refl _)
  | made mh kind src fault sheet =>
    cases sheet with
    | none => simp only [Sys.step, hpc]; exact Kept.same rfl rfl (List.prefix_append _ _)
    | some ast =>
      simp only [Sys.step, hpc]
      split
      · have tr := tr_kept (step_tr env h.inv (.create mh kind (.sheet ast) fault))
        exact ⟨tr.1, tr.2, List.prefix_append _ _⟩
      · split <;> exact Kept.same rfl rfl (List.prefix_refl _)
  | check p =>
    simp only [Sys.step, hpc]
    split
    · split
      · exact Kept.same rfl rfl (List.prefix_refl _)
      · exact Kept.same rfl rfl (List.prefix_append _ _)
    · exact Kept.same rfl rfl (List.prefix_refl _)
  | checked p =>
    rw [hpc] at hk
    have hf := h.finish_kept (t := t) (p := p) (by rw [hpc]; rfl) hk.2
    simp only [Sys.step, hpc]
    split
    · split
      · exact refl
      · split
        · exact Kept.same rfl rfl (List.prefix_append _ _)
        · exact Kept.same rfl rfl (List.prefix_refl _)
    · exact ⟨hf.1, hf.2, List.prefix_append _ _⟩
  | locked p l =>
    simp only [Sys.step, hpc]
    exact Kept.same rfl rfl (List.prefix_refl _)
  | pushed p l =>
    rw [hpc] at hk
    have hf := h.finish_kept (t := t) (p := p) (by rw [hpc]; rfl) hk.2.1
    simp only [Sys.step, hpc]
    exact ⟨hf.1, hf.2, List.prefix_append _ _⟩

theorem J.kept_run {env : Env} {d : Dom} : ∀ (cs : List (Nat × Op)) {x : Sys}, J env d x → Kept x (x.run env cs)
  | [], _, _ => Kept.same rfl rfl (List.prefix_refl _)
  | c :: cs, _, h => (h.kept c).trans (J.kept_run cs (h.step c))

end Locks
