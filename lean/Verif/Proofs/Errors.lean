import Verif.Proofs.History
import Verif.Proofs.Load

/-!
# Containers of managers

For C76.
-/

namespace Manager

theorem modReg_length (s : St) (i : Nat) (f : List (Key × Nat) → List (Key × Nat)) :
    (s.modReg i f).mgrs.length = s.mgrs.length := by simp [St.modReg, St.modMgr]

/-- Managers come to be by building only. -/
theorem Tr.mgrs_length {env : Env} {op : Op} {s s' : St} {out : Out} (h : Tr env op s s' out) :
    s'.mgrs.length = s.mgrs.length ∨
      ∃ m, s'.mgrs = s.mgrs ++ [m] ∧ (env.wasm = true → m.container.isSome = true) := by
  cases h with
  | newMgr pref cont append writer cont' _ h1 h2 h3 h4 => exact .inr ⟨_, rfl, h3⟩
  | dropMgrLast => exact .inl (by rw [(releaseAll_fields _ _ _).2.2.1, modReg_length])
  | createStatic => exact .inl (by rw [modReg_length])
  | createMount => exact .inl (by rw [modReg_length])
  | drop => exact .inl (by rw [(release_fields _ _ _).2.2.1])
  | unregister => exact .inl (by rw [(release_fields _ _ _).2.2.1, modReg_length])
  | load mh i data s s' r out h1 h2 h3 => exact .inl h2.mgrs_length
  | _ => exact .inl rfl

/-- In a browser every manager has a container. -/
theorem has_container (env : Env) (hw : env.wasm = true) : ∀ (ops : List Op) {s : St}, Inv s →
    (∀ m ∈ s.mgrs, m.container.isSome = true) → ∀ m ∈ (run env ops s).mgrs, m.container.isSome = true
  | [], _, _, h => h
  | op :: ops, s, hi, h => by
    refine has_container env hw ops (inv_step env op hi) ?_
    have ht := step_tr env hi op
    generalize (step env op s).1 = s' at ht
    intro m' hm'
    obtain ⟨j, hj⟩ := List.getElem?_of_mem hm'
    have old : j < s.mgrs.length → m'.container.isSome = true := by
      intro hlt
      obtain ⟨m1, h1, h2, -⟩ := ht.mgr (List.getElem?_eq_getElem hlt)
      rw [hj] at h1; cases h1
      rw [h2.2.1]
      exact h _ (List.getElem_mem hlt)
    have hl := (List.getElem?_eq_some_iff.1 hj).1
    rcases ht.mgrs_length with h1 | ⟨m, h1, h2⟩
    · exact old (by omega)
    · by_cases hlt : j < s.mgrs.length
      · exact old hlt
      · rw [h1] at hj hl
        simp only [List.length_append, List.length_cons, List.length_nil] at hl
        rw [List.getElem?_append_right (by omega), show j - s.mgrs.length = 0 by omega] at hj
        simp only [List.getElem?_cons_zero, Option.some.injEq] at hj
        subst hj
        exact h2 hw

/-- When mounting fails. -/
theorem mount_none {env : Env} {fault : Bool} {m : Mgr} {c : Content} {d : Dom} :
    mount env fault m c d = none ↔ env.wasm = true ∧ (fault = true ∨ m.container = none ∨
      (m.append = false ∧ ∃ k, m.container = some k ∧ d.childrenOf k ≠ [])) := by
  unfold mount
  cases hw : env.wasm with
  | false => simp
  | true =>
    cases fault with
    | true => simp
    | false =>
      cases hc : m.container with
      | none => simp
      | some k =>
        cases ha : m.append with
        | true => simp
        | false =>
          cases hd : d.childrenOf k with
          | nil => simp [Dom.firstChild, hd]
          | cons x xs => simp [Dom.firstChild, hd, Dom.insertBefore, Dom.NodeRef.parent]

end Manager
