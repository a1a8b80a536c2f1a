import Verif.Proofs.Order
import Verif.Proofs.Hollow

/-!
# The check of debug builds

For C108.
-/

namespace DebugCheckP

open Spec Manager

/-- What holds of a style that was created. -/
def Made (env : Env) (c : Content) : Prop :=
  (env.debugParser = true → Css.parse c.text ≠ none) ∧
  ∃ n, c.text = c.key.ast.toStyleStr (if c.key.isGlobal then none else some (makeId c.key (env.entropy n)))

theorem made_new {env : Env} {s : St} {i : Nat} {key : Key} {c : Content} (hc : c = newContent env s i key)
    (h : env.debugParser = true → Css.parse c.text ≠ none) : Made env c :=
  ⟨h, s.ctr, by rw [hc]; rfl⟩

theorem made_step (env : Env) (op : Op) {s : St} (hi : Inv s) (h : ∀ c ∈ s.heap, c.origin = .created → Made env c) :
    ∀ c ∈ (step env op s).1.heap, c.origin = .created → Made env c := by
  have ht := step_tr env hi op
  by_cases hop : ∀ mh kind src fault, op ≠ .create mh kind src fault
  · exact fun c hc ho => h c (ht.noCreate hop c hc ho) ho
  · simp only [Classical.not_forall, Classical.not_not] at hop
    obtain ⟨mh, kind, src, fault, rfl⟩ := hop
    generalize hr : step env (.create mh kind src fault) s = r at ht ⊢
    obtain ⟨s', out⟩ := r
    simp only at ht ⊢
    cases ht with
    | createStatic _ _ _ _ _ i m ast l log c h1 h2 h3 h4 h5 h6 h7 h8 =>
      intro x hx ho
      simp only [St.modReg, St.modMgr, List.mem_append, List.mem_singleton] at hx
      rcases hx with hx | rfl
      · exact h x hx ho
      · exact made_new h5 h6
    | createFail _ _ _ _ _ i m ast c h1 h2 h3 h4 h5 h6 h7 h8 =>
      intro x hx ho
      simp only [List.mem_append, List.mem_singleton] at hx
      rcases hx with hx | rfl
      · exact h x hx ho
      · exact made_new h5 h6
    | createMount _ _ _ _ _ i m ast c d h1 h2 h3 h4 h5 h6 h7 h8 =>
      intro x hx ho
      simp only [St.modReg, St.modMgr, List.mem_append, List.mem_singleton] at hx
      rcases hx with hx | rfl
      · exact h x hx ho
      · exact made_new h5 h6
    | _ => exact h

theorem made_run (env : Env) : ∀ (ops : List Op) {s : St}, Inv s → (∀ c ∈ s.heap, c.origin = .created → Made env c) →
    ∀ c ∈ (run env ops s).heap, c.origin = .created → Made env c
  | [], _, _, h => h
  | op :: ops, _, hi, h => made_run env ops (inv_step env op hi) (made_step env op hi h)

/-! ## Without the check -/

theorem body_same (env : Env) (fault : Bool) (i : Nat) (key : Key) (s : St) :
    createBody { env with debugParser := false } fault i key s = createBody env fault i key s ∨
      (createBody env fault i key s).2 = .panic := by
  unfold createBody
  split
  · exact Or.inl rfl
  · split
    · exact Or.inl rfl
    · by_cases h : (env.debugParser && (Css.parse (key.ast.toStyleStr
          (if key.isGlobal then none else some (makeId key (env.entropy s.ctr))))).isNone) = true
      · right
        simp only [h, if_true]
      · left
        simp only [h, Bool.false_and, Bool.false_eq_true, if_false]
        rfl

theorem create_same (env : Env) (mh : Nat) (kind : Kind) (src : Source) (fault : Bool) (s : St)
    (h : (step env (.create mh kind src fault) s).2 ≠ .panic) :
    step { env with debugParser := false } (.create mh kind src fault) s = step env (.create mh kind src fault) s := by
  simp only [step, create] at h ⊢
  split
  · rfl
  · rename_i i hi
    simp only [hi] at h
    split
    · rfl
    · rename_i m hm
      simp only [hm] at h
      split
      · rfl
      · rename_i ast hast
        simp only [hast] at h
        have key : getOrRegister { env with debugParser := false } fault i (kind.key m.pref ast) s =
            getOrRegister env fault i (kind.key m.pref ast) s := by
          unfold getOrRegister withBorrow at h ⊢
          simp only [hm] at h ⊢
          split
          · rfl
          · rename_i hb
            simp only [hb] at h
            rcases body_same env fault i (kind.key m.pref ast) (s.modMgr i (fun m => { m with borrowed := true })) with h1 | h1
            · rw [h1]
            · exfalso
              apply h
              simp [h1]
        rw [key]

end DebugCheckP
