import Verif.Spec.Stuck
import Verif.Proofs.Shadow
import Verif.Proofs.Page

/-!
# Elements whose selector the browser rejects stay
-/

namespace Manager

open Spec

theorem unmount_rejected {env : Env} (hq : Rejects env) {id : Str} (hid : cssIdent id = false) {id' : Str} {d : Dom}
    {i : Nat} : withId id ((unmount env id' d).childrenOf i) = withId id (d.childrenOf i) := by
  cases h : cssIdent id' with
  | true => exact (unmount_other env h (by rintro rfl; rw [h] at hid; cases hid) d).2 i
  | false =>
    have : unmount env id' d = d := by
      simp only [unmount, query, h, hq id' _ h]
      simp
    rw [this]

theorem unmountAll_rejected {env : Env} (hq : Rejects env) {id : Str} (hid : cssIdent id = false) (heap : List Content) :
    ∀ (qs : List Nat) (d : Dom) (i : Nat),
      withId id ((unmountAll env heap qs d).childrenOf i) = withId id (d.childrenOf i)
  | [], _, _ => rfl
  | q :: qs, d, i => by
    simp only [unmountAll]
    cases hc : heap[q]? with
    | none => exact unmountAll_rejected hq hid heap qs d i
    | some c =>
      simp only
      rw [unmountAll_rejected hq hid heap qs _ i, unmount_rejected hq hid]

/-- One operation adds to a container the elements of the styles it makes for it. -/
theorem step_rejected {env : Env} (hw : env.wasm = true) {s : St} (hi : Inv s) (op : Op) {i : Nat}
    (hl : i < s.dom.length)
    (hq : Rejects env) {id : Str} (hid : cssIdent id = false) :
    withId id ((step env op s).1.dom.childrenOf i) =
      withId id (s.dom.childrenOf i) ++ ((made env i op s).filter fun c => c.id = id).map Content.element := by
  classical
  have ht := step_tr env hi op
  have heff := ht.eff hi
  unfold made
  generalize hr : (step env op s).1 = s' at ht heff ⊢
  generalize (step env op s).2 = out at ht
  have none : ∀ {l : List (Content × Nat)}, (l.filter fun x =>
      decide (s.heap.length ≤ x.2 ∧ s'.Alive x.2 ∧ Mounts s' x.1 i)) = [] →
      (((l.filter fun x => decide (s.heap.length ≤ x.2 ∧ s'.Alive x.2 ∧ Mounts s' x.1 i)).map Prod.fst).filter
        (fun c => c.id = id)).map Content.element = [] := by
    intro l h; rw [h]; rfl
  cases heff with
  | quiet news hh hd hal hnew hkind =>
    rw [none ?_, List.append_nil]
    · exact styles_filter hd (by intro n; simp [Child.styleId?]) i
    · rw [hh]
      apply filter_zipIdx_nil
      intro c n hc
      rw [decide_eq_false_iff_not]
      rintro ⟨h1, -, h2, m, h3, h4, -⟩
      rw [List.getElem?_append_right (by simpa using h1)] at hc
      rcases hkind c (List.mem_of_getElem? hc) with h | ⟨m', l, h5, h6⟩
      · rw [h2] at h; cases h
      · obtain ⟨m'', h7, h8, -⟩ := ht.mgr h5
        rw [h3] at h7; cases h7
        rw [h8.2.2.2, h6] at h4; cases h4
  | mounted c0 m hh hor hmm hlg hdom _ hal hnew =>
    obtain ⟨i0, hi0, hd⟩ := hdom hw
    obtain ⟨m', h4, h5, -⟩ := ht.mgr hmm
    have hM : ∀ j, Mounts s' c0 j ↔ i0 = j := by
      intro j
      constructor
      · rintro ⟨-, m2, h1, -, h3⟩
        rw [h1] at h4; cases h4
        rw [h5.2.1, hi0] at h3; cases h3; rfl
      · rintro rfl
        exact ⟨hor, m', h4, by rw [h5.2.2.2, hlg], by rw [h5.2.1, hi0]⟩
    rw [hh, List.zipIdx_append, List.filter_append, filter_zipIdx_nil (by
      intro c n hc
      rw [decide_eq_false_iff_not]
      have := heap_lt hc
      rintro ⟨h1, -⟩
      omega)]
    simp only [List.zipIdx_cons, List.zipIdx_nil, Nat.zero_add, List.nil_append, hd, Dom.appendChild]
    by_cases hii : i0 = i
    · subst hii
      have hlt : i0 < s.dom.length := hl
      have hf : ([(c0, s.heap.length)].filter fun x =>
          decide (s.heap.length ≤ x.2 ∧ s'.Alive x.2 ∧ Mounts s' x.1 i0)) = [(c0, s.heap.length)] := by
        simp [hnew, hM]
      rw [childrenOf_setChildren _ _ _ _ hlt, if_pos rfl, withId, List.filter_append, hf]
      by_cases he : c0.id = id <;> simp [withId, Child.styleId?, Content.element, he]
    · rw [List.filter_cons_of_neg (by simp [hM, hii])]
      simp only [List.filter_nil, List.map_nil, List.append_nil]
      by_cases hlt : i0 < s.dom.length
      · rw [childrenOf_setChildren _ _ _ _ hlt, if_neg hii]
      · rw [Dom.setChildren, List.modify_eq_self (by omega)]
  | failed c0 hh hor hd hal hnew =>
    rw [none ?_, List.append_nil, hd, unmount_rejected hq hid]
    rw [hh]
    apply filter_zipIdx_nil
    intro c n hc
    rw [decide_eq_false_iff_not]
    rintro ⟨h1, h2, -⟩
    rcases get_append_cases hc with ⟨h, -⟩ | ⟨rfl, -⟩
    · simp only at h1; omega
    · exact hnew h2
  | dropped qs hh _ hqs hal hd =>
    rw [none ?_, List.append_nil, hd, unmountAll_rejected hq hid s.heap qs s.dom i]
    rw [hh]
    apply filter_zipIdx_nil
    intro c n hc
    rw [decide_eq_false_iff_not]
    have := heap_lt hc
    rintro ⟨h1, -⟩
    simp only at h1
    omega

theorem run_rejected {env : Env} (hw : env.wasm = true) (hq : Rejects env) {id : Str} (hid : cssIdent id = false) :
    ∀ (ops : List Op) {s : St}, Inv s → ∀ {i : Nat}, i < s.dom.length →
    withId id ((run env ops s).dom.childrenOf i) =
      withId id (s.dom.childrenOf i) ++ ((everMade env i ops s).filter fun c => c.id = id).map Content.element
  | [], _, _, _, _ => by simp [run, everMade]
  | op :: ops, s, hi, i, hl => by
    have hi' := inv_step env op hi
    have hl' : i < (step env op s).1.dom.length := by
      have := congrArg List.length ((step_tr env hi op).eff hi).attached
      simp only [List.length_map] at this
      omega
    rw [run, run_rejected hw hq hid ops hi' hl', step_rejected hw hi op hl hq hid, everMade, List.filter_append,
      List.map_append, List.append_assoc]

end Manager
