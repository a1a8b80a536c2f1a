import Verif.Spec.Shadow
import Verif.Proofs.Order

/-!
# Containers outside the document keep everything
-/

namespace Manager

open Spec

theorem removeAt_outside : ∀ (d : Dom) (n i : Nat), Outside d i → (d.removeAt n).childrenOf i = d.childrenOf i
  | [], _, _, _ => rfl
  | c :: cs, n, 0, ⟨ct, h, ha⟩ => by
    simp only [List.getElem?_cons_zero, Option.some.injEq] at h
    subst h
    simp only [Dom.removeAt, ha, Bool.false_eq_true, if_false, Dom.childrenOf, List.getElem?_cons_zero]
  | c :: cs, n, i + 1, ⟨ct, h, ha⟩ => by
    have ho : Outside cs i := ⟨ct, by simpa using h, ha⟩
    simp only [Dom.removeAt]
    split
    · split
      · simp only [Dom.childrenOf, List.getElem?_cons_succ]
      · exact removeAt_outside cs (n - c.children.length) i ho
    · exact removeAt_outside cs n i ho

theorem unmount_outside (env : Env) (id : Str) {d : Dom} {i : Nat} (h : Outside d i) :
    (unmount env id d).childrenOf i = d.childrenOf i := by
  unfold unmount
  split
  · split
    · exact removeAt_outside d _ i h
    · rfl
  · rfl

theorem Outside.of_map {d d' : Dom} {i : Nat} (h : Outside d i)
    (e : d'.map Container.attached = d.map Container.attached) : Outside d' i := by
  obtain ⟨ct, h1, h2⟩ := h
  have h3 := congrArg (fun l : List Bool => l[i]?) e
  simp only [List.getElem?_map, h1, Option.map_some] at h3
  cases h4 : d'[i]? with
  | none => rw [h4] at h3; cases h3
  | some ct' =>
    rw [h4] at h3
    simp only [Option.map_some, Option.some.injEq] at h3
    exact ⟨ct', h4, by rw [h3, h2]⟩

theorem unmountAll_outside (env : Env) (heap : List Content) : ∀ (qs : List Nat) (d : Dom) (i : Nat), Outside d i →
    (unmountAll env heap qs d).childrenOf i = d.childrenOf i
  | [], _, _, _ => rfl
  | q :: qs, d, i, h => by
    simp only [unmountAll]
    cases hq : heap[q]? with
    | none => exact unmountAll_outside env heap qs d i h
    | some c =>
      simp only
      rw [unmountAll_outside env heap qs _ i (h.of_map (attached_unmount env c.id d)), unmount_outside env c.id h]

theorem filter_zipIdx_nil {α : Type} {l : List α} {k : Nat} {P : α × Nat → Bool}
    (h : ∀ (a : α) (n : Nat), l[n]? = some a → P (a, n + k) = false) : (l.zipIdx k).filter P = [] := by
  rw [List.filter_eq_nil_iff]
  rintro ⟨a, n⟩ hm
  obtain ⟨h1, h2⟩ := List.mem_zipIdx_iff_le_and_getElem?_sub.1 hm
  have := h a (n - k) h2
  rw [show n - k + k = n by omega] at this
  simp [this]

/-- One operation adds to a container outside the document the elements of the styles it
makes for it. -/
theorem step_outside {env : Env} (hw : env.wasm = true) {s : St} (hi : Inv s) (op : Op) {i : Nat}
    (ho : Outside s.dom i) :
    ((step env op s).1.dom.childrenOf i).filter Child.isStyle =
      (s.dom.childrenOf i).filter Child.isStyle ++ (made env i op s).map Content.element := by
  classical
  have ht := step_tr env hi op
  have heff := ht.eff hi
  unfold made
  generalize hr : (step env op s).1 = s' at ht heff ⊢
  generalize (step env op s).2 = out at ht
  have none : ∀ {l : List (Content × Nat)}, (l.filter fun x =>
      decide (s.heap.length ≤ x.2 ∧ s'.Alive x.2 ∧ Mounts s' x.1 i)) = [] →
      ((l.filter fun x => decide (s.heap.length ≤ x.2 ∧ s'.Alive x.2 ∧ Mounts s' x.1 i)).map Prod.fst).map
        Content.element = [] := by
    intro l h; rw [h]; rfl
  cases heff with
  | quiet news hh hd hal hnew hkind =>
    rw [none ?_, List.append_nil]
    · exact styles_filter hd (by intro n; rfl) i
    · rw [hh]
      apply filter_zipIdx_nil
      intro c n hc
      rw [decide_eq_false_iff_not]
      rintro ⟨h1, -, h2, m, h3, h4, -⟩
      rw [List.getElem?_append_right (by simpa using h1)] at hc
      rcases hkind c (List.mem_of_getElem? hc) with h | ⟨m', l, h5, h6⟩
      · rw [h2] at h; cases h
      · obtain ⟨m'', h7, h8, -⟩ := ht.mgr h5
        rw [h3] at h7; cases h7
        rw [h8.2.2.2, h6] at h4; cases h4
  | mounted c0 m hh hor hmm hlg hdom _ hal hnew =>
    obtain ⟨i0, hi0, hd⟩ := hdom hw
    obtain ⟨m', h4, h5, -⟩ := ht.mgr hmm
    have hM : ∀ j, Mounts s' c0 j ↔ i0 = j := by
      intro j
      constructor
      · rintro ⟨-, m2, h1, -, h3⟩
        rw [h1] at h4; cases h4
        rw [h5.2.1, hi0] at h3; cases h3; rfl
      · rintro rfl
        exact ⟨hor, m', h4, by rw [h5.2.2.2, hlg], by rw [h5.2.1, hi0]⟩
    rw [hh, List.zipIdx_append, List.filter_append, filter_zipIdx_nil (by
      intro c n hc
      rw [decide_eq_false_iff_not]
      have := heap_lt hc
      rintro ⟨h1, -⟩
      omega)]
    simp only [List.zipIdx_cons, List.zipIdx_nil, Nat.zero_add, List.nil_append, hd, Dom.appendChild]
    by_cases hii : i0 = i
    · subst hii
      have hlt : i0 < s.dom.length := by
        obtain ⟨ct, h1, -⟩ := ho
        exact (List.getElem?_eq_some_iff.1 h1).1
      have hf : ([(c0, s.heap.length)].filter fun x =>
          decide (s.heap.length ≤ x.2 ∧ s'.Alive x.2 ∧ Mounts s' x.1 i0)) = [(c0, s.heap.length)] := by
        simp [hnew, hM]
      rw [childrenOf_setChildren _ _ _ _ hlt, if_pos rfl, List.filter_append, hf]
      rfl
    · rw [List.filter_cons_of_neg (by simp [hM, hii])]
      simp only [List.filter_nil, List.map_nil, List.append_nil]
      by_cases hlt : i0 < s.dom.length
      · rw [childrenOf_setChildren _ _ _ _ hlt, if_neg hii]
      · rw [Dom.setChildren, List.modify_eq_self (by omega)]
  | failed c0 hh hor hd hal hnew =>
    rw [none ?_, List.append_nil, hd, unmount_outside env c0.id ho]
    rw [hh]
    apply filter_zipIdx_nil
    intro c n hc
    rw [decide_eq_false_iff_not]
    rintro ⟨h1, h2, -⟩
    rcases get_append_cases hc with ⟨h, -⟩ | ⟨rfl, -⟩
    · simp only at h1; omega
    · exact hnew h2
  | dropped qs hh hq hqs hal hd =>
    rw [none ?_, List.append_nil, hd, unmountAll_outside env s.heap qs s.dom i ho]
    rw [hh]
    apply filter_zipIdx_nil
    intro c n hc
    rw [decide_eq_false_iff_not]
    have := heap_lt hc
    rintro ⟨h1, -⟩
    simp only at h1
    omega

theorem run_outside {env : Env} (hw : env.wasm = true) : ∀ (ops : List Op) {s : St}, Inv s → ∀ {i : Nat},
    Outside s.dom i →
    ((run env ops s).dom.childrenOf i).filter Child.isStyle =
      (s.dom.childrenOf i).filter Child.isStyle ++ (everMade env i ops s).map Content.element
  | [], _, _, _, _ => by simp [run, everMade]
  | op :: ops, s, hi, i, ho => by
    have hi' := inv_step env op hi
    have ho' : Outside (step env op s).1.dom i := ho.of_map ((step_tr env hi op).eff hi).attached
    rw [run, run_outside hw ops hi' ho', step_outside hw hi op ho, everMade, List.map_append, List.append_assoc]

theorem alive_back (env : Env) : ∀ (ops : List Op) {s : St}, Inv s → ∀ {p : Nat}, p < s.heap.length →
    (run env ops s).Alive p → s.Alive p
  | [], _, _, _, _, h => h
  | op :: ops, s, hi, p, hp, h => by
    have heff := (step_tr env hi op).eff hi
    obtain ⟨n, hh⟩ := heff.heap
    have h1 := alive_back env ops (inv_step env op hi) (by rw [hh, List.length_append]; omega) h
    cases heff with
    | quiet _ _ _ hal => exact (hal p hp).1 h1
    | mounted _ _ _ _ _ _ _ _ hal => exact (hal p hp).1 h1
    | failed _ _ _ _ hal => exact (hal p hp).1 h1
    | dropped _ _ _ _ hal => exact ((hal p).1 h1).1

theorem mounts_back (env : Env) : ∀ (ops : List Op) {s : St}, Inv s → ∀ {c : Content} {i : Nat}, c ∈ s.heap →
    Mounts (run env ops s) c i → Mounts s c i
  | [], _, _, _, _, _, h => h
  | op :: ops, s, hi, c, i, hc, h => by
    obtain ⟨n, hh⟩ := ((step_tr env hi op).eff hi).heap
    obtain ⟨h1, m, h2, h3, h4⟩ := mounts_back env ops (inv_step env op hi) (by rw [hh]; exact List.mem_append_left _ hc) h
    have hlt := hi.contentMgr c hc
    obtain ⟨m', a2, a3, -⟩ := (step_tr env hi op).mgr (List.getElem?_eq_getElem hlt)
    rw [h2] at a2; cases a2
    exact ⟨h1, _, List.getElem?_eq_getElem hlt, by rw [← a3.2.2.2]; exact h3, by rw [← a3.2.1]; exact h4⟩

/-- A style that is alive and belongs into a container was made for it. -/
theorem mem_everMade {env : Env} : ∀ (ops : List Op) {s : St}, Inv s → ∀ {i p : Nat} {c : Content},
    s.heap.length ≤ p → (run env ops s).heap[p]? = some c → (run env ops s).Alive p → Mounts (run env ops s) c i →
    c ∈ everMade env i ops s
  | [], s, _, i, p, c, hp, hc, _, _ => by
    have := heap_lt hc
    simp only [run] at this
    omega
  | op :: ops, s, hi, i, p, c, hp, hc, ha, hm => by
    classical
    have hi' := inv_step env op hi
    simp only [run] at hc ha hm
    rw [everMade, List.mem_append]
    by_cases hlt : p < (step env op s).1.heap.length
    · left
      obtain ⟨n, hh⟩ := heap_run env ops hi'
      have hc' : (step env op s).1.heap[p]? = some c := by
        rw [hh, List.getElem?_append_left hlt] at hc; exact hc
      have ha' : (step env op s).1.Alive p := alive_back env ops hi' hlt ha
      have hm' : Mounts (step env op s).1 c i := mounts_back env ops hi' (List.mem_of_getElem? hc') hm
      exact List.mem_map.2 ⟨(c, p), List.mem_filter.2 ⟨List.mem_zipIdx_iff_getElem?.2 hc', by simp [hp, ha', hm']⟩, rfl⟩
    · right
      exact mem_everMade ops hi' (by omega) hc ha hm

end Manager
