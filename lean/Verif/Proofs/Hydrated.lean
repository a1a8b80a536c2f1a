import Verif.Spec.Hydrated
import Verif.Proofs.WholePage
import Verif.Proofs.Order

/-!
# Pages that come from a server

Lemmas for C92.
-/

namespace Manager

/-! ## Lists -/

theorem filter_eq_of_sublist {α : Type} {l' l : List α} (h : l'.Sublist l) (hn : l.Nodup) (P : α → Bool)
    (hP : ∀ x ∈ l, P x = true ↔ x ∈ l') : l' = l.filter P := by
  induction h with
  | slnil => rfl
  | cons a h ih =>
    rw [List.nodup_cons] at hn
    have hna : P a = false := by
      cases hp : P a with
      | false => rfl
      | true => exact absurd (h.subset ((hP a (by simp)).1 hp)) hn.1
    rw [List.filter_cons_of_neg (by simp [hna])]
    exact ih hn.2 (fun x hx => hP x (by simp [hx]))
  | cons_cons a h ih =>
    rw [List.nodup_cons] at hn
    rw [List.filter_cons_of_pos ((hP a (by simp)).2 (by simp))]
    congr 1
    refine ih hn.2 (fun x hx => (hP x (by simp [hx])).trans ?_)
    constructor
    · intro h
      rcases List.mem_cons.1 h with rfl | h
      · exact absurd hx hn.1
      · exact h
    · intro h; exact List.mem_cons_of_mem _ h

theorem filterMap_range {α : Type} (l : List α) : (List.range l.length).filterMap (fun p => l[p]?) = l := by
  have : ∀ n, n ≤ l.length → (List.range n).filterMap (fun p => l[p]?) = l.take n := by
    intro n
    induction n with
    | zero => simp
    | succ n ih =>
      intro hn
      rw [List.range_succ, List.filterMap_append, ih (by omega), List.take_add_one]
      simp [List.getElem?_eq_getElem (show n < l.length by omega)]
  rw [this _ (Nat.le_refl _), List.take_length]

theorem filterMap_sublist {α β : Type} (f g : α → Option β) : ∀ l : List α, (∀ x ∈ l, ∀ y, f x = some y → g x = some y) →
    (l.filterMap f).Sublist (l.filterMap g)
  | [], _ => .slnil
  | x :: l, h => by
    have ih := filterMap_sublist f g l (fun x hx => h x (by simp [hx]))
    rw [List.filterMap_cons, List.filterMap_cons]
    cases hf : f x with
    | none =>
      cases hg : g x with
      | none => exact ih
      | some z => exact ih.cons _
    | some y =>
      rw [h x (by simp) y hf]
      exact ih.cons_cons _

theorem living_sublist (s : St) (i : Nat) : (living s i).Sublist s.heap := by
  have h : (living s i).Sublist ((List.range s.heap.length).filterMap (fun p => s.heap[p]?)) := by
    refine filterMap_sublist _ _ _ ?_
    intro p _ c hc
    exact (Option.filter_eq_some_iff.1 hc).1
  rwa [filterMap_range] at h

/-! ## Nothing but the original and the mounted elements -/

theorem removeAt_sublist : ∀ (d : Dom) (n i : Nat), ((d.removeAt n).childrenOf i).Sublist (d.childrenOf i)
  | [], n, i => by simp [Dom.removeAt]
  | c :: cs, n, i => by
    have e0 : ∀ (c : Container) (cs : Dom), Dom.childrenOf (c :: cs) 0 = c.children := fun _ _ => rfl
    have e1 : ∀ (c : Container) (cs : Dom) (k : Nat), Dom.childrenOf (c :: cs) (k + 1) = Dom.childrenOf cs k :=
      fun _ _ _ => by simp [Dom.childrenOf]
    rw [Dom.removeAt]
    split
    · split
      · cases i with
        | zero => rw [e0, e0]; exact List.eraseIdx_sublist ..
        | succ i => rw [e1, e1]; exact List.Sublist.refl _
      · cases i with
        | zero => rw [e0, e0]; exact List.Sublist.refl _
        | succ i => rw [e1, e1]; exact removeAt_sublist cs _ i
    · cases i with
      | zero => rw [e0, e0]; exact List.Sublist.refl _
      | succ i => rw [e1, e1]; exact removeAt_sublist cs _ i

theorem unmount_sublist (env : Env) (id : Str) (d : Dom) (i : Nat) :
    ((unmount env id d).childrenOf i).Sublist (d.childrenOf i) := by
  unfold unmount
  split
  · split
    · exact removeAt_sublist d _ i
    · exact List.Sublist.refl _
  · exact List.Sublist.refl _

theorem unmountAll_sublist (env : Env) (heap : List Content) : ∀ (qs : List Nat) (d : Dom) (i : Nat),
    ((unmountAll env heap qs d).childrenOf i).Sublist (d.childrenOf i)
  | [], d, i => List.Sublist.refl _
  | q :: qs, d, i => by
    rw [unmountAll]
    refine (unmountAll_sublist env heap qs _ i).trans ?_
    split
    · exact unmount_sublist env _ d i
    · exact List.Sublist.refl _

open Classical in
/-- The styles that put their elements into container `i`. -/
noncomputable def mounting (s : St) (i : Nat) (cs : List Content) : List Content :=
  cs.filter (fun c => decide (Mounts s c i))

theorem mounting_append (s : St) (i : Nat) (a b : List Content) :
    mounting s i (a ++ b) = mounting s i a ++ mounting s i b := List.filter_append ..

/-- The style elements of a container are some of the original ones and of those that were
mounted, in this order. -/
def SubInv (d : Dom) (s : St) : Prop :=
  ∀ i, ((s.dom.childrenOf i).filter Child.isStyle).Sublist
    ((d.childrenOf i).filter Child.isStyle ++ (mounting s i s.heap).map Content.element)

theorem SubInv.init (d : Dom) : SubInv d (St.init d) := by
  intro i
  simp [St.init, mounting]

theorem SubInv.step {env : Env} (hw : env.wasm = true) {d : Dom} {op : Op} {s s' : St} {out : Out}
    (ht : Tr env op s s' out) (hi : Inv s) (h : SubInv d s) : SubInv d s' := by
  have heff := ht.eff hi
  have hMo : ∀ (i : Nat), mounting s' i s.heap = mounting s i s.heap := by
    intro i
    apply List.filter_congr
    intro c hc
    rw [decide_eq_decide]
    have hlt := hi.contentMgr c hc
    obtain ⟨m', a2, a3, -⟩ := ht.mgr (List.getElem?_eq_getElem hlt)
    constructor
    · rintro ⟨h1, m, h2, h3, h4⟩
      rw [h2] at a2; cases a2
      exact ⟨h1, _, List.getElem?_eq_getElem hlt, by rw [← a3.2.2.2]; exact h3, by rw [← a3.2.1]; exact h4⟩
    · rintro ⟨h1, m, h2, h3, h4⟩
      rw [List.getElem?_eq_getElem hlt] at h2; cases h2
      exact ⟨h1, m', a2, by rw [a3.2.2.2]; exact h3, by rw [a3.2.1]; exact h4⟩
  have grow : ∀ (i : Nat) (news : List Content) (L : List Child), s'.heap = s.heap ++ news →
      L.Sublist ((d.childrenOf i).filter Child.isStyle ++ (mounting s i s.heap).map Content.element) →
      L.Sublist ((d.childrenOf i).filter Child.isStyle ++ (mounting s' i s'.heap).map Content.element) := by
    intro i news L hh hL
    rw [hh, mounting_append, hMo, List.map_append, ← List.append_assoc]
    exact hL.trans (List.sublist_append_left _ _)
  intro i
  cases heff with
  | quiet news hh hd hal hnew hkind =>
    refine grow i news _ hh ?_
    rw [childrenOf_styles, hd, ← childrenOf_styles]
    exact h i
  | mounted c0 m hh hor hmm hlg hdom _ hal hnew =>
    obtain ⟨i0, hi0, hd⟩ := hdom hw
    by_cases hlt : i0 < s.dom.length
    · rw [hd, Dom.appendChild, childrenOf_setChildren _ _ _ _ hlt]
      split
      · rename_i e
        subst e
        have hm0 : Mounts s' c0 i0 := by
          obtain ⟨m', h1, h2, -⟩ := ht.mgr hmm
          exact ⟨hor, m', h1, by rw [h2.2.2.2]; exact hlg, by rw [h2.2.1]; exact hi0⟩
        rw [hh, mounting_append, hMo, List.filter_append, List.map_append, ← List.append_assoc]
        refine (h i0).append ?_
        simp [mounting, hm0, Content.element]
      · exact grow i [c0] _ hh (h i)
    · have : s.dom.appendChild i0 (.style c0.id c0.text) = s.dom := by
        rw [Dom.appendChild, Dom.setChildren, List.modify_eq_self (by omega)]
      rw [hd, this]
      exact grow i [c0] _ hh (h i)
  | failed c0 hh hor hd hal hnew =>
    refine grow i [c0] _ hh ?_
    rw [hd]
    exact ((unmount_sublist env _ _ i).filter _).trans (h i)
  | dropped qs hh hq hqs hal hd =>
    refine grow i [] _ (by simp [hh]) ?_
    rw [hd]
    exact ((unmountAll_sublist env _ _ _ i).filter _).trans (h i)

theorem SubInv.run {env : Env} (hw : env.wasm = true) {d : Dom} : ∀ (ops : List Op) {s : St}, Inv s → SubInv d s →
    SubInv d (Manager.run env ops s)
  | [], _, _, h => h
  | op :: ops, _, hi, h => SubInv.run hw ops (inv_step env op hi) (h.step hw (step_tr env hi op) hi)

/-! ## Ids of loaded styles -/

/-- The ids that a history loads. -/
def loadedIds : List Op → List Str
  | [] => []
  | .load _ data :: ops => data.map Entry.id ++ loadedIds ops
  | _ :: ops => loadedIds ops

theorem LoadRun.sublist {i : Nat} {es : List Entry} {s s' : St} {r : Res Unit} (h : LoadRun i es s s' r) :
    ∃ es' : List Entry, es'.Sublist es ∧ s'.heap = s.heap ++ es'.map (loadedContent i) := by
  induction h with
  | nil s => exact ⟨[], .slnil, by simp⟩
  | same e es s s' r m p c _ _ _ _ _ ih =>
    obtain ⟨es', h1, h2⟩ := ih
    exact ⟨es', h1.cons _, h2⟩
  | conflict e es s m p c _ _ _ _ => exact ⟨[], List.nil_sublist _, by simp⟩
  | fresh e es s s' r m hm hg hrun ih =>
    obtain ⟨es', h1, h2⟩ := ih
    exact ⟨e :: es', h1.cons_cons _, by
      rw [h2]
      show (s.heap ++ [loadedContent i e]) ++ _ = _
      simp⟩

/-- The loaded contents. -/
def hydratedIds (heap : List Content) : List Str := (heap.filter (fun c => c.origin = .hydrated)).map Content.id

theorem hydratedIds_step {env : Env} {op : Op} {s s' : St} {out : Out} (h : Tr env op s s' out) (ops : List Op) :
    (hydratedIds s'.heap ++ loadedIds ops).Sublist (hydratedIds s.heap ++ loadedIds (op :: ops)) := by
  have hl : (loadedIds ops).Sublist (loadedIds (op :: ops)) := by
    cases op <;> simp [loadedIds]
  rcases h.newContents with ⟨h1, -⟩ | ⟨i, key, h1, -⟩ | ⟨i, data, r, ⟨mh, h0⟩, hr, -⟩
  · rw [h1]
    exact (List.Sublist.refl _).append hl
  · rw [h1]
    refine List.Sublist.append ?_ hl
    simp [hydratedIds, newContent]
  · obtain ⟨es', h2, h3⟩ := hr.sublist
    rw [h3, h0, loadedIds, ← List.append_assoc]
    refine List.Sublist.append ?_ (List.Sublist.refl _)
    rw [hydratedIds, List.filter_append, List.map_append]
    refine (List.Sublist.refl _).append ?_
    have : (es'.map (loadedContent i)).filter (fun c => decide (c.origin = .hydrated)) = es'.map (loadedContent i) := by
      rw [List.filter_eq_self]
      intro c hc
      obtain ⟨e, -, rfl⟩ := List.mem_map.1 hc
      simp [loadedContent]
    rw [this, List.map_map]
    exact h2.map _

theorem hydratedIds_run (env : Env) : ∀ (ops : List Op) {s : St}, Inv s →
    (hydratedIds (run env ops s).heap).Sublist (hydratedIds s.heap ++ loadedIds ops)
  | [], s, _ => by simp [loadedIds, run]
  | op :: ops, s, hi =>
    (hydratedIds_run env ops (inv_step env op hi)).trans (hydratedIds_step (step_tr env hi op) ops)

/-- The ids of the heap are distinct if those of created styles are, those of loaded ones
are, and no created style has the id of a loaded one. -/
theorem heap_nodup (heap : List Content)
    (h1 : ((heap.filter (fun c => c.origin = .created)).map Content.id).Nodup)
    (h2 : (hydratedIds heap).Nodup)
    (h3 : ∀ c ∈ heap, ∀ c' ∈ heap, c.origin = .created → c'.origin = .hydrated → c.id ≠ c'.id) :
    (heap.map Content.id).Nodup := by
  induction heap with
  | nil => simp
  | cons c heap ih =>
    rw [List.map_cons, List.nodup_cons]
    have hsub : ∀ P : Content → Bool, (heap.filter P).Sublist ((c :: heap).filter P) :=
      fun P => (List.sublist_cons_self c heap).filter P
    refine ⟨?_, ih (h1.sublist ((hsub _).map _)) (h2.sublist ((hsub _).map _))
      (fun a ha b hb => h3 a (by simp [ha]) b (by simp [hb]))⟩
    intro hm
    obtain ⟨c', hc', he⟩ := List.mem_map.1 hm
    cases ho : c.origin with
    | created =>
      cases ho' : c'.origin with
      | created =>
        rw [List.filter_cons_of_pos (by simp [ho]), List.map_cons, List.nodup_cons] at h1
        exact h1.1 (he ▸ List.mem_map.2 ⟨c', List.mem_filter.2 ⟨hc', by simp [ho']⟩, rfl⟩)
      | hydrated => exact h3 c (by simp) c' (by simp [hc']) ho ho' he.symm
    | hydrated =>
      cases ho' : c'.origin with
      | created => exact h3 c' (by simp [hc']) c (by simp) ho' ho he
      | hydrated =>
        rw [hydratedIds, List.filter_cons_of_pos (by simp [ho]), List.map_cons, List.nodup_cons] at h2
        exact h2.1 (he ▸ List.mem_map.2 ⟨c', List.mem_filter.2 ⟨hc', by simp [ho']⟩, rfl⟩)

/-! ## Membership -/

theorem inDoc_flatMap : ∀ d : Dom, d.inDoc = d.flatMap (fun c => if c.attached then c.children else [])
  | [] => rfl
  | c :: cs => by rw [Dom.inDoc, List.flatMap_cons, ← inDoc_flatMap cs]

theorem mem_inDoc {d : Dom} {x : Child} (h : x ∈ d.inDoc) : ∃ j, Attached d j ∧ x ∈ d.childrenOf j := by
  rw [inDoc_flatMap, List.mem_flatMap] at h
  obtain ⟨ct, h1, h2⟩ := h
  obtain ⟨j, hj⟩ := List.getElem?_of_mem h1
  split at h2
  · rename_i ha
    exact ⟨j, ⟨ct, hj, ha⟩, by simpa [Dom.childrenOf, hj] using h2⟩
  · cases h2

theorem styles_nodup {d : Dom} {i : Nat} (ha : Attached d i) (hu : ∀ id, (withId id d.inDoc).length ≤ 1) :
    ((d.childrenOf i).filter Child.isStyle).Nodup := by
  have h1 : ∀ id, (withId id (d.childrenOf i)).length ≤ 1 := by
    intro id
    obtain ⟨ct, h1, h2⟩ := ha
    refine Nat.le_trans ?_ (hu id)
    have hm : ct ∈ d := List.mem_of_getElem? h1
    have hsub : (d.childrenOf i).Sublist d.inDoc := by
      rw [inDoc_flatMap, Dom.childrenOf, h1]
      have := List.sublist_flatten_of_mem (List.mem_map_of_mem
        (f := fun c : Container => if c.attached then c.children else []) hm)
      simpa [h2, List.flatMap] using this
    exact (hsub.filter _).length_le
  generalize d.childrenOf i = L at h1
  induction L with
  | nil => simp
  | cons x L ih =>
    have ih' := ih (fun id => Nat.le_trans ((List.sublist_cons_self x L).filter _).length_le (h1 id))
    cases x with
    | other n => exact ih'
    | style id t =>
      rw [List.filter_cons_of_pos rfl, List.nodup_cons]
      refine ⟨fun hm => ?_, ih'⟩
      have h2 := h1 id
      rw [withId, List.filter_cons_of_pos (by simp [Child.styleId?])] at h2
      have : Child.style id t ∈ withId id L :=
        List.mem_filter.2 ⟨(List.mem_filter.1 hm).1, by simp [Child.styleId?]⟩
      have := List.length_pos_of_mem this
      rw [withId] at this
      simp only [List.length_cons] at h2
      omega

end Manager
