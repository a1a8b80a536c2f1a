import Verif.Spec.Page
import Verif.Proofs.Order

/-!
# All style elements of a container, in order
-/

namespace Manager

/-- A list of nodes is the list of the elements of `E` if it has exactly one node for each
of them, no other nodes, and every two of them are in the order of `E`. -/
theorem elements_eq : ∀ (E : List Content) (L : List Child), (E.map Content.id).Nodup →
    (∀ c ∈ E, withId c.id L = [c.element]) → (∀ x ∈ L, ∃ c ∈ E, x.styleId? = some c.id) →
    E.Pairwise (fun c c' => L.filter (fun x => x.styleId? = some c.id ∨ x.styleId? = some c'.id) =
      [c.element, c'.element]) → L = E.map Content.element
  | [], L, _, _, h, _ => by
    cases L with
    | nil => rfl
    | cons x L => obtain ⟨c, h1, -⟩ := h x (by simp); cases h1
  | c :: E, [], _, h, _, _ => by have := h c (by simp); cases this
  | c :: E, x :: L, hn, h1, h2, h3 => by
    simp only [List.map_cons, List.nodup_cons] at hn
    rw [List.pairwise_cons] at h3
    have hx : x = c.element := by
      obtain ⟨c', h4, h5⟩ := h2 x (by simp)
      rcases List.mem_cons.1 h4 with rfl | h4
      · have := h1 c' (by simp)
        rw [withId, List.filter_cons, if_pos (by simp [h5])] at this
        exact (List.cons.inj this).1
      · have := h3.1 c' h4
        rw [List.filter_cons, if_pos (by simp [h5])] at this
        exact (List.cons.inj this).1
    have hxi : x.styleId? = some c.id := by rw [hx]; rfl
    have hne : ∀ c' ∈ E, c'.id ≠ c.id := fun c' h h' => hn.1 (h' ▸ List.mem_map_of_mem h)
    have hno : ∀ y ∈ L, y.styleId? ≠ some c.id := by
      have := h1 c (by simp)
      rw [withId, List.filter_cons, if_pos (by simp [hxi])] at this
      have := (List.cons.inj this).2
      rw [List.filter_eq_nil_iff] at this
      simpa using this
    rw [List.map_cons, ← hx]
    congr 1
    refine elements_eq E L hn.2 ?_ ?_ ?_
    · intro c' hc'
      have := h1 c' (by simp [hc'])
      rw [withId, List.filter_cons, if_neg (by rw [hxi]; simpa using (hne c' hc').symm)] at this
      exact this
    · intro y hy
      obtain ⟨c', h4, h5⟩ := h2 y (by simp [hy])
      rcases List.mem_cons.1 h4 with rfl | h4
      · exact absurd h5 (hno y hy)
      · exact ⟨c', h4, h5⟩
    · refine h3.2.imp_of_mem ?_
      intro a b ha hb h
      rw [List.filter_cons, if_neg (by rw [hxi]; simpa using ⟨(hne a ha).symm, (hne b hb).symm⟩)] at h
      exact h

theorem mem_living {s : St} {i : Nat} {c : Content} :
    c ∈ living s i ↔ ∃ p, s.heap[p]? = some c ∧ s.Alive p ∧ Mounts s c i := by
  simp only [living, List.mem_filterMap, List.mem_range, Option.filter_eq_some_iff, decide_eq_true_eq]
  constructor
  · rintro ⟨p, -, h⟩; exact ⟨p, h⟩
  · rintro ⟨p, h⟩; exact ⟨p, (List.getElem?_eq_some_iff.1 h.1).1, h⟩

/-- The order of `living`. -/
theorem living_pairwise (s : St) (i : Nat) : (living s i).Pairwise (fun c c' => ∃ (p q : Nat), p < q ∧
    s.heap[p]? = some c ∧ s.heap[q]? = some c' ∧ s.Alive p ∧ s.Alive q ∧ Mounts s c i ∧ Mounts s c' i) := by
  rw [living, List.pairwise_filterMap]
  refine List.pairwise_lt_range.imp ?_
  intro p q hpq c hc c' hc'
  simp only [Option.filter_eq_some_iff, decide_eq_true_eq] at hc hc'
  exact ⟨p, q, hpq, hc.1, hc'.1, hc.2.1, hc'.2.1, hc.2.2, hc'.2.2⟩

theorem living_nodup {s : St} (hn : (s.heap.map Content.id).Nodup) (i : Nat) :
    ((living s i).map Content.id).Nodup := by
  rw [List.Nodup, List.pairwise_map]
  refine (living_pairwise s i).imp ?_
  rintro c c' ⟨p, q, h, h1, h2, -⟩ h3
  exact id_ne hn h1 h2 (by omega) h3.symm

theorem filter_withId {P : Child → Bool} {L : List Child} {id : Str}
    (h : ∀ x ∈ L, x.styleId? = some id → P x = true) : withId id (L.filter P) = withId id L := by
  rw [withId, List.filter_filter]
  apply List.filter_congr
  intro x hx
  by_cases hi : x.styleId? = some id
  · simp [hi, h x hx hi]
  · simp [hi]

/-- The nodes in two attached containers are different nodes of the document. -/
theorem flatMap_two {α β : Type} (f : α → List β) : ∀ (l : List α) (i j : Nat) (a b : α), i ≠ j → l[i]? = some a →
    l[j]? = some b → (f a).length + (f b).length ≤ (l.flatMap f).length
  | [], i, _, _, _, _, h, _ => by simp at h
  | x :: l, 0, 0, _, _, h, _, _ => absurd rfl h
  | x :: l, 0, j + 1, a, b, _, h1, h2 => by
    simp only [List.getElem?_cons_zero, Option.some.injEq] at h1
    subst h1
    rw [List.getElem?_cons_succ] at h2
    have : (f b).length ≤ (l.flatMap f).length := by
      have hm := List.mem_of_getElem? h2
      clear h2
      induction l with
      | nil => cases hm
      | cons y l ih =>
        rcases List.mem_cons.1 hm with rfl | hm
        · simp
        · have := ih hm; simp; simp at this; omega
    rw [List.flatMap_cons, List.length_append]
    omega
  | x :: l, i + 1, 0, a, b, _, h1, h2 => by
    have := flatMap_two f (x :: l) 0 (i + 1) b a (by omega) h2 h1
    omega
  | x :: l, i + 1, j + 1, a, b, h, h1, h2 => by
    have := flatMap_two f l i j a b (by omega) (by simpa using h1) (by simpa using h2)
    rw [List.flatMap_cons, List.length_append]
    omega
termination_by l i => (l.length, i)

theorem withId_two {d : Dom} {i j : Nat} (hij : i ≠ j) (hi : Attached d i) (hj : Attached d j) (id : Str) :
    (withId id (d.childrenOf i)).length + (withId id (d.childrenOf j)).length ≤ (withId id d.inDoc).length := by
  obtain ⟨ci, h1, h2⟩ := hi
  obtain ⟨cj, h3, h4⟩ := hj
  have a1 : (styles d)[i]? = some (ci.attached, ci.children.filter Child.isStyle) := by simp [styles, h1]
  have a2 : (styles d)[j]? = some (cj.attached, cj.children.filter Child.isStyle) := by simp [styles, h3]
  have := flatMap_two (fun x => if x.1 then withId id x.2 else []) (styles d) i j _ _ hij a1 a2
  rw [withId_inDoc]
  simpa [Dom.childrenOf, h1, h3, h2, h4, withId_isStyle] using this

end Manager
