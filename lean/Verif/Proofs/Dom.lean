import Verif.Proofs.Manager
import Verif.Spec.Manager

/-!
# What an operation does to the page
-/

namespace Manager

/-! ## Pages -/

/-- The style elements of each container. -/
def styles (d : Dom) : List (Bool × List Child) :=
  d.map (fun c => (c.attached, c.children.filter Child.isStyle))

theorem withId_isStyle (id : Str) (l : List Child) : withId id (l.filter Child.isStyle) = withId id l := by
  simp only [withId, List.filter_filter]
  apply List.filter_congr
  intro c _
  cases c <;> simp [Child.styleId?, Child.isStyle]

theorem childrenOf_styles (d : Dom) (i : Nat) :
    (d.childrenOf i).filter Child.isStyle = (((styles d)[i]?).map Prod.snd).getD [] := by
  simp only [Dom.childrenOf, styles, List.getElem?_map]
  cases d[i]? <;> rfl

theorem withId_inDoc (id : Str) : ∀ d : Dom, withId id d.inDoc =
    (styles d).flatMap (fun x => if x.1 then withId id x.2 else [])
  | [] => rfl
  | c :: cs => by
    have ih := withId_inDoc id cs
    simp only [Dom.inDoc, styles, List.map_cons, List.flatMap_cons] at ih ⊢
    rw [withId, List.filter_append]
    simp only [withId] at ih
    rw [ih]
    congr 1
    by_cases h : c.attached <;> simp [h]
    exact (withId_isStyle id c.children).symm

theorem withId_childrenOf (id : Str) (d : Dom) (i : Nat) : withId id (d.childrenOf i) =
    withId id ((((styles d)[i]?).map Prod.snd).getD []) := by
  rw [← childrenOf_styles, withId_isStyle]

theorem styles_setChildren (d : Dom) (i : Nat) (ch : List Child) :
    styles (d.setChildren i ch) = (styles d).modify i (fun x => (x.1, ch.filter Child.isStyle)) := by
  simp only [styles, Dom.setChildren]
  apply List.ext_getElem?
  intro j
  simp only [List.getElem?_map, List.getElem?_modify]
  by_cases h : i = j
  · subst h; cases d[i]? <;> simp
  · cases d[j]? <;> simp [h]

theorem childrenOf_setChildren (d : Dom) (i : Nat) (ch : List Child) (j : Nat) (hi : i < d.length) :
    (d.setChildren i ch).childrenOf j = if i = j then ch else d.childrenOf j := by
  simp only [Dom.childrenOf, Dom.setChildren, List.getElem?_modify]
  by_cases h : i = j
  · subst h
    simp [List.getElem?_eq_getElem hi]
  · cases d[j]? <;> simp [h]

/-- Removing a node: it is one child of one attached container. -/
theorem removeAt_eq : ∀ (d : Dom) (n : Nat) (x : Child), d.inDoc[n]? = some x →
    ∃ j k, ∃ ct : Container, d[j]? = some ct ∧ ct.attached = true ∧ ct.children[k]? = some x ∧
      d.removeAt n = d.setChildren j (ct.children.eraseIdx k)
  | [], n, x, h => by simp [Dom.inDoc] at h
  | c :: cs, n, x, h => by
    simp only [Dom.inDoc] at h
    by_cases ha : c.attached = true
    · simp only [ha, if_true] at h
      by_cases hn : n < c.children.length
      · rw [List.getElem?_append_left hn] at h
        refine ⟨0, n, c, rfl, ha, h, ?_⟩
        simp [Dom.removeAt, ha, hn, Dom.setChildren]
      · rw [List.getElem?_append_right (by omega)] at h
        obtain ⟨j, k, ct, h1, h2, h3, h4⟩ := removeAt_eq cs _ x h
        refine ⟨j + 1, k, ct, by simpa using h1, h2, h3, ?_⟩
        simp [Dom.removeAt, ha, hn, Dom.setChildren] at h4 ⊢
        exact h4
    · simp only [ha] at h
      simp only [Bool.false_eq_true, if_false, List.nil_append] at h
      obtain ⟨j, k, ct, h1, h2, h3, h4⟩ := removeAt_eq cs n x h
      refine ⟨j + 1, k, ct, by simpa using h1, h2, h3, ?_⟩
      simp [Dom.removeAt, ha, Dom.setChildren] at h4 ⊢
      exact h4

theorem inDoc_removeAt : ∀ (d : Dom) (n : Nat), (d.removeAt n).inDoc = d.inDoc.eraseIdx n
  | [], n => by simp [Dom.removeAt, Dom.inDoc]
  | c :: cs, n => by
    simp only [Dom.removeAt]
    by_cases ha : c.attached = true
    · simp only [ha, if_true]
      by_cases hn : n < c.children.length
      · simp only [hn, if_true, Dom.inDoc, ha]
        rw [List.eraseIdx_append_of_lt_length hn]
      · simp only [hn, if_false, Dom.inDoc, ha, if_true]
        rw [List.eraseIdx_append_of_length_le (by omega), inDoc_removeAt cs]
    · simp [ha, Dom.inDoc, inDoc_removeAt cs]

theorem filter_eraseIdx_of_not {α : Type} (P : α → Bool) : ∀ (l : List α) (n : Nat),
    (∀ x, l[n]? = some x → P x = false) → (l.eraseIdx n).filter P = l.filter P
  | [], _, _ => by simp
  | a :: l, 0, h => by
    have := h a rfl
    simp [this]
  | a :: l, n + 1, h => by
    have ih := filter_eraseIdx_of_not P l n (fun x hx => h x (by simpa using hx))
    simp only [List.eraseIdx_cons_succ, List.filter_cons, ih]

theorem filter_eraseIdx_first {α : Type} (P : α → Bool) : ∀ (l : List α) (n : Nat),
    l.findIdx? P = some n → (l.eraseIdx n).filter P = (l.filter P).tail
  | [], _, h => by simp at h
  | a :: l, n, h => by
    rw [List.findIdx?_cons] at h
    by_cases ha : P a = true
    · simp only [ha, if_true, Option.some.injEq] at h
      subst h
      simp [ha]
    · simp only [ha] at h
      simp only [Bool.false_eq_true, if_false, Option.map_eq_some_iff] at h
      obtain ⟨m, hm, rfl⟩ := h
      have ih := filter_eraseIdx_first P l m hm
      simp only [List.eraseIdx_cons_succ, List.filter_cons, ha]
      simpa using ih

/-- Unmounting a proper id: nothing (if there is no such element), or the removal of
one element with this id. -/
theorem unmount_cases (env : Env) {id : Str} (hid : cssIdent id = true) (d : Dom) :
    (unmount env id d = d ∧ (env.wasm = true → withId id d.inDoc = [])) ∨
    (env.wasm = true ∧ ∃ (n j k : Nat) (ct : Container) (t : Str), unmount env id d = d.removeAt n ∧
      d.inDoc.findIdx? (fun c => c.styleId? = some id) = some n ∧
      d[j]? = some ct ∧ ct.attached = true ∧ ct.children[k]? = some (.style id t) ∧
      d.removeAt n = d.setChildren j (ct.children.eraseIdx k)) := by
  simp only [unmount, query, hid, if_true]
  by_cases hw : env.wasm = true
  · simp only [hw, if_true]
    cases hf : d.inDoc.findIdx? (fun c => decide (c.styleId? = some id)) with
    | none =>
      refine Or.inl ⟨rfl, fun _ => ?_⟩
      rw [List.findIdx?_eq_none_iff] at hf
      exact List.filter_eq_nil_iff.2 (fun a ha => by simpa using hf a ha)
    | some n =>
      refine Or.inr ⟨trivial, ?_⟩
      have h1 := hf
      rw [List.findIdx?_eq_some_iff_getElem] at h1
      obtain ⟨hn, h2, -⟩ := h1
      have hx : d.inDoc[n]? = some d.inDoc[n] := List.getElem?_eq_getElem hn
      obtain ⟨j, k, ct, a1, a2, a3, a4⟩ := removeAt_eq d n _ hx
      simp only [decide_eq_true_eq] at h2
      generalize d.inDoc[n] = x at h2 a3
      cases x with
      | other => cases h2
      | style id' t =>
        simp only [Child.styleId?, Option.some.injEq] at h2
        subst h2
        exact ⟨n, j, k, ct, t, rfl, rfl, a1, a2, a3, a4⟩
  · exact Or.inl ⟨by simp [hw], fun h => absurd h hw⟩

/-- Unmounting one id does not affect the elements with another. -/
theorem unmount_other (env : Env) {id id' : Str} (hid : cssIdent id' = true) (hne : id' ≠ id) (d : Dom) :
    withId id (unmount env id' d).inDoc = withId id d.inDoc ∧
    ∀ i, withId id ((unmount env id' d).childrenOf i) = withId id (d.childrenOf i) := by
  rcases unmount_cases env hid d with ⟨h, -⟩ | ⟨-, n, j, k, ct, t, h1, h2, h3, h4, h5, h6⟩
  · rw [h]; exact ⟨rfl, fun _ => rfl⟩
  · have hj : j < d.length := (List.getElem?_eq_some_iff.1 h3).1
    have hck : withId id (ct.children.eraseIdx k) = withId id ct.children := by
      apply filter_eraseIdx_of_not
      intro x hx
      rw [h5] at hx
      cases hx
      simp [Child.styleId?, hne]
    constructor
    · rw [h1, inDoc_removeAt]
      apply filter_eraseIdx_of_not
      intro x hx
      have := List.findIdx?_eq_some_iff_getElem.1 h2
      obtain ⟨hn, h7, -⟩ := this
      rw [List.getElem?_eq_getElem hn] at hx
      simp only [Option.some.injEq] at hx
      rw [hx] at h7
      simp only [decide_eq_true_eq] at h7
      simp [h7, hne]
    · intro i
      rw [h1, h6, childrenOf_setChildren _ _ _ _ hj]
      split
      · rename_i hij
        subst hij
        rw [hck]
        simp [Dom.childrenOf, h3]
      · rfl

/-- Unmounting an id removes one element with this id, if there is one. -/
theorem unmount_self (env : Env) (hw : env.wasm = true) {id : Str} (hid : cssIdent id = true) (d : Dom) :
    withId id (unmount env id d).inDoc = (withId id d.inDoc).tail := by
  rcases unmount_cases env hid d with ⟨h, h'⟩ | ⟨-, n, j, k, ct, t, h1, h2, -⟩
  · rw [h, h' hw]; rfl
  · rw [h1, inDoc_removeAt]
    exact filter_eraseIdx_first _ _ _ h2

theorem attached_removeAt : ∀ (d : Dom) (n : Nat), (d.removeAt n).map Container.attached = d.map Container.attached
  | [], _ => rfl
  | c :: cs, n => by
    simp only [Dom.removeAt]
    split
    · split
      · rfl
      · simp [attached_removeAt cs]
    · simp [attached_removeAt cs]

theorem attached_unmount (env : Env) (id : Str) (d : Dom) :
    (unmount env id d).map Container.attached = d.map Container.attached := by
  simp only [unmount]
  split
  · split
    · exact attached_removeAt _ _
    · rfl
  · rfl

theorem attached_setChildren (d : Dom) (i : Nat) (ch : List Child) :
    (d.setChildren i ch).map Container.attached = d.map Container.attached := by
  apply List.ext_getElem?
  intro j
  simp only [Dom.setChildren, List.getElem?_map, List.getElem?_modify]
  cases d[j]? with
  | none => rfl
  | some a => by_cases h : i = j <;> simp [h]

theorem flatMap_modify_nil {α β : Type} (f : α → List β) : ∀ (l : List α) (i : Nat) (g : α → α) (a : α),
    l[i]? = some a → l.flatMap f = [] → (l.modify i g).flatMap f = f (g a)
  | [], i, g, a, h, _ => by simp at h
  | x :: xs, 0, g, a, h, hn => by
    simp only [List.getElem?_cons_zero, Option.some.injEq] at h
    subst h
    simp only [List.flatMap_cons, List.append_eq_nil_iff] at hn
    simp [hn.2]
  | x :: xs, i + 1, g, a, h, hn => by
    simp only [List.getElem?_cons_succ] at h
    simp only [List.flatMap_cons, List.append_eq_nil_iff] at hn
    simp [hn.1, flatMap_modify_nil f xs i g a h hn.2]

/-- Appending an element. -/
theorem append_self {d : Dom} {i : Nat} {ct : Container} (hc : d[i]? = some ct) (ha : ct.attached = true)
    {id t : Str} (hn : withId id d.inDoc = []) :
    withId id (d.appendChild i (.style id t)).inDoc = [.style id t] ∧
    withId id ((d.appendChild i (.style id t)).childrenOf i) = [.style id t] := by
  have hd : d.childrenOf i = ct.children := by simp [Dom.childrenOf, hc]
  have hlt : i < d.length := (List.getElem?_eq_some_iff.1 hc).1
  have hs : (styles d)[i]? = some (ct.attached, ct.children.filter Child.isStyle) := by
    simp [styles, hc]
  rw [withId_inDoc] at hn
  have hz : withId id ct.children = [] := by
    have := List.flatMap_eq_nil_iff.1 hn _ (List.mem_of_getElem? hs)
    simpa [ha, withId_isStyle] using this
  have happ : withId id (ct.children ++ [.style id t]) = [.style id t] := by
    simp only [withId, List.filter_append] at hz ⊢
    rw [hz]; simp [Child.styleId?]
  constructor
  · rw [withId_inDoc, Dom.appendChild, styles_setChildren, hd,
      flatMap_modify_nil _ _ _ _ _ hs hn]
    simp only [ha, if_true]
    rw [withId_isStyle]; exact happ
  · rw [Dom.appendChild, childrenOf_setChildren _ _ _ _ hlt, hd]
    simpa using happ

theorem append_other (d : Dom) (i : Nat) {id id' t : Str} (hne : id' ≠ id) :
    withId id (d.appendChild i (.style id' t)).inDoc = withId id d.inDoc ∧
    ∀ j, withId id ((d.appendChild i (.style id' t)).childrenOf j) = withId id (d.childrenOf j) := by
  have key : (styles (d.appendChild i (.style id' t))).map (fun x => (x.1, withId id x.2)) =
      (styles d).map (fun x => (x.1, withId id x.2)) := by
    rw [Dom.appendChild, styles_setChildren]
    apply List.ext_getElem?
    intro j
    simp only [List.getElem?_map, List.getElem?_modify]
    by_cases h : i = j
    · subst h
      have : (styles d)[i]? = (d[i]?).map (fun c => (c.attached, c.children.filter Child.isStyle)) := by
        simp [styles]
      rw [this]
      cases hc : d[i]? with
      | none => rfl
      | some c =>
        simp only [Option.map_some, Option.map_eq_map, if_true, Dom.childrenOf, hc]
        rw [withId_isStyle, withId_isStyle]
        simp [withId, List.filter_append, Child.styleId?, hne]
    · cases (styles d)[j]? <;> simp [h]
  constructor
  · rw [withId_inDoc, withId_inDoc]
    have h1 : ∀ l : List (Bool × List Child), l.flatMap (fun x => if x.1 then withId id x.2 else []) =
        (l.map (fun x => (x.1, withId id x.2))).flatMap (fun x => if x.1 then x.2 else []) := by
      intro l; rw [List.flatMap_map]
    rw [h1, h1, key]
  · intro j
    rw [withId_childrenOf, withId_childrenOf]
    have h2 : ∀ l : List (Bool × List Child), withId id (((l[j]?).map Prod.snd).getD []) =
        ((((l.map (fun x => (x.1, withId id x.2)))[j]?).map Prod.snd).getD []) := by
      intro l
      simp only [List.getElem?_map]
      cases l[j]? <;> simp [withId]
    rw [h2, h2, key]

theorem page_same {d : Dom} {i : Nat} {ch : List Child}
    (h : (d.childrenOf i).filter Child.isStyle = ch.filter Child.isStyle) :
    styles (d.setChildren i ch) = styles d := by
  rw [styles_setChildren, modify_self]
  intro a ha
  rw [childrenOf_styles, ha] at h
  simp only [Option.map_some, Option.getD_some] at h
  rw [← h]

end Manager
