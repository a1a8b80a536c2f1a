import Verif.Proofs.Output
import Verif.Spec.Stored

/-! # What of a macro sheet is allocated -/

namespace Output

open Spec Storage

theorem placeB_loc {b : Bool} {P : Prop} (h : b = true ↔ P) : OwnedIff (placeB b).loc P := by
  rw [OwnedIff, ← h]
  cases b <;> simp [placeB, Place.loc]

theorem evalVec_some {α β : Type} {e : Mode → α → Option β} {m : Mode} {v : CVec α} {w : Cow (List β)}
    (h : evalVec e m v = some w) : w.loc = v.place.loc ∧ ∃ m', evalAll (e m') v.items = some w.val := by
  unfold evalVec at h
  cases hi : m.inside v.place with
  | none => simp [hi] at h
  | some m' =>
    simp only [hi, Option.bind_some, Option.map_eq_some_iff] at h
    obtain ⟨l, hl, rfl⟩ := h
    exact ⟨rfl, m', hl⟩

theorem evalFrag_loc {m : Mode} {f : OFrag} {y : Frag} (h : evalFrag m f.inner = some y) :
    y.inner.loc = .owned ↔ FragDyn f := by
  rw [fragDyn_iff]
  unfold evalFrag at h
  rw [Option.map_eq_some_iff] at h
  obtain ⟨c, hc, rfl⟩ := h
  unfold OFrag.asString
  cases hi : f.inner with
  | str s =>
    rw [hi] at hc
    cases hc
    simp
  | raw e =>
    rw [hi] at hc
    cases m with
    | body ρ => cases hc; simp
    | const => cases hc
    | static => cases hc

theorem evalAll_frags {m : Mode} : ∀ {fs : List OFrag} {ys : List Frag},
    evalAll (evalFrag m) (fs.map OFrag.inner) = some ys →
    ((∃ f ∈ ys, f.inner.loc = .owned) ↔ ∃ f ∈ fs, FragDyn f)
  | [], ys, h => by cases h; simp
  | f :: fs, ys, h => by
    simp only [List.map_cons, evalAll] at h
    split at h
    · rename_i y ys' h1 h2
      cases h
      have := evalFrag_loc h1
      have ih := evalAll_frags h2
      simp only [List.mem_cons, exists_eq_or_imp]
      rw [this, ih]
    · cases h

theorem stored_frags {m : Mode} {fs : List OFrag} {v : Cow (List Frag)} (h : evalVec evalFrag m (codeFrags fs) = some v) :
    StoredFrags fs v := by
  obtain ⟨h1, m', h2⟩ := evalVec_some h
  refine ⟨?_, ?_⟩
  · rw [h1]; exact placeB_loc (dynFrags_iff fs)
  · rw [← dynFrags_iff, dynFrags, List.any_eq_true]
    simp only [dynB_iff]
    exact evalAll_frags h2

theorem stored_each {m : Mode} : ∀ {c : List (List OFrag)} {ys : List Sel},
    evalAll (evalSel m) (c.map codeFrags) = some ys → StoredEach c ys
  | [], ys, h => by cases h; trivial
  | s :: c, ys, h => by
    simp only [List.map_cons, evalAll] at h
    split at h
    · rename_i y ys' h1 h2
      cases h
      unfold evalSel at h1
      rw [Option.map_eq_some_iff] at h1
      obtain ⟨v, hv, rfl⟩ := h1
      exact ⟨stored_frags hv, stored_each h2⟩
    · cases h

theorem stored_sels {m : Mode} {c : List (List OFrag)} {v : Cow (List Sel)}
    (h : evalVec evalSel m (codeSels c) = some v) : StoredSels c v := by
  obtain ⟨h1, m', h2⟩ := evalVec_some h
  exact ⟨by rw [h1]; exact placeB_loc (dynSels_iff c), stored_each h2⟩

mutual
theorem stored_rbc : ∀ (x : ORBC) (m : Mode) (y : TRBC), evalRBC m (codeRBC x) = some y → StoredRBC x y
  | .rule c b, m, y, h => by
    simp only [codeRBC, evalRBC] at h
    split at h
    · cases h
    · split at h
      · rename_i m1 _ _ _ c' m' hc _
        rw [Option.map_eq_some_iff] at h
        obtain ⟨b', hb, rfl⟩ := h
        exact ⟨placeB_loc (dynRBC_iff (.rule c b)), stored_frags hc, placeB_loc (dynRBCs_iff b), stored_rbcs b m' b' hb⟩
      · cases h
  | .block c b, m, y, h => by
    simp only [codeRBC, evalRBC] at h
    split at h
    · cases h
    · split at h
      · rename_i m1 _ _ _ c' m' hc _
        rw [Option.map_eq_some_iff] at h
        obtain ⟨b', hb, rfl⟩ := h
        exact ⟨placeB_loc (dynRBC_iff (.block c b)), stored_sels hc, placeB_loc (dynRBCs_iff b), stored_rbcs b m' b' hb⟩
      · cases h
  | .attr k v, m, y, h => by
    simp only [codeRBC, evalRBC] at h
    split at h
    · rename_i k' v' hk hv
      cases h
      refine ⟨?_, stored_frags hv⟩
      cases k with
      | str s => cases hk; simp [OwnedIff, KeyDyn]
      | raw e =>
        cases m with
        | body ρ => cases hk; simp [OwnedIff, KeyDyn]
        | const => cases hk
        | static => cases hk
    · cases h
theorem stored_rbcs : ∀ (xs : List ORBC) (m : Mode) (ys : List TRBC), evalRBCs m (codeRBCs xs) = some ys → StoredRBCs xs ys
  | [], m, ys, h => by cases h; trivial
  | x :: xs, m, ys, h => by
    simp only [codeRBCs, evalRBCs] at h
    split at h
    · rename_i y ys' h1 h2
      cases h
      exact ⟨stored_rbc x m y h1, stored_rbcs xs m ys' h2⟩
    · cases h
end

theorem stored_scope {m : Mode} (x : OScope) (y : TScope) (h : evalScope m (codeScope x) = some y) : StoredScope x y := by
  cases x with
  | rule c b =>
    simp only [codeScope, evalScope] at h
    split at h
    · rename_i c' m' hc _
      rw [Option.map_eq_some_iff] at h
      obtain ⟨b', hb, rfl⟩ := h
      exact ⟨stored_frags hc, placeB_loc (dynRBCs_iff b), stored_rbcs b m' b' hb⟩
    · cases h
  | block c b =>
    simp only [codeScope, evalScope] at h
    split at h
    · rename_i c' m' hc _
      rw [Option.map_eq_some_iff] at h
      obtain ⟨b', hb, rfl⟩ := h
      exact ⟨stored_sels hc, placeB_loc (dynRBCs_iff b), stored_rbcs b m' b' hb⟩
    · cases h

theorem stored_scopes {m : Mode} : ∀ (xs : List OScope) (ys : List TScope),
    evalAll (evalScope m) (xs.map codeScope) = some ys → StoredScopes xs ys
  | [], ys, h => by cases h; trivial
  | x :: xs, ys, h => by
    simp only [List.map_cons, evalAll] at h
    split at h
    · rename_i y ys' h1 h2
      cases h
      exact ⟨stored_scope x y h1, stored_scopes xs ys' h2⟩
    · cases h

theorem stored_contents {m : Mode} {s : OSheet} {t : TSheet} (h : evalVec evalScope m (reifySheet s).contents = some t) :
    StoredSheet s t := by
  rw [reifySheet_eq] at h
  obtain ⟨h1, m', h2⟩ := evalVec_some h
  exact ⟨by rw [h1]; exact placeB_loc (dynSheet_iff s), stored_scopes _ _ h2⟩

theorem stored_many (s : OSheet) : ∀ (ρs : List Env) (cell : Cell) (ts : List TSheet),
    (∀ t, cell = some t → StoredSheet s t) → (reifySheet s).evalMany ρs cell = some ts → ∀ t ∈ ts, StoredSheet s t
  | [], cell, ts, _, h => by cases h; simp
  | ρ :: ρs, cell, ts, hc, h => by
    simp only [CSheet.evalMany] at h
    split at h
    · cases h
    · rename_i t cell' he
      rw [Option.map_eq_some_iff] at h
      obtain ⟨us, hu, rfl⟩ := h
      have key : StoredSheet s t ∧ ∀ t', cell' = some t' → StoredSheet s t' := by
        unfold CSheet.eval at he
        split at he
        · split at he
          · cases he
            exact ⟨hc _ rfl, fun t' ht => by cases ht; exact hc _ rfl⟩
          · rw [Option.map_eq_some_iff] at he
            obtain ⟨u, hv, hh⟩ := he
            cases hh
            exact ⟨stored_contents hv, fun t' ht => by cases ht; exact stored_contents hv⟩
        · rw [Option.map_eq_some_iff] at he
          obtain ⟨u, hv, hh⟩ := he
          cases hh
          exact ⟨stored_contents hv, hc⟩
      intro x hx
      rcases List.mem_cons.1 hx with rfl | hx
      · exact key.1
      · exact stored_many s ρs cell' us key.2 hu x hx

end Output
