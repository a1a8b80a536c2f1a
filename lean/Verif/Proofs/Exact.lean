import Verif.Proofs.Literal
import Verif.Proofs.Shape
import Verif.Spec.Merged

/-!
# The pieces that emitted code consists of
-/

namespace Output

open Spec Storage

/-- The pieces that are left of fragments. -/
def exactFrags (ρ : Env) (fs : List OFrag) : List Str := (coalesce fs).map (fragText ρ)

mutual
/-- The tree that emitted code evaluates to. -/
def exactRBC (ρ : Env) : ORBC → RBC
  | .rule c b => .rule (exactFrags ρ c) (exactRBCs ρ b)
  | .block c b => .block (c.map (exactFrags ρ)) (exactRBCs ρ b)
  | .attr k v => .attr (keyText ρ k) (exactFrags ρ v)
/-- Of a list. -/
def exactRBCs (ρ : Env) : List ORBC → List RBC
  | [] => []
  | x :: xs => exactRBC ρ x :: exactRBCs ρ xs
end

/-- Of one item. -/
def exactScope (ρ : Env) : OScope → ScopeContent
  | .rule c b => .rule (exactFrags ρ c) (exactRBCs ρ b)
  | .block c b => .block (c.map (exactFrags ρ)) (exactRBCs ρ b)

theorem evalFrags_exact {m : Mode} {ρ : Env} (fs : List OFrag) (hm : Fine m ρ (dynFrags fs)) :
    ∃ v, evalVec evalFrag m (codeFrags fs) = some v ∧ frags v = exactFrags ρ fs :=
  evalVec_spec (e := evalFrag) (code := OFrag.inner) (g := fun f => f.inner.val)
    (h := fragText ρ) (dyn := dynB) (ρ := ρ) (coalesce fs) (fun f _ _ hm => evalFrag_spec f hm) hm

theorem evalSels_exact {m : Mode} {ρ : Env} (c : List (List OFrag)) (hm : Fine m ρ (dynSels c)) :
    ∃ v, evalVec evalSel m (codeSels c) = some v ∧ sels v = c.map (exactFrags ρ) :=
  evalVec_spec (e := evalSel) (code := codeFrags) (g := fun s => frags s.fragments)
    (h := exactFrags ρ) (dyn := dynFrags) (ρ := ρ) c
    (fun s _ m hm => by
      obtain ⟨v, h1, h2⟩ := evalFrags_exact s hm
      exact ⟨⟨v⟩, by simp [evalSel, h1], h2⟩) hm

mutual
theorem evalRBC_exact {ρ : Env} : ∀ (x : ORBC) (m : Mode), Fine m ρ (dynRBC x) →
    ∃ y, evalRBC m (codeRBC x) = some y ∧ y.erase = exactRBC ρ x
  | .rule c b, m, hm => by
    simp only [dynRBC] at hm
    obtain ⟨m1, i1, f1⟩ := hm.inside
    obtain ⟨v, h1, h2⟩ := evalFrags_exact c (f1.mono (fun h => by simp [h]))
    obtain ⟨m2, i2, f2⟩ := (f1.mono (b := dynRBCs b) (fun h => by simp [h])).inside
    obtain ⟨ys, h3, h4⟩ := evalRBCs_exact b m2 f2
    refine ⟨.rule (placeB (dynFrags c || dynRBCs b)).loc v (placeB (dynRBCs b)).loc ys,
      by simp only [codeRBC, evalRBC, i1, h1, i2, h3, Option.map_some], ?_⟩
    simp only [TRBC.erase, exactRBC, h2, h4]
  | .block c b, m, hm => by
    simp only [dynRBC] at hm
    obtain ⟨m1, i1, f1⟩ := hm.inside
    obtain ⟨v, h1, h2⟩ := evalSels_exact c (f1.mono (fun h => by simp [h]))
    obtain ⟨m2, i2, f2⟩ := (f1.mono (b := dynRBCs b) (fun h => by simp [h])).inside
    obtain ⟨ys, h3, h4⟩ := evalRBCs_exact b m2 f2
    refine ⟨.block (placeB (dynSels c || dynRBCs b)).loc v (placeB (dynRBCs b)).loc ys,
      by simp only [codeRBC, evalRBC, i1, h1, i2, h3, Option.map_some], ?_⟩
    simp only [TRBC.erase, exactRBC, h2, h4]
  | .attr k v, m, hm => by
    simp only [dynRBC] at hm
    obtain ⟨w, h1, h2⟩ := evalFrags_exact v (hm.mono (fun h => by simp [h]))
    have hk : ∃ k', evalStr m k = some k' ∧ k'.val = keyText ρ k := by
      cases k with
      | str s => exact ⟨_, rfl, rfl⟩
      | raw e =>
        rcases hm with rfl | hm
        · exact ⟨_, rfl, rfl⟩
        · simp [dynKey] at hm
    obtain ⟨k', h3, h4⟩ := hk
    refine ⟨.attr k' w, by simp only [codeRBC, evalRBC, h3, h1], ?_⟩
    simp only [TRBC.erase, exactRBC, h2, h4]
theorem evalRBCs_exact {ρ : Env} : ∀ (xs : List ORBC) (m : Mode), Fine m ρ (dynRBCs xs) →
    ∃ ys, evalRBCs m (codeRBCs xs) = some ys ∧ TRBC.erases ys = exactRBCs ρ xs
  | [], m, _ => ⟨[], rfl, rfl⟩
  | x :: xs, m, hm => by
    simp only [dynRBCs] at hm
    obtain ⟨y, h1, h2⟩ := evalRBC_exact x m (hm.mono (fun h => by simp [h]))
    obtain ⟨ys, h3, h4⟩ := evalRBCs_exact xs m (hm.mono (fun h => by simp [h]))
    refine ⟨y :: ys, by simp only [codeRBCs, evalRBCs, h1, h3], ?_⟩
    simp only [TRBC.erases, exactRBCs, h2, h4]
end

theorem evalScope_exact {m : Mode} {ρ : Env} (x : OScope) (hm : Fine m ρ (dynScope x)) :
    ∃ y, evalScope m (codeScope x) = some y ∧ y.erase = exactScope ρ x := by
  cases x with
  | rule c b =>
    simp only [dynScope] at hm
    obtain ⟨v, h1, h2⟩ := evalFrags_exact c (hm.mono (fun h => by simp [h]))
    obtain ⟨m2, i2, f2⟩ := (hm.mono (b := dynRBCs b) (fun h => by simp [h])).inside
    obtain ⟨ys, h3, h4⟩ := evalRBCs_exact b m2 f2
    refine ⟨.rule v (placeB (dynRBCs b)).loc ys, by simp only [codeScope, evalScope, h1, i2, h3, Option.map_some], ?_⟩
    simp only [TScope.erase, exactScope, h2, h4]
  | block c b =>
    simp only [dynScope] at hm
    obtain ⟨v, h1, h2⟩ := evalSels_exact c (hm.mono (fun h => by simp [h]))
    obtain ⟨m2, i2, f2⟩ := (hm.mono (b := dynRBCs b) (fun h => by simp [h])).inside
    obtain ⟨ys, h3, h4⟩ := evalRBCs_exact b m2 f2
    refine ⟨.block v (placeB (dynRBCs b)).loc ys, by simp only [codeScope, evalScope, h1, i2, h3, Option.map_some], ?_⟩
    simp only [TScope.erase, exactScope, h2, h4]

theorem evalContents_exact {m : Mode} {ρ : Env} (s : OSheet) (hm : Fine m ρ (dynSheet s)) :
    ∃ t, evalVec evalScope m (reifySheet s).contents = some t ∧ eraseSheet t = s.map (exactScope ρ) := by
  obtain ⟨v, h1, h2⟩ := evalVec_spec (e := evalScope) (code := codeScope)
    (g := fun y => y.erase) (h := exactScope ρ) (dyn := dynScope) (ρ := ρ) s
    (fun x _ m hm => evalScope_exact x hm) hm
  exact ⟨v, by rw [reifySheet_eq]; exact h1, h2⟩

/-- The content of the cell is the sheet, if the sheet is cached. -/
def CellExact (s : OSheet) (cell : Cell) : Prop :=
  ∀ t, cell = some t → dynSheet s = false → ∀ ρ, eraseSheet t = s.map (exactScope ρ)

theorem eval_exact (s : OSheet) (ρ : Env) {cell : Cell} (hc : CellExact s cell) :
    ∃ t cell', (reifySheet s).eval ρ cell = some (t, cell') ∧ eraseSheet t = s.map (exactScope ρ) ∧
      CellExact s cell' := by
  have hcached : (reifySheet s).cached = !dynSheet s := by rw [reifySheet_eq]
  cases hd : dynSheet s with
  | true =>
    obtain ⟨t, h1, h2⟩ := evalContents_exact (m := .body ρ) (ρ := ρ) s (.inl rfl)
    refine ⟨t, cell, ?_, h2, hc⟩
    simp [CSheet.eval, hcached, hd, h1]
  | false =>
    cases cell with
    | some t =>
      exact ⟨t, some t, by simp [CSheet.eval, hcached, hd], hc t rfl hd ρ, hc⟩
    | none =>
      have hs : ∀ ρ, ∃ t, evalVec evalScope .static (reifySheet s).contents = some t ∧
          eraseSheet t = s.map (exactScope ρ) := fun ρ => evalContents_exact s (.inr hd)
      obtain ⟨t, h1, h2⟩ := hs ρ
      refine ⟨t, some t, by simp [CSheet.eval, hcached, hd, h1], h2, ?_⟩
      intro t' ht _ ρ'
      cases ht
      obtain ⟨t', h1', h2'⟩ := hs ρ'
      rw [h1] at h1'; cases h1'
      exact h2'

theorem evalMany_exact (s : OSheet) : ∀ (ρs : List Env) {cell : Cell}, CellExact s cell →
    ∃ ts, (reifySheet s).evalMany ρs cell = some ts ∧
      ts.map eraseSheet = ρs.map (fun ρ => s.map (exactScope ρ))
  | [], _, _ => ⟨[], rfl, rfl⟩
  | ρ :: ρs, cell, hc => by
    obtain ⟨t, cell', h1, h2, h3⟩ := eval_exact s ρ hc
    obtain ⟨ts, h4, h5⟩ := evalMany_exact s ρs h3
    exact ⟨t :: ts, by simp [CSheet.evalMany, h1, h4], by simp [h2, h5]⟩

/-! ## Texts without interpolation -/

theorem coalesceGo_strs : ∀ (l : List Str) (x : Str), coalesceGo (.str x) (l.map .str) = [.str (x ++ l.flatten)]
  | [], x => by simp [coalesceGo]
  | y :: l, x => by
    rw [List.map_cons, coalesceGo]
    have : fragmentCoalesce (.str x) (.str y) = some (.str (x ++ y)) := rfl
    rw [this]
    simp only [coalesceGo_strs l, List.flatten_cons, List.append_assoc]

theorem exactFrags_strs (ρ : Env) (l : List Str) (h : ∀ x ∈ l, x ≠ []) : exactFrags ρ (l.map .str) = merged l := by
  cases l with
  | nil => simp [exactFrags, coalesce, merged]
  | cons x l =>
    have hx : x ≠ [] := h x (by simp)
    simp [exactFrags, coalesce, coalesceGo_strs, merged, hx, fragText]

theorem merged_filter (l : List Str) : merged (l.filter (fun x => !x.isEmpty)) = merged l := by
  have : (l.filter (fun x => !x.isEmpty)).flatten = l.flatten := by
    induction l with
    | nil => rfl
    | cons x l ih => cases x <;> simp [ih]
  unfold merged
  rw [this]

end Output

namespace Literal

open Spec Output Storage

theorem strOut_plain {args : Args} {s : Str} {out : List OFrag} {used : List Str} (hp : '$' ∉ s ∧ '{' ∉ s)
    (h : strOut args s = some (out, used)) : out = ([s].filter (fun x => !x.isEmpty)).map .str := by
  unfold strOut at h
  have hf : parseFragments s = some (([s].filter (fun x => !x.isEmpty)).map .literal) := by
    rw [parseFragments_iff]
    cases s with
    | nil => exact ⟨[], by simp [Pieces], by simp [NoTwoRuns], rfl⟩
    | cons c s => exact ⟨[.run (c :: s)], ⟨by simp [Piece.Ok, hp], by simp [Piece.text]⟩, by simp [NoTwoRuns], rfl⟩
  rw [hf] at h
  cases s with
  | nil =>
    simp only [List.isEmpty_nil, Bool.not_true, List.filter_cons, Bool.false_eq_true, if_false, List.filter_nil,
      List.map_nil, fragsOut, Option.some.injEq, Prod.mk.injEq] at h ⊢
    exact h.1.symm
  | cons c s =>
    simp [fragsOut] at h
    simp [← h.1]

theorem strsOut_plain {args : Args} : ∀ {ss : List Str} {out : List OFrag} {used : List Str},
    (∀ s ∈ ss, '$' ∉ s ∧ '{' ∉ s) → strsOut args ss = some (out, used) →
    out = (ss.filter (fun x => !x.isEmpty)).map .str
  | [], out, used, _, h => by
    simp only [strsOut, Option.some.injEq, Prod.mk.injEq] at h
    rw [← h.1]; rfl
  | s :: ss, out, used, hp, h => by
    simp only [strsOut] at h
    split at h
    · rename_i a u b v h1 h2
      simp only [Option.some.injEq, Prod.mk.injEq] at h
      have e1 := strOut_plain (hp s (by simp)) h1
      have e2 := strsOut_plain (fun t ht => hp t (by simp [ht])) h2
      rw [← h.1, e1, e2, ← List.map_append, ← List.filter_append]
      rfl
    · cases h

theorem strsOut_exact {args : Args} {ss : List Str} {out : List OFrag} {used : List Str} (ρ : Env)
    (hp : ∀ s ∈ ss, '$' ∉ s ∧ '{' ∉ s) (h : strsOut args ss = some (out, used)) :
    exactFrags ρ out = merged ss := by
  rw [strsOut_plain hp h, exactFrags_strs, merged_filter]
  intro x hx
  have := (List.mem_filter.1 hx).2
  rintro rfl
  simp at this

theorem selsOut_exact {args : Args} (ρ : Env) : ∀ {ss : List Selector} {out : List (List OFrag)} {used : List Str},
    (∀ s ∈ ss.flatten, '$' ∉ s ∧ '{' ∉ s) → selsOut args ss = some (out, used) →
    out.map (exactFrags ρ) = ss.map merged
  | [], out, used, _, h => by
    simp only [selsOut, Option.some.injEq, Prod.mk.injEq] at h
    rw [← h.1]; rfl
  | s :: ss, out, used, hp, h => by
    simp only [selsOut] at h
    split at h
    · rename_i a u b v h1 h2
      simp only [Option.some.injEq, Prod.mk.injEq] at h
      rw [List.flatten_cons] at hp
      rw [← h.1, List.map_cons, List.map_cons, strsOut_exact ρ (fun t ht => hp t (List.mem_append_left _ ht)) h1,
        selsOut_exact ρ (fun t ht => hp t (List.mem_append_right _ ht)) h2]
    · cases h

mutual
theorem rbcOut_exact {args : Args} (ρ : Env) : ∀ (x : RBC) {out : ORBC} {used : List Str},
    (∀ s ∈ textsRBC x, '$' ∉ s ∧ '{' ∉ s) → rbcOut args x = some (out, used) → exactRBC ρ out = mergedRBC x
  | .rule c b, out, used, hp, h => by
    simp only [rbcOut] at h
    split at h
    · rename_i c' u b' v h1 h2
      simp only [Option.some.injEq, Prod.mk.injEq] at h
      rw [← h.1, exactRBC, mergedRBC, strsOut_exact ρ (fun t ht => hp t (List.mem_append_left _ ht)) h1,
        rbcsOut_exact ρ b (fun t ht => hp t (List.mem_append_right _ ht)) h2]
    · cases h
  | .block c b, out, used, hp, h => by
    simp only [rbcOut] at h
    split at h
    · rename_i c' u b' v h1 h2
      simp only [Option.some.injEq, Prod.mk.injEq] at h
      rw [← h.1, exactRBC, mergedRBC, selsOut_exact ρ (fun t ht => hp t (List.mem_append_left _ ht)) h1,
        rbcsOut_exact ρ b (fun t ht => hp t (List.mem_append_right _ ht)) h2]
    · cases h
  | .attr k v, out, used, hp, h => by
    simp only [rbcOut] at h
    split at h
    · rename_i v' u h1
      simp only [Option.some.injEq, Prod.mk.injEq] at h
      rw [← h.1, exactRBC, mergedRBC, strsOut_exact ρ hp h1]
      rfl
    · cases h
theorem rbcsOut_exact {args : Args} (ρ : Env) : ∀ (xs : List RBC) {out : List ORBC} {used : List Str},
    (∀ s ∈ textsRBCs xs, '$' ∉ s ∧ '{' ∉ s) → rbcsOut args xs = some (out, used) → exactRBCs ρ out = mergedRBCs xs
  | [], out, used, _, h => by
    simp only [rbcsOut, Option.some.injEq, Prod.mk.injEq] at h
    rw [← h.1]; rfl
  | x :: xs, out, used, hp, h => by
    simp only [rbcsOut] at h
    split at h
    · rename_i a u b v h1 h2
      simp only [Option.some.injEq, Prod.mk.injEq] at h
      rw [← h.1, exactRBCs, mergedRBCs, rbcOut_exact ρ x (fun t ht => hp t (List.mem_append_left _ ht)) h1,
        rbcsOut_exact ρ xs (fun t ht => hp t (List.mem_append_right _ ht)) h2]
    · cases h
end

theorem sheetOut_exact {args : Args} (ρ : Env) : ∀ (s : Sheet) {out : OSheet} {used : List Str},
    (∀ t ∈ texts s, '$' ∉ t ∧ '{' ∉ t) → sheetOut args s = some (out, used) →
    out.map (exactScope ρ) = mergedSheet s
  | [], out, used, _, h => by
    simp only [sheetOut, Option.some.injEq, Prod.mk.injEq] at h
    rw [← h.1]; rfl
  | .block c b :: xs, out, used, hp, h => by
    simp only [sheetOut, scopeOut] at h
    simp only [texts, List.mem_append, or_imp, forall_and] at hp
    split at h
    · rename_i a u b' v h0 h2
      simp only [Option.some.injEq, Prod.mk.injEq] at h
      split at h0
      · rename_i a' u' b'' v' h3 h4
        simp only [Option.some.injEq, Prod.mk.injEq] at h0
        rw [← h.1, List.map_cons, ← h0.1, exactScope, mergedSheet,
          selsOut_exact ρ (fun t ht => ⟨hp.1.1.1 t ht, hp.2.1.1 t ht⟩) h3,
          rbcsOut_exact ρ b (fun t ht => ⟨hp.1.1.2 t ht, hp.2.1.2 t ht⟩) h4,
          sheetOut_exact ρ xs (fun t ht => ⟨hp.1.2 t ht, hp.2.2 t ht⟩) h2]
      · cases h0
    · cases h
  | .rule c b :: xs, out, used, hp, h => by
    simp only [sheetOut, scopeOut] at h
    simp only [texts, List.mem_append, or_imp, forall_and] at hp
    split at h
    · rename_i a u b' v h0 h2
      simp only [Option.some.injEq, Prod.mk.injEq] at h
      split at h0
      · rename_i a' u' b'' v' h3 h4
        simp only [Option.some.injEq, Prod.mk.injEq] at h0
        rw [← h.1, List.map_cons, ← h0.1, exactScope, mergedSheet,
          strsOut_exact ρ (fun t ht => ⟨hp.1.1.1 t ht, hp.2.1.1 t ht⟩) h3,
          rbcsOut_exact ρ b (fun t ht => ⟨hp.1.1.2 t ht, hp.2.1.2 t ht⟩) h4,
          sheetOut_exact ρ xs (fun t ht => ⟨hp.1.2 t ht, hp.2.2 t ht⟩) h2]
      · cases h0
    · cases h

end Literal

namespace Spec

/-! ## When nothing is merged -/

theorem merged_one {x : Str} : merged [x] = [x] ↔ x ≠ [] := by
  unfold merged
  split <;> simp_all

theorem merged_two {x y : Str} : merged [x, y] ≠ [x, y] := by
  unfold merged
  split <;> simp

theorem mergedSels_eq : ∀ {c : List Selector}, (∀ s ∈ c, ∃ t, s = [t] ∧ Str.trim t = t) →
    (c.map merged = c ↔ ∀ t ∈ c.flatten, t ≠ [])
  | [], _ => by simp
  | s :: c, h => by
    obtain ⟨t, rfl, -⟩ := h s (by simp)
    have ih := mergedSels_eq (c := c) (fun s hs => h s (by simp [hs]))
    rw [List.map_cons, List.cons.injEq, merged_one, ih]
    simp

theorem merged_item {x : RBC} (h : Item x) : mergedRBC x = x ↔ hasRuleRBC x = false ∧ ∀ t ∈ textsRBC x, t ≠ [] := by
  cases h with
  | attr k v hv =>
    obtain ⟨-, w, rfl, -⟩ := hv
    simp [mergedRBC, hasRuleRBC, textsRBC, merged_one]
  | rule c b hc _ =>
    obtain ⟨n, -, t, rfl, -⟩ := hc
    simp [mergedRBC, hasRuleRBC, merged_two]

theorem merged_items : ∀ {xs : List RBC}, (∀ x ∈ xs, Item x) →
    (mergedRBCs xs = xs ↔ hasRuleRBCs xs = false ∧ ∀ t ∈ textsRBCs xs, t ≠ [])
  | [], _ => by simp [mergedRBCs, hasRuleRBCs, textsRBCs]
  | x :: xs, h => by
    have h1 := merged_item (h x (by simp))
    have h2 := merged_items (xs := xs) (fun y hy => h y (by simp [hy]))
    rw [mergedRBCs, List.cons.injEq, h1, h2]
    simp only [hasRuleRBCs, Bool.or_eq_false_iff, textsRBCs, List.mem_append, or_imp, forall_and]
    exact ⟨fun ⟨⟨a, b⟩, c, d⟩ => ⟨⟨a, c⟩, b, d⟩, fun ⟨⟨a, c⟩, b, d⟩ => ⟨⟨a, b⟩, c, d⟩⟩

theorem merged_sheet : ∀ {s : Sheet}, (∀ x ∈ s, ScopeItem x.toRBC) →
    (mergedSheet s = s ↔ hasRule s = false ∧ ∀ t ∈ texts s, t ≠ [])
  | [], _ => by simp [mergedSheet, hasRule, texts]
  | .rule c b :: xs, h => by
    have h1 : ScopeItem (.rule c b) := h (.rule c b) (by simp)
    have h2 : merged c ≠ c := by
      cases h1 with
      | rule _ _ hc _ => obtain ⟨n, -, t, rfl, -⟩ := hc; exact merged_two
      | keyframes _ _ hc _ => obtain ⟨n, -, t, rfl, -⟩ := hc; exact merged_two
    simp [mergedSheet, hasRule, h2]
  | .block c b :: xs, h => by
    have h1 : ScopeItem (.block c b) := h (.block c b) (by simp)
    have ih := merged_sheet (s := xs) (fun x hx => h x (by simp [hx]))
    have h2 : (c.map merged = c ↔ ∀ t ∈ c.flatten, t ≠ []) ∧
        (mergedRBCs b = b ↔ hasRuleRBCs b = false ∧ ∀ t ∈ textsRBCs b, t ≠ []) := by
      cases h1 with
      | dangling _ _ hb =>
        refine ⟨mergedSels_eq (by simp), merged_items (fun x hx => ?_)⟩
        obtain ⟨k, v, rfl, hv⟩ := hb x hx
        exact .attr k v hv
      | block _ _ _ hs hb => exact ⟨mergedSels_eq hs, merged_items hb⟩
    rw [mergedSheet, List.cons.injEq, ScopeContent.block.injEq, h2.1, h2.2, ih]
    simp only [hasRule, Bool.or_eq_false_iff, texts, List.mem_append, or_imp, forall_and]
    exact ⟨fun ⟨⟨e, a, b⟩, c, d⟩ => ⟨⟨a, c⟩, ⟨e, b⟩, d⟩, fun ⟨⟨a, c⟩, ⟨e, b⟩, d⟩ => ⟨⟨e, a, b⟩, c, d⟩⟩

end Spec
