import Verif.Proofs.Output
import Verif.Spec.Evaluation

/-! # Evaluation with effects -/

namespace Output
open Spec Storage

variable {σ : Type} {w : RExpr → Comp σ Str}

/-- A computation evaluates the expressions `es` in order, and its result is related to
their values. -/
def Gives {α : Type} (w : RExpr → Comp σ Str) (m : Comp σ α) (es : List RExpr) (P : List Str → α → Prop) : Prop :=
  ∀ s, match inOrder w es s with
    | (none, s') => m s = (none, s')
    | (some vs, s') => vs.length = es.length ∧ ∃ a, m s = (some a, s') ∧ ∀ ex, P (vs ++ ex) a

theorem Gives.mono {α : Type} {m : Comp σ α} {es : List RExpr} {P Q : List Str → α → Prop} (h : Gives w m es P)
    (hpq : ∀ vs a, P vs a → Q vs a) : Gives w m es Q := by
  intro s
  have := h s
  split at this
  · exact this
  · obtain ⟨h1, a, h2, h3⟩ := this
    exact ⟨h1, a, h2, fun ex => hpq _ _ (h3 ex)⟩

theorem Gives.pure {α : Type} {a : α} {P : List Str → α → Prop} (h : ∀ vs, P vs a) :
    Gives w (Comp.pure a) [] P := fun _ => ⟨rfl, a, rfl, fun _ => h _⟩

theorem inOrder_append (es fs : List RExpr) (s : σ) : inOrder w (es ++ fs) s =
    match inOrder w es s with
    | (none, s') => (none, s')
    | (some vs, s') =>
      match inOrder w fs s' with
      | (none, s'') => (none, s'')
      | (some us, s'') => (some (vs ++ us), s'') := by
  induction es generalizing s with
  | nil =>
    simp only [List.nil_append, inOrder]
    rcases inOrder w fs s with ⟨_ | us, s'⟩ <;> rfl
  | cons e es ih =>
    simp only [List.cons_append, inOrder]
    rcases w e s with ⟨_ | v, s1⟩
    · rfl
    · simp only [ih]
      rcases inOrder w es s1 with ⟨_ | vs, s2⟩
      · rfl
      · simp only
        rcases inOrder w fs s2 with ⟨_ | us, s3⟩ <;> rfl

theorem Gives.bind {α β : Type} {m : Comp σ α} {f : α → Comp σ β} {es fs : List RExpr}
    {P : List Str → α → Prop} {Q : List Str → α → β → Prop} (hm : Gives w m es P)
    (hf : ∀ a vs, P vs a → Gives w (f a) fs (fun vs b => Q vs a b)) :
    Gives w (m.bind f) (es ++ fs) (fun vs b => ∃ a, P vs a ∧ Q (vs.drop es.length) a b) := by
  intro s
  have h := hm s
  rw [inOrder_append]
  revert h
  rcases inOrder w es s with ⟨_ | vs, s1⟩ <;> intro h
  · simp only at h
    simp only [Comp.bind, h]
  · simp only at h
    obtain ⟨h1, a, h2, h3⟩ := h
    have h' := hf a vs (by simpa using h3 []) s1
    revert h'
    simp only [Comp.bind, h2]
    rcases inOrder w fs s1 with ⟨_ | us, s2⟩ <;> intro h'
    · exact h'
    · obtain ⟨h4, b, h5, h6⟩ := h'
      refine ⟨by simp [h1, h4], b, h5, fun ex => ⟨a, ?_, ?_⟩⟩
      · rw [List.append_assoc]; exact h3 _
      · rw [List.append_assoc, List.drop_left' h1]; exact h6 ex

theorem Gives.map {α β : Type} {m : Comp σ α} {f : α → β} {es : List RExpr} {P : List Str → α → Prop}
    (hm : Gives w m es P) : Gives w (m.map f) es (fun vs b => ∃ a, P vs a ∧ b = f a) := by
  have := hm.bind (f := fun a => Comp.pure (f a)) (fs := []) (Q := fun _ a b => b = f a)
    (fun a _ _ => Gives.pure (fun _ => rfl))
  rwa [List.append_nil] at this

/-! ## Fragments -/

theorem frag_cases (f : OFrag) : (∃ s, f.inner = .str s ∧ fragExprs f = [] ∧ f.asString = some s) ∨
    ∃ e, f.inner = .raw e ∧ fragExprs f = [e] := by
  cases f with
  | expr e =>
    by_cases h : ∃ t v, e = [.lit t (some v)]
    · obtain ⟨t, v, rfl⟩ := h
      exact .inl ⟨v, rfl, rfl, rfl⟩
    · right
      refine ⟨e, ?_, ?_⟩
      · have hs : strLit e = none := by
          unfold strLit
          split
          · exact absurd ⟨_, _, rfl⟩ h
          · rfl
        simp [OFrag.inner, hs, displayable]
      · simp only [fragExprs]
        unfold exprIn
        split
        · exact absurd ⟨_, _, rfl⟩ h
        · rfl
  | arg n e => exact .inr ⟨e, rfl, rfl⟩
  | token t => exact .inl ⟨_, rfl, rfl, rfl⟩
  | delimiter d b => exact .inl ⟨_, rfl, rfl, rfl⟩
  | str s => exact .inl ⟨_, rfl, rfl, rfl⟩

theorem fillFrags_plain {f : OFrag} (h : fragExprs f = []) (fs : List OFrag) (vs : List Str) :
    fillFrags (f :: fs) vs = f :: fillFrags fs vs := by
  simp [fillFrags, h]

theorem fillFrags_expr {f : OFrag} {e : RExpr} (h : fragExprs f = [e]) (fs : List OFrag) (v : Str) (vs : List Str) :
    fillFrags (f :: fs) (v :: vs) = .str v :: fillFrags fs vs := by
  simp [fillFrags, h]

theorem fillFrags_short {f : OFrag} (fs : List OFrag) :
    fillFrags (f :: fs) [] = f :: fillFrags fs [] := by
  cases h : fragExprs f <;> simp [fillFrags, h]

theorem runFrag_gives (f : OFrag) : Gives w (runFrag w f.inner) (fragExprs f)
    (fun vs y => ∀ ρ fs, y.inner.val ++ fragsText ρ (fillFrags fs (vs.drop (fragExprs f).length)) =
      fragsText ρ (fillFrags (f :: fs) vs)) := by
  rcases frag_cases f with ⟨s, h1, h2, h3⟩ | ⟨e, h1, h2⟩
  · rw [h1, h2]
    refine (Gives.map (P := fun _ y => y = ⟨.borrowed, s⟩) (Gives.pure (fun _ => rfl))).mono ?_
    rintro vs y ⟨_, rfl, rfl⟩ ρ fs
    rw [fillFrags_plain h2]
    simp [fragsText, asString_text h3 ρ]
  · rw [h1, h2]
    have he : Gives w (w e) [e] (fun vs v => vs.head? = some v) := by
      intro s
      simp only [inOrder]
      rcases w e s with ⟨_ | v, s'⟩
      · rfl
      · exact ⟨rfl, v, rfl, fun ex => rfl⟩
    refine ((he.map (f := Cow.mk .owned)).map (f := Frag.mk)).mono ?_
    rintro vs y ⟨_, ⟨v, hv, rfl⟩, rfl⟩ ρ fs
    cases vs with
    | nil => simp at hv
    | cons v' vs =>
      simp only [List.head?_cons, Option.some.injEq] at hv
      subst hv
      rw [fillFrags_expr h2]
      simp [fragsText, fragText]

theorem runFrags_gives : ∀ gs : List OFrag, Gives w (runAll (runFrag w) (gs.map OFrag.inner)) (fragsExprs gs)
    (fun vs ys => ∀ ρ, (ys.map (fun f => f.inner.val)).flatten = fragsText ρ (fillFrags gs vs))
  | [] => Gives.pure (fun _ ρ => rfl)
  | g :: gs => by
    have h := (runFrag_gives (w := w) g).bind
      (f := fun y => (runAll (runFrag w) (gs.map OFrag.inner)).map (y :: ·)) (fun y _ _ => (runFrags_gives gs).map)
    refine Gives.mono h ?_
    rintro vs ys ⟨y, h1, ys', h2, rfl⟩ ρ
    rw [← h1 ρ gs, ← h2 ρ]
    rfl

theorem fragsExprs_cons (f : OFrag) (fs : List OFrag) : fragsExprs (f :: fs) = fragExprs f ++ fragsExprs fs := rfl

theorem coalesceGo_exprs : ∀ (fs : List OFrag) (l : OFrag), fragsExprs (coalesceGo l fs) = fragsExprs (l :: fs)
  | [], l => rfl
  | x :: xs, l => by
    simp only [coalesceGo]
    split
    · rename_i j h
      obtain ⟨lt, rt, h1, h2, rfl⟩ := coalesce_some h
      have e1 : fragExprs l = [] := by
        rcases frag_cases l with ⟨s, -, h, -⟩ | ⟨e, h, -⟩
        · exact h
        · simp [OFrag.asString, h] at h1
      have e2 : fragExprs x = [] := by
        rcases frag_cases x with ⟨s, -, h, -⟩ | ⟨e, h, -⟩
        · exact h
        · simp [OFrag.asString, h] at h2
      rw [coalesceGo_exprs xs]
      have e3 : fragExprs (.str (lt ++ rt)) = [] := rfl
      simp [fragsExprs_cons, e1, e2, e3]
    · rw [fragsExprs_cons, coalesceGo_exprs xs x, ← fragsExprs_cons]

theorem coalesce_exprs (fs : List OFrag) : fragsExprs (coalesce fs) = fragsExprs fs := by
  cases fs with
  | nil => rfl
  | cons x xs => exact coalesceGo_exprs xs x

theorem coalesceGo_fill (ρ : Env) : ∀ (fs : List OFrag) (l : OFrag) (vs : List Str),
    fragsText ρ (fillFrags (coalesceGo l fs) vs) = fragsText ρ (fillFrags (l :: fs) vs)
  | [], l, vs => rfl
  | x :: xs, l, vs => by
    simp only [coalesceGo]
    split
    · rename_i j h
      obtain ⟨lt, rt, h1, h2, rfl⟩ := coalesce_some h
      have e1 : fragExprs l = [] := by
        rcases frag_cases l with ⟨s, -, h, -⟩ | ⟨e, h, -⟩
        · exact h
        · simp [OFrag.asString, h] at h1
      have e2 : fragExprs x = [] := by
        rcases frag_cases x with ⟨s, -, h, -⟩ | ⟨e, h, -⟩
        · exact h
        · simp [OFrag.asString, h] at h2
      rw [coalesceGo_fill ρ xs, fillFrags_plain (by rfl), fillFrags_plain e1, fillFrags_plain e2]
      have e3 : fragText ρ (.str (lt ++ rt)) = lt ++ rt := rfl
      simp [fragsText, asString_text h1 ρ, asString_text h2 ρ, e3]
    · rcases frag_cases l with ⟨s, -, h, -⟩ | ⟨e, -, h⟩
      · rw [fillFrags_plain h, fillFrags_plain h]
        have := coalesceGo_fill ρ xs x vs
        simp only [fragsText, List.map_cons, List.flatten_cons] at this ⊢
        rw [this]
      · cases vs with
        | nil =>
          rw [fillFrags_short, fillFrags_short]
          have := coalesceGo_fill ρ xs x []
          simp only [fragsText, List.map_cons, List.flatten_cons] at this ⊢
          rw [this]
        | cons v vs =>
          rw [fillFrags_expr h, fillFrags_expr h]
          have := coalesceGo_fill ρ xs x vs
          simp only [fragsText, List.map_cons, List.flatten_cons] at this ⊢
          rw [this]

theorem coalesce_fill (ρ : Env) (fs : List OFrag) (vs : List Str) :
    fragsText ρ (fillFrags (coalesce fs) vs) = fragsText ρ (fillFrags fs vs) := by
  cases fs with
  | nil => rfl
  | cons x xs => exact coalesceGo_fill ρ xs x vs

theorem codeFrags_gives (fs : List OFrag) : Gives w (runVec (runFrag w) (codeFrags fs)) (fragsExprs fs)
    (fun vs v => ∀ ρ, (frags v).flatten = fragsText ρ (fillFrags fs vs)) := by
  have h := (runFrags_gives (w := w) (coalesce fs)).map (f := Cow.mk (placeB (dynFrags fs)).loc)
  rw [coalesce_exprs] at h
  refine Gives.mono h ?_
  rintro vs v ⟨ys, h1, rfl⟩ ρ
  rw [← coalesce_fill, ← h1 ρ]
  rfl

/-! ## Selectors -/

theorem runSels_gives : ∀ c : List (List OFrag), Gives w (runAll (runSel w) (c.map codeFrags)) (fragsExprs c.flatten)
    (fun vs ys => ∀ ρ, ys.map (fun s => [(frags s.fragments).flatten]) = (fillSels c vs).map (fun s => [fragsText ρ s]))
  | [] => Gives.pure (fun _ ρ => rfl)
  | s :: ss => by
    have hs : Gives w (runSel w (codeFrags s)) (fragsExprs s)
        (fun vs v => ∀ ρ, (frags v.fragments).flatten = fragsText ρ (fillFrags s vs)) := by
      refine ((codeFrags_gives (w := w) s).map (f := Sel.mk)).mono ?_
      rintro vs y ⟨v, h, rfl⟩
      exact h
    have h := hs.bind (f := fun y => (runAll (runSel w) (ss.map codeFrags)).map (y :: ·))
      (fun y _ _ => (runSels_gives ss).map)
    have he : fragsExprs (s :: ss).flatten = fragsExprs s ++ fragsExprs ss.flatten := by
      simp [fragsExprs]
    rw [he]
    refine Gives.mono h ?_
    rintro vs ys ⟨y, h1, ys', h2, rfl⟩ ρ
    simp only [fillSels, List.map_cons, h1 ρ, h2 ρ]

theorem codeSels_gives (c : List (List OFrag)) : Gives w (runVec (runSel w) (codeSels c)) (fragsExprs c.flatten)
    (fun vs v => ∀ ρ, (sels v).map (fun s => [s.flatten]) = (fillSels c vs).map (fun s => [fragsText ρ s])) := by
  refine ((runSels_gives (w := w) c).map (f := Cow.mk (placeB (dynSels c)).loc)).mono ?_
  rintro vs v ⟨ys, h1, rfl⟩ ρ
  rw [← h1 ρ]
  simp [sels]

/-! ## Trees -/

theorem runKey_gives (k : OCow) : Gives w (runStr w k) (keyExprs k)
    (fun vs v => ∀ ρ, v.val = keyText ρ (fillKey k vs)) := by
  cases k with
  | str s => exact Gives.pure (fun _ ρ => rfl)
  | raw e =>
    intro s
    simp only [keyExprs, inOrder, runStr, Comp.map, Comp.bind]
    rcases w e s with ⟨_ | v, s'⟩
    · rfl
    · exact ⟨rfl, _, rfl, fun ex ρ => rfl⟩

mutual
theorem runRBC_gives : ∀ x : ORBC, Gives w (runRBC w (codeRBC x)) (exprsRBC x)
    (fun vs y => ∀ ρ, joinedRBC y.erase = meaningRBC ρ (fillRBC x vs))
  | .rule c b => by
    simp only [codeRBC, runRBC, exprsRBC]
    refine Gives.mono ((codeFrags_gives (w := w) c).bind (fun v _ _ => (runRBCs_gives b).map)) ?_
    rintro vs y ⟨v, h1, ys, h2, rfl⟩ ρ
    simp only [TRBC.erase, joinedRBC, fillRBC, meaningRBC, h1 ρ, h2 ρ]
  | .block c b => by
    simp only [codeRBC, runRBC, exprsRBC]
    refine Gives.mono ((codeSels_gives (w := w) c).bind (fun v _ _ => (runRBCs_gives b).map)) ?_
    rintro vs y ⟨v, h1, ys, h2, rfl⟩ ρ
    simp only [TRBC.erase, joinedRBC, fillRBC, meaningRBC, h1 ρ, h2 ρ]
  | .attr k v => by
    simp only [codeRBC, runRBC, exprsRBC]
    refine Gives.mono ((runKey_gives (w := w) k).bind (fun k' _ _ => (codeFrags_gives v).map)) ?_
    rintro vs y ⟨k', h1, v', h2, rfl⟩ ρ
    simp only [TRBC.erase, joinedRBC, fillRBC, meaningRBC, h1 ρ, h2 ρ]
theorem runRBCs_gives : ∀ xs : List ORBC, Gives w (runRBCs w (codeRBCs xs)) (exprsRBCs xs)
    (fun vs ys => ∀ ρ, joinedRBCs (TRBC.erases ys) = meaningRBCs ρ (fillRBCs xs vs))
  | [] => Gives.pure (fun _ ρ => rfl)
  | x :: xs => by
    simp only [codeRBCs, runRBCs, exprsRBCs]
    refine Gives.mono ((runRBC_gives x).bind (fun y _ _ => (runRBCs_gives xs).map)) ?_
    rintro vs y ⟨v, h1, ys, h2, rfl⟩ ρ
    simp only [TRBC.erases, joinedRBCs, fillRBCs, meaningRBCs, h1 ρ, h2 ρ]
end

theorem runScope_gives (x : OScope) : Gives w (runScope w (codeScope x)) (exprsRBC (scopeRBC x))
    (fun vs y => ∀ ρ, joinedScope y.erase = meaningScope ρ (fillScope x vs)) := by
  cases x with
  | rule c b =>
    simp only [codeScope, runScope, scopeRBC, exprsRBC]
    refine Gives.mono ((codeFrags_gives (w := w) c).bind (fun v _ _ => (runRBCs_gives b).map)) ?_
    rintro vs y ⟨v, h1, ys, h2, rfl⟩ ρ
    simp only [TScope.erase, joinedScope, fillScope, meaningScope, h1 ρ, h2 ρ]
  | block c b =>
    simp only [codeScope, runScope, scopeRBC, exprsRBC]
    refine Gives.mono ((codeSels_gives (w := w) c).bind (fun v _ _ => (runRBCs_gives b).map)) ?_
    rintro vs y ⟨v, h1, ys, h2, rfl⟩ ρ
    simp only [TScope.erase, joinedScope, fillScope, meaningScope, h1 ρ, h2 ρ]

theorem runScopes_gives : ∀ xs : OSheet, Gives w (runAll (runScope w) (xs.map codeScope)) (exprsOut xs)
    (fun vs ys => ∀ ρ, joined (ys.map TScope.erase) = meaning ρ (fillOut xs vs))
  | [] => Gives.pure (fun _ ρ => rfl)
  | x :: xs => by
    simp only [List.map_cons, runAll, exprsOut, exprsRBCs]
    refine Gives.mono ((runScope_gives x).bind (fun y _ _ => (runScopes_gives xs).map)) ?_
    rintro vs ys ⟨y, h1, ys', h2, rfl⟩ ρ
    have := h2 ρ
    rw [joined_eq, meaning_eq] at this ⊢
    simp only [List.map_cons, fillOut, h1 ρ]
    rw [this]

theorem runContents_gives (s : OSheet) : Gives w (runVec (runScope w) (reifySheet s).contents) (exprsOut s)
    (fun vs t => ∀ ρ, joined (eraseSheet t) = meaning ρ (fillOut s vs)) := by
  rw [reifySheet_eq]
  refine ((runScopes_gives (w := w) s).map (f := Cow.mk (placeB (dynSheet s)).loc)).mono ?_
  rintro vs t ⟨ys, h1, rfl⟩
  exact h1

/-! ## No expressions -/

theorem fragExprs_dyn (f : OFrag) : fragExprs f = [] ↔ ¬ FragDyn f := by
  rw [fragDyn_iff]
  rcases frag_cases f with ⟨s, -, h2, h3⟩ | ⟨e, h1, h2⟩
  · simp [h2, h3]
  · simp [h2, OFrag.asString, h1]

theorem fragsExprs_dyn (fs : List OFrag) : fragsExprs fs = [] ↔ ¬ ∃ f ∈ fs, FragDyn f := by
  simp [fragsExprs, List.flatMap_eq_nil_iff, fragExprs_dyn]

theorem keyExprs_dyn (k : OCow) : keyExprs k = [] ↔ ¬ KeyDyn k := by cases k <;> simp [keyExprs, KeyDyn]

theorem selsExprs_dyn (c : List (List OFrag)) : fragsExprs c.flatten = [] ↔ ¬ ∃ s ∈ c, ∃ f ∈ s, FragDyn f := by
  rw [fragsExprs_dyn]
  simp only [List.mem_flatten]
  constructor
  · rintro h ⟨s, hs, f, hf, hd⟩; exact h ⟨f, ⟨s, hs, hf⟩, hd⟩
  · rintro h ⟨f, ⟨s, hs, hf⟩, hd⟩; exact h ⟨s, hs, f, hf, hd⟩

mutual
theorem exprsRBC_dyn : ∀ x : ORBC, exprsRBC x = [] ↔ ¬ DynRBC x
  | .rule c b => by simp only [exprsRBC, List.append_eq_nil_iff, fragsExprs_dyn, exprsRBCs_dyn b, DynRBC, not_or]
  | .block c b => by simp only [exprsRBC, List.append_eq_nil_iff, selsExprs_dyn, exprsRBCs_dyn b, DynRBC, not_or]
  | .attr k v => by simp only [exprsRBC, List.append_eq_nil_iff, fragsExprs_dyn, keyExprs_dyn, DynRBC, not_or]
theorem exprsRBCs_dyn : ∀ xs : List ORBC, exprsRBCs xs = [] ↔ ¬ DynRBCs xs
  | [] => by simp [exprsRBCs, DynRBCs]
  | x :: xs => by simp only [exprsRBCs, List.append_eq_nil_iff, exprsRBC_dyn x, exprsRBCs_dyn xs, DynRBCs, not_or]
end

theorem exprsOut_dyn : ∀ s : OSheet, exprsOut s = [] ↔ ¬ Dyn s
  | [] => by simp [exprsOut, exprsRBCs, Dyn]
  | .rule c b :: xs => by
    have := exprsOut_dyn xs
    simp only [exprsOut] at this
    simp only [exprsOut, List.map_cons, scopeRBC, exprsRBCs, exprsRBC, List.append_eq_nil_iff, fragsExprs_dyn,
      exprsRBCs_dyn b, this, Dyn, not_or, and_assoc]
  | .block c b :: xs => by
    have := exprsOut_dyn xs
    simp only [exprsOut] at this
    simp only [exprsOut, List.map_cons, scopeRBC, exprsRBCs, exprsRBC, List.append_eq_nil_iff, selsExprs_dyn,
      exprsRBCs_dyn b, this, Dyn, not_or, and_assoc]

/-! ## Evaluations -/

/-- The content of the cell, if the sheet is cached. -/
def CellFine (s : OSheet) (cell : Cell) : Prop :=
  ∀ t, cell = some t → dynSheet s = false → ∀ vs ρ, joined (eraseSheet t) = meaning ρ (fillOut s vs)

/-- The names that are imported around the expressions of a sheet; a sheet without
expressions does not matter. -/
theorem run_gives (s : OSheet) (wd : World σ) (cell : Cell) (hc : CellFine s cell) :
    Gives (wd sheetNames) ((reifySheet s).run wd cell) (exprsOut s)
      (fun vs r => (∀ ρ, joined (eraseSheet r.1) = meaning ρ (fillOut s vs)) ∧ CellFine s r.2) := by
  have hcached : (reifySheet s).cached = !dynSheet s := by rw [reifySheet_eq]
  cases hd : dynSheet s with
  | true =>
    simp only [CSheet.run, hcached, hd, Bool.not_true, Bool.false_eq_true, if_false]
    refine ((runContents_gives s).map).mono ?_
    rintro vs r ⟨t, h1, rfl⟩
    exact ⟨h1, hc⟩
  | false =>
    have he : exprsOut s = [] := by
      rw [exprsOut_dyn, ← dynSheet_iff, hd]; simp
    simp only [CSheet.run, hcached, hd, Bool.not_false, if_true, he]
    cases cell with
    | some t => exact Gives.pure (fun vs => ⟨hc t rfl hd vs, hc⟩)
    | none =>
      intro st
      have h := runContents_gives (w := wd (lazyNames ++ sheetNames)) s st
      rw [he] at h
      simp only [inOrder, List.nil_append] at h ⊢
      obtain ⟨-, t, h1, h2⟩ := h
      refine ⟨rfl, (t, some t), by simp [Comp.map, Comp.bind, h1, Comp.pure], fun ex => ⟨h2 ex, ?_⟩⟩
      intro t' ht _ vs
      cases ht
      exact h2 vs

/-- What is known about the `k`-th of several evaluations. -/
def Evaluations (s : OSheet) (n : Nat) (vs : List Str) (us : List TSheet) : Prop :=
  us.length = n ∧ ∀ (k : Nat) (u : TSheet), us[k]? = some u → ∀ ρ,
    joined (eraseSheet u) = meaning ρ (fillOut s (vs.drop (k * (exprsOut s).length)))

theorem runMany_gives (s : OSheet) (wd : World σ) : ∀ (n : Nat) (cell : Cell), CellFine s cell →
    Gives (wd sheetNames) ((reifySheet s).runMany wd n cell) (List.replicate n (exprsOut s)).flatten (Evaluations s n)
  | 0, _, _ => Gives.pure (fun _ => ⟨rfl, by simp⟩)
  | n + 1, cell, hc => by
    simp only [CSheet.runMany, List.replicate_succ, List.flatten_cons]
    refine Gives.mono ((run_gives s wd cell hc).bind (fun r vs hr => (runMany_gives s wd n r.2 hr.2).map)) ?_
    rintro vs us ⟨r, ⟨h1, -⟩, us', ⟨h2, h3⟩, rfl⟩
    refine ⟨by simp [h2], ?_⟩
    intro k u hk ρ
    cases k with
    | zero =>
      simp only [List.getElem?_cons_zero, Option.some.injEq] at hk
      subst hk
      simpa using h1 ρ
    | succ k =>
      rw [h3 k u (by simpa using hk) ρ, List.drop_drop]
      congr 3
      rw [Nat.succ_mul, Nat.add_comm]

end Output

/-! ## Expressions without effects -/

namespace Output
open Spec Storage

variable {σ : Type}

/-- Expressions that have a value and change nothing. -/
def still (σ : Type) (ρ : Env) : RExpr → Comp σ Str := fun e s => (some (ρ e), s)

/-- The environment of a mode, if it has one. -/
def Mode.In (m : Mode) (ρ : Env) : Prop := ∀ ρ', m = .body ρ' → ρ' = ρ

theorem Mode.In.inside {m m' : Mode} {ρ : Env} {p : Place} (h : m.In ρ) (hi : m.inside p = some m') : m'.In ρ := by
  intro ρ' he
  subst he
  cases p <;> cases m <;> simp [Mode.inside] at hi
  exact h ρ' (by rw [hi])

theorem runAll_still {α β : Type} {f : α → Option β} {g : α → Comp σ β}
    (hfg : ∀ x y s, f x = some y → g x s = (some y, s)) : ∀ (xs : List α) (ys : List β) (s : σ),
    evalAll f xs = some ys → runAll g xs s = (some ys, s)
  | [], ys, s, h => by cases h; rfl
  | x :: xs, ys, s, h => by
    simp only [evalAll] at h
    split at h
    · rename_i y ys' h1 h2
      cases h
      simp [runAll, Comp.bind, Comp.map, Comp.pure, hfg x y s h1, runAll_still hfg xs ys' s h2]
    · cases h

theorem runStr_still {m : Mode} {ρ : Env} (hm : m.In ρ) {c : OCow} {y : Cow Str} (h : evalStr m c = some y) (s : σ) :
    runStr (still σ ρ) c s = (some y, s) := by
  cases c with
  | str t => cases h; rfl
  | raw e =>
    cases m with
    | const => cases h
    | static => cases h
    | body ρ' =>
      cases h
      rw [hm ρ' rfl]
      rfl

theorem runFrag_still {m : Mode} {ρ : Env} (hm : m.In ρ) {c : OCow} {y : Frag} (h : evalFrag m c = some y) (s : σ) :
    runFrag (still σ ρ) c s = (some y, s) := by
  obtain ⟨z, h1, rfl⟩ := Option.map_eq_some_iff.1 h
  simp [runFrag, Comp.map, Comp.bind, Comp.pure, runStr_still hm h1]

theorem runVec_still {α β : Type} {f : Mode → α → Option β} {g : α → Comp σ β} {m : Mode} {ρ : Env} (hm : m.In ρ)
    (hfg : ∀ (m : Mode) x y s, m.In ρ → f m x = some y → g x s = (some y, s)) {v : CVec α} {y : Cow (List β)}
    (h : evalVec f m v = some y) (s : σ) : runVec g v s = (some y, s) := by
  unfold evalVec at h
  obtain ⟨m', h1, h2⟩ := Option.bind_eq_some_iff.1 h
  obtain ⟨ys, h3, rfl⟩ := Option.map_eq_some_iff.1 h2
  have := runAll_still (fun x y s => hfg m' x y s (hm.inside h1)) _ _ s h3
  simp [runVec, Comp.map, Comp.bind, Comp.pure, this]

theorem runSel_still {m : Mode} {ρ : Env} (hm : m.In ρ) {c : CVec OCow} {y : Sel} (h : evalSel m c = some y) (s : σ) :
    runSel (still σ ρ) c s = (some y, s) := by
  obtain ⟨z, h1, rfl⟩ := Option.map_eq_some_iff.1 h
  have := runVec_still (g := runFrag (still σ ρ)) hm (fun m x y s hm h => runFrag_still hm h s) h1 s
  simp [runSel, Comp.map, Comp.bind, Comp.pure, this]

mutual
theorem runRBC_still {ρ : Env} : ∀ (x : CRBC) {m : Mode} {y : TRBC} (s : σ), m.In ρ → evalRBC m x = some y →
    runRBC (still σ ρ) x s = (some y, s)
  | .rule bow c place b, m, y, s, hm, h => by
    simp only [evalRBC] at h
    split at h
    · cases h
    · rename_i m1 i1
      split at h
      · rename_i c' m2 h1 i2
        obtain ⟨ys, h2, rfl⟩ := Option.map_eq_some_iff.1 h
        have hm1 := hm.inside i1
        have e1 := runVec_still (g := runFrag (still σ ρ)) hm1 (fun m x y s hm h => runFrag_still hm h s) h1 s
        have e2 := runRBCs_still b s (hm1.inside i2) h2
        simp [runRBC, Comp.map, Comp.bind, Comp.pure, e1, e2]
      · cases h
  | .block bow c place b, m, y, s, hm, h => by
    simp only [evalRBC] at h
    split at h
    · cases h
    · rename_i m1 i1
      split at h
      · rename_i c' m2 h1 i2
        obtain ⟨ys, h2, rfl⟩ := Option.map_eq_some_iff.1 h
        have hm1 := hm.inside i1
        have e1 := runVec_still (g := runSel (still σ ρ)) hm1 (fun m x y s hm h => runSel_still hm h s) h1 s
        have e2 := runRBCs_still b s (hm1.inside i2) h2
        simp [runRBC, Comp.map, Comp.bind, Comp.pure, e1, e2]
      · cases h
  | .attr k v, m, y, s, hm, h => by
    simp only [evalRBC] at h
    split at h
    · rename_i k' v' h1 h2
      cases h
      have e2 := runVec_still (g := runFrag (still σ ρ)) hm (fun m x y s hm h => runFrag_still hm h s) h2 s
      simp [runRBC, Comp.map, Comp.bind, Comp.pure, runStr_still hm h1, e2]
    · cases h
theorem runRBCs_still {ρ : Env} : ∀ (xs : List CRBC) {m : Mode} {ys : List TRBC} (s : σ), m.In ρ →
    evalRBCs m xs = some ys → runRBCs (still σ ρ) xs s = (some ys, s)
  | [], m, ys, s, _, h => by
    simp only [evalRBCs, Option.some.injEq] at h
    subst h
    simp [runRBCs, Comp.pure]
  | x :: xs, m, ys, s, hm, h => by
    simp only [evalRBCs] at h
    split at h
    · rename_i y ys' h1 h2
      cases h
      simp [runRBCs, Comp.map, Comp.bind, Comp.pure, runRBC_still x s hm h1, runRBCs_still xs s hm h2]
    · cases h
end

theorem runScope_still {m : Mode} {ρ : Env} (hm : m.In ρ) {x : CScope} {y : TScope} (h : evalScope m x = some y) (s : σ) :
    runScope (still σ ρ) x s = (some y, s) := by
  cases x with
  | rule c place b =>
    simp only [evalScope] at h
    split at h
    · rename_i c' m2 h1 i2
      obtain ⟨ys, h2, rfl⟩ := Option.map_eq_some_iff.1 h
      have e1 := runVec_still (g := runFrag (still σ ρ)) hm (fun m x y s hm h => runFrag_still hm h s) h1 s
      have e2 := runRBCs_still b s (hm.inside i2) h2
      simp [runScope, Comp.map, Comp.bind, Comp.pure, e1, e2]
    · cases h
  | block c place b =>
    simp only [evalScope] at h
    split at h
    · rename_i c' m2 h1 i2
      obtain ⟨ys, h2, rfl⟩ := Option.map_eq_some_iff.1 h
      have e1 := runVec_still (g := runSel (still σ ρ)) hm (fun m x y s hm h => runSel_still hm h s) h1 s
      have e2 := runRBCs_still b s (hm.inside i2) h2
      simp [runScope, Comp.map, Comp.bind, Comp.pure, e1, e2]
    · cases h

theorem run_still {c : CSheet} {ρ : Env} {cell : Cell} {r : TSheet × Cell} (h : c.eval ρ cell = some r) (s : σ) :
    c.run (fun _ => still σ ρ) cell s = (some r, s) := by
  unfold CSheet.eval at h
  unfold CSheet.run
  split at h
  · rename_i hc
    rw [if_pos hc]
    cases cell with
    | some t => cases h; rfl
    | none =>
      obtain ⟨t, h1, rfl⟩ := Option.map_eq_some_iff.1 h
      have := runVec_still (g := runScope (still σ ρ)) (m := .static) (ρ := ρ) (fun _ h => by cases h)
        (fun m x y s hm h => runScope_still hm h s) h1 s
      simp [Comp.map, Comp.bind, Comp.pure, this]
  · rename_i hc
    rw [if_neg hc]
    obtain ⟨t, h1, rfl⟩ := Option.map_eq_some_iff.1 h
    have := runVec_still (g := runScope (still σ ρ)) (m := .body ρ) (ρ := ρ) (fun _ h => by cases h; rfl)
      (fun m x y s hm h => runScope_still hm h s) h1 s
    simp [Comp.map, Comp.bind, Comp.pure, this]

end Output
