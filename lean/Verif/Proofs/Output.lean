import Verif.Proofs.TokenText
import Verif.Spec.Macro

/-! # Emitted code -/

namespace Output
open Spec Storage

/-! ## Coalescing -/

theorem asString_text {f : OFrag} {s : Str} (h : f.asString = some s) (ρ : Env) : fragText ρ f = s := by
  cases f with
  | expr e =>
    simp only [OFrag.asString, OFrag.inner] at h
    split at h
    · rename_i t hm
      split at hm
      · rename_i v hv
        simp only [strLit] at hv
        split at hv
        · simp_all [fragText]
        · cases hv
      · cases hm
    · cases h
  | arg n e => simp [OFrag.asString, OFrag.inner, displayable] at h
  | token t => simpa [OFrag.asString, OFrag.inner, fragText, tokenText_eq] using h
  | delimiter d b =>
    cases d <;> cases b <;> simpa [OFrag.asString, OFrag.inner, strForDelim, fragText] using h
  | str s => simpa [OFrag.asString, OFrag.inner, fragText] using h

theorem fragDyn_iff (f : OFrag) : FragDyn f ↔ f.asString = none := by
  cases f with
  | expr e =>
    by_cases h : ∃ t v, e = [.lit t (some v)]
    · obtain ⟨t, v, rfl⟩ := h
      simp [FragDyn, OFrag.asString, OFrag.inner, strLit]
    · have hs : strLit e = none := by
        unfold strLit
        split
        · exact absurd ⟨_, _, rfl⟩ h
        · rfl
      have hd : FragDyn (.expr e) := by
        unfold FragDyn
        split
        · rename_i heq; cases heq; exact absurd ⟨_, _, rfl⟩ h
        · trivial
        · rename_i heq; cases heq
        · rename_i h1 h2; exact absurd rfl (h1 e)
      simp [hd, OFrag.asString, OFrag.inner, hs, displayable]
  | arg n e => simp [FragDyn, OFrag.asString, OFrag.inner, displayable]
  | token t => simp [FragDyn, OFrag.asString, OFrag.inner]
  | delimiter d b => simp [FragDyn, OFrag.asString, OFrag.inner]
  | str s => simp [FragDyn, OFrag.asString, OFrag.inner]

theorem coalesce_some {l r j : OFrag} (h : fragmentCoalesce l r = some j) :
    ∃ lt rt, l.asString = some lt ∧ r.asString = some rt ∧ j = .str (lt ++ rt) := by
  unfold fragmentCoalesce at h
  split at h
  · rename_i lt rt h1 h2
    cases h
    exact ⟨lt, rt, h1, h2, rfl⟩
  · cases h

theorem coalesce_none {l r : OFrag} (h : fragmentCoalesce l r = none) : FragDyn l ∨ FragDyn r := by
  rw [fragDyn_iff, fragDyn_iff]
  unfold fragmentCoalesce at h
  split at h
  · cases h
  · rename_i hn
    cases h1 : l.asString with
    | none => exact .inl rfl
    | some a =>
      cases h2 : r.asString with
      | none => exact .inr rfl
      | some b => exact absurd h2 (hn a b h1)

theorem coalesceGo_text (ρ : Env) : ∀ (fs : List OFrag) (l : OFrag),
    fragsText ρ (coalesceGo l fs) = fragsText ρ (l :: fs)
  | [], l => rfl
  | x :: xs, l => by
    simp only [coalesceGo]
    split
    · rename_i j h
      obtain ⟨lt, rt, h1, h2, rfl⟩ := coalesce_some h
      rw [coalesceGo_text ρ xs]
      have e1 : fragText ρ l = lt := asString_text h1 ρ
      have e2 : fragText ρ x = rt := asString_text h2 ρ
      have e3 : fragText ρ (.str (lt ++ rt)) = lt ++ rt := rfl
      simp only [fragsText, List.map_cons, List.flatten_cons, e1, e2, e3, List.append_assoc]
    · have := coalesceGo_text ρ xs x
      simp only [fragsText, List.map_cons, List.flatten_cons] at this ⊢
      rw [this]

theorem coalesce_text (ρ : Env) (fs : List OFrag) : fragsText ρ (coalesce fs) = fragsText ρ fs := by
  cases fs with
  | nil => rfl
  | cons x xs => exact coalesceGo_text ρ xs x

theorem coalesceGo_dyn : ∀ (fs : List OFrag) (l : OFrag),
    (∃ f ∈ coalesceGo l fs, FragDyn f) ↔ ∃ f ∈ l :: fs, FragDyn f
  | [], l => Iff.rfl
  | x :: xs, l => by
    simp only [coalesceGo]
    split
    · rename_i j h
      obtain ⟨lt, rt, h1, h2, rfl⟩ := coalesce_some h
      rw [coalesceGo_dyn xs]
      have hl : ¬ FragDyn l := by rw [fragDyn_iff, h1]; simp
      have hx : ¬ FragDyn x := by rw [fragDyn_iff, h2]; simp
      have hj : ¬ FragDyn (.str (lt ++ rt)) := fun h => h
      simp [hl, hx, hj]
    · have := coalesceGo_dyn xs x
      simp only [List.mem_cons, exists_eq_or_imp] at this ⊢
      rw [this]

theorem coalesce_dyn (fs : List OFrag) : (∃ f ∈ coalesce fs, FragDyn f) ↔ ∃ f ∈ fs, FragDyn f := by
  cases fs with
  | nil => rfl
  | cons x xs => exact coalesceGo_dyn xs x

/-! ## Contexts -/

theorem coalesceGo_head : ∀ (fs : List OFrag) (l : OFrag), FragDyn l → (coalesceGo l fs).head? = some l
  | [], l, _ => rfl
  | x :: xs, l, h => by
    have hl : fragmentCoalesce l x = none := by
      rw [fragDyn_iff] at h
      simp [fragmentCoalesce, h]
    simp only [coalesceGo, hl, List.head?_cons]

/-- No two fixed fragments are neighbours. -/
theorem coalesceGo_apart : ∀ (fs : List OFrag) (l : OFrag) (pre : List OFrag) (a b : OFrag) (post : List OFrag),
    coalesceGo l fs = pre ++ a :: b :: post → FragDyn a ∨ FragDyn b
  | [], l, pre, a, b, post, h => by
    have := congrArg List.length h
    simp [coalesceGo] at this
    omega
  | x :: xs, l, pre, a, b, post, h => by
    simp only [coalesceGo] at h
    split at h
    · exact coalesceGo_apart xs _ pre a b post h
    · rename_i hn
      cases pre with
      | cons p pre =>
        simp only [List.cons_append, List.cons.injEq] at h
        exact coalesceGo_apart xs _ pre a b post h.2
      | nil =>
        simp only [List.nil_append, List.cons.injEq] at h
        obtain ⟨rfl, h⟩ := h
        rcases coalesce_none hn with hd | hd
        · exact .inl hd
        · right
          have hb := coalesceGo_head xs x hd
          rw [h] at hb
          simp only [List.head?_cons, Option.some.injEq] at hb
          subst hb
          exact hd

/-- The kind of a thing that depends on an expression, or not. -/
def kindB (b : Bool) : Kind := if b then .dynamic else .const

/-- A fragment depends on an expression. -/
def dynB (f : OFrag) : Bool := f.asString.isNone

theorem dynB_iff (f : OFrag) : dynB f = true ↔ FragDyn f := by
  rw [fragDyn_iff]; simp [dynB]

theorem join_const (k : Kind) : k.join .const = k := by cases k <;> rfl
theorem join_kindB (a b : Bool) (k : Kind) : (k.join (kindB a)).join (kindB b) = k.join (kindB (a || b)) := by
  cases a <;> cases b <;> cases k <;> rfl

theorem reifyStr_eq (s : OCow) (ctx : Ctx) :
    reifyStr s ctx = (s, ctx.join (kindB (match s with | .str _ => false | .raw _ => true))) := by
  cases s with
  | str s => simp [reifyStr, kindB, join_const]
  | raw e => cases ctx <;> rfl

theorem reifyFrag_eq (f : OFrag) (ctx : Ctx) : reifyFrag f ctx = (f.inner, ctx.join (kindB (dynB f))) := by
  rw [reifyFrag, reifyStr_eq]
  simp only [dynB, OFrag.asString]
  cases f.inner <;> rfl

section
variable {α β : Type} {f : α → Ctx → β × Ctx} {code : α → β} {dyn : α → Bool}

theorem reifyAll_eq (hf : ∀ x ctx, f x ctx = (code x, ctx.join (kindB (dyn x)))) :
    ∀ (xs : List α) (ctx : Ctx), reifyAll f xs ctx = (xs.map code, ctx.join (kindB (xs.any dyn)))
  | [], ctx => by simp [reifyAll, kindB, join_const]
  | x :: xs, ctx => by
    simp only [reifyAll, hf, reifyAll_eq hf xs, List.map_cons, List.any_cons, join_kindB]

/-- Where a list goes. -/
def placeB (b : Bool) : Place := if b then .heap else .const

theorem placeVec_eq (b : Bool) (ctx : Ctx) :
    placeVec (kindB b) ctx = (placeB b, ctx.join (kindB b)) := by
  cases b <;> cases ctx <;> rfl

theorem cowVec_eq (hf : ∀ x ctx, f x ctx = (code x, ctx.join (kindB (dyn x)))) (xs : List α) (ctx : Ctx) :
    cowVec f xs ctx = (⟨placeB (xs.any dyn), xs.map code⟩, ctx.join (kindB (xs.any dyn))) := by
  have hc : (Kind.const).join (kindB (xs.any dyn)) = kindB (xs.any dyn) := by cases xs.any dyn <;> rfl
  simp only [cowVec, reifyAll_eq hf, hc, placeVec_eq]

end

/-- Some fragment depends on an expression. -/
def dynFrags (fs : List OFrag) : Bool := (coalesce fs).any dynB

theorem dynFrags_iff (fs : List OFrag) : dynFrags fs = true ↔ ∃ f ∈ fs, FragDyn f := by
  rw [← coalesce_dyn, dynFrags, List.any_eq_true]
  simp only [dynB_iff]

/-- The code of coalesced fragments. -/
def codeFrags (fs : List OFrag) : CVec OCow := ⟨placeB (dynFrags fs), (coalesce fs).map OFrag.inner⟩

theorem reifyFrags_eq (fs : List OFrag) (ctx : Ctx) :
    reifyFrags fs ctx = (codeFrags fs, ctx.join (kindB (dynFrags fs))) :=
  cowVec_eq reifyFrag_eq _ _

/-- Some selector depends on an expression. -/
def dynSels (c : List (List OFrag)) : Bool := c.any dynFrags

theorem dynSels_iff (c : List (List OFrag)) : dynSels c = true ↔ ∃ s ∈ c, ∃ f ∈ s, FragDyn f := by
  simp only [dynSels, List.any_eq_true, dynFrags_iff]

/-- The code of selectors. -/
def codeSels (c : List (List OFrag)) : CVec (CVec OCow) := ⟨placeB (dynSels c), c.map codeFrags⟩

theorem reifySels_eq (c : List (List OFrag)) (ctx : Ctx) :
    cowVec reifyFrags c ctx = (codeSels c, ctx.join (kindB (dynSels c))) :=
  cowVec_eq reifyFrags_eq _ _

/-- A key depends on an expression. -/
def dynKey : OCow → Bool
  | .str _ => false
  | .raw _ => true

theorem dynKey_iff (k : OCow) : dynKey k = true ↔ KeyDyn k := by cases k <;> simp [dynKey, KeyDyn]

mutual
/-- Something in a tree depends on an expression. -/
def dynRBC : ORBC → Bool
  | .rule c b => dynFrags c || dynRBCs b
  | .block c b => dynSels c || dynRBCs b
  | .attr k v => dynKey k || dynFrags v
/-- In a list. -/
def dynRBCs : List ORBC → Bool
  | [] => false
  | x :: xs => dynRBC x || dynRBCs xs
end

mutual
theorem dynRBC_iff : ∀ x : ORBC, dynRBC x = true ↔ DynRBC x
  | .rule c b => by simp only [dynRBC, Bool.or_eq_true, dynFrags_iff, dynRBCs_iff b, DynRBC]
  | .block c b => by simp only [dynRBC, Bool.or_eq_true, dynSels_iff, dynRBCs_iff b, DynRBC]
  | .attr k v => by simp only [dynRBC, Bool.or_eq_true, dynKey_iff, dynFrags_iff, DynRBC]
theorem dynRBCs_iff : ∀ xs : List ORBC, dynRBCs xs = true ↔ DynRBCs xs
  | [] => by simp [dynRBCs, DynRBCs]
  | x :: xs => by simp only [dynRBCs, Bool.or_eq_true, dynRBC_iff x, dynRBCs_iff xs, DynRBCs]
end

mutual
/-- The code of a tree. -/
def codeRBC : ORBC → CRBC
  | .rule c b => .rule (placeB (dynFrags c || dynRBCs b)) (codeFrags c) (placeB (dynRBCs b)) (codeRBCs b)
  | .block c b => .block (placeB (dynSels c || dynRBCs b)) (codeSels c) (placeB (dynRBCs b)) (codeRBCs b)
  | .attr k v => .attr k (codeFrags v)
/-- Of a list. -/
def codeRBCs : List ORBC → List CRBC
  | [] => []
  | x :: xs => codeRBC x :: codeRBCs xs
end

theorem const_join (b : Bool) : (Kind.const).join (kindB b) = kindB b := by cases b <;> rfl
theorem kindB_join (a b : Bool) : (kindB a).join (kindB b) = kindB (a || b) := by cases a <;> cases b <;> rfl
theorem placeBow_eq (b : Bool) : placeBow (kindB b) = placeB b := by cases b <;> rfl

mutual
theorem reifyRBC_eq : ∀ (x : ORBC) (ctx : Ctx), reifyRBC x ctx = (codeRBC x, ctx.join (kindB (dynRBC x)))
  | .rule c b, ctx => by
    simp only [reifyRBC, reifyFrags_eq, reifyRBCs_eq b, const_join, placeVec_eq, kindB_join, placeBow_eq,
      usesNested, codeRBC, dynRBC]
  | .block c b, ctx => by
    simp only [reifyRBC, reifySels_eq, reifyRBCs_eq b, const_join, placeVec_eq, kindB_join, placeBow_eq,
      usesNested, codeRBC, dynRBC]
  | .attr k v, ctx => by
    simp only [reifyRBC, reifyStr_eq, reifyFrags_eq, join_kindB, codeRBC, dynRBC]
    cases k <;> rfl
theorem reifyRBCs_eq : ∀ (xs : List ORBC) (ctx : Ctx),
    reifyRBCs xs ctx = (codeRBCs xs, ctx.join (kindB (dynRBCs xs)))
  | [], ctx => by simp [reifyRBCs, codeRBCs, dynRBCs, kindB, join_const]
  | x :: xs, ctx => by simp only [reifyRBCs, reifyRBC_eq x, reifyRBCs_eq xs, join_kindB, codeRBCs, dynRBCs]
end

/-- Something in a scope depends on an expression. -/
def dynScope : OScope → Bool
  | .rule c b => dynFrags c || dynRBCs b
  | .block c b => dynSels c || dynRBCs b

/-- The code of a scope. -/
def codeScope : OScope → CScope
  | .rule c b => .rule (codeFrags c) (placeB (dynRBCs b)) (codeRBCs b)
  | .block c b => .block (codeSels c) (placeB (dynRBCs b)) (codeRBCs b)

theorem reifyScope_eq (x : OScope) (ctx : Ctx) :
    reifyScope x ctx = (codeScope x, ctx.join (kindB (dynScope x))) := by
  cases x <;> simp only [reifyScope, reifyFrags_eq, reifySels_eq, reifyRBCs_eq, const_join, placeVec_eq,
    join_kindB, codeScope, dynScope]

/-- Something in a sheet depends on an expression. -/
def dynSheet (s : OSheet) : Bool := s.any dynScope

theorem dynSheet_iff : ∀ s : OSheet, dynSheet s = true ↔ Dyn s
  | [] => by simp [dynSheet, Dyn]
  | .rule c b :: xs => by
    have := dynSheet_iff xs
    simp only [dynSheet] at this
    simp only [dynSheet, List.any_cons, dynScope, Bool.or_eq_true, dynFrags_iff, dynRBCs_iff, this, Dyn, or_assoc]
  | .block c b :: xs => by
    have := dynSheet_iff xs
    simp only [dynSheet] at this
    simp only [dynSheet, List.any_cons, dynScope, Bool.or_eq_true, dynSels_iff, dynRBCs_iff, this, Dyn, or_assoc]

theorem reifySheet_eq (s : OSheet) :
    reifySheet s = ⟨!dynSheet s, ⟨placeB (dynSheet s), s.map codeScope⟩⟩ := by
  unfold reifySheet
  rw [cowVec_eq reifyScope_eq]
  simp only [dynSheet]
  cases s.any dynScope <;> rfl

/-! ## Evaluation -/

/-- Code for a thing can be evaluated in a mode: in an environment, or anywhere if the thing
does not depend on expressions. -/
def Fine (m : Mode) (ρ : Env) (dyn : Bool) : Prop := m = .body ρ ∨ dyn = false

theorem Fine.mono {m : Mode} {ρ : Env} {a b : Bool} (h : Fine m ρ a) (hab : b = true → a = true) : Fine m ρ b := by
  rcases h with h | h
  · exact .inl h
  · right
    cases b with
    | false => rfl
    | true => rw [hab rfl] at h; cases h

theorem Fine.inside {m : Mode} {ρ : Env} {b : Bool} (h : Fine m ρ b) :
    ∃ m', m.inside (placeB b) = some m' ∧ Fine m' ρ b := by
  cases b with
  | false => exact ⟨.const, by cases m <;> rfl, .inr rfl⟩
  | true =>
    rcases h with rfl | h
    · exact ⟨.body ρ, rfl, .inl rfl⟩
    · cases h

theorem evalAll_spec {α β γ δ : Type} {e : β → Option γ} {code : α → β} {g : γ → δ} {h : α → δ} :
    ∀ (xs : List α), (∀ x ∈ xs, ∃ y, e (code x) = some y ∧ g y = h x) →
      ∃ ys, evalAll e (xs.map code) = some ys ∧ ys.map g = xs.map h
  | [], _ => ⟨[], rfl, rfl⟩
  | x :: xs, hx => by
    obtain ⟨y, h1, h2⟩ := hx x (by simp)
    obtain ⟨ys, h3, h4⟩ := evalAll_spec xs (fun z hz => hx z (by simp [hz]))
    exact ⟨y :: ys, by simp [evalAll, h1, h3], by simp [h2, h4]⟩

theorem evalVec_spec {α β γ δ : Type} {e : Mode → β → Option γ} {code : α → β} {g : γ → δ} {h : α → δ}
    {dyn : α → Bool} {ρ : Env} (xs : List α)
    (he : ∀ x ∈ xs, ∀ m, Fine m ρ (dyn x) → ∃ y, e m (code x) = some y ∧ g y = h x)
    {m : Mode} (hm : Fine m ρ (xs.any dyn)) :
    ∃ v, evalVec e m ⟨placeB (xs.any dyn), xs.map code⟩ = some v ∧ v.val.map g = xs.map h := by
  obtain ⟨m', h1, h2⟩ := hm.inside
  obtain ⟨ys, h3, h4⟩ := evalAll_spec (e := e m') (code := code) (g := g) (h := h) xs (fun x hx =>
    he x hx m' (h2.mono (fun hd => List.any_eq_true.2 ⟨x, hx, hd⟩)))
  exact ⟨⟨(placeB (xs.any dyn)).loc, ys⟩, by simp only [evalVec, h1, Option.bind_some, h3, Option.map_some], h4⟩

theorem evalFrag_spec {m : Mode} {ρ : Env} (f : OFrag) (hm : Fine m ρ (dynB f)) :
    ∃ y, evalFrag m f.inner = some y ∧ y.inner.val = fragText ρ f := by
  cases hs : f.asString with
  | some s =>
    have ht := asString_text hs ρ
    have hi : f.inner = .str s := by
      simp only [OFrag.asString] at hs
      split at hs
      · rename_i h; cases hs; exact h
      · cases hs
    exact ⟨⟨⟨.borrowed, s⟩⟩, by simp [evalFrag, hi, evalStr], ht.symm⟩
  | none =>
    rcases hm with rfl | hm
    · cases f with
      | expr e =>
        have hl : strLit e = none := by
          cases hl : strLit e with
          | none => rfl
          | some v => simp [OFrag.asString, OFrag.inner, hl] at hs
        refine ⟨⟨⟨.owned, ρ e⟩⟩, by simp [evalFrag, OFrag.inner, hl, displayable, evalStr], ?_⟩
        unfold fragText
        split <;> rename_i heq <;> cases heq
        · simp [strLit] at hl
        · rfl
      | arg n e => exact ⟨⟨⟨.owned, ρ e⟩⟩, by simp [evalFrag, OFrag.inner, displayable, evalStr], rfl⟩
      | token t => simp [OFrag.asString, OFrag.inner] at hs
      | delimiter d b => simp [OFrag.asString, OFrag.inner] at hs
      | str s => simp [OFrag.asString, OFrag.inner] at hs
    · simp [dynB, hs] at hm

theorem evalFrags_spec {m : Mode} {ρ : Env} (fs : List OFrag) (hm : Fine m ρ (dynFrags fs)) :
    ∃ v, evalVec evalFrag m (codeFrags fs) = some v ∧ (frags v).flatten = fragsText ρ fs := by
  obtain ⟨v, h1, h2⟩ := evalVec_spec (e := evalFrag) (code := OFrag.inner) (g := fun f => f.inner.val)
    (h := fragText ρ) (dyn := dynB) (ρ := ρ) (coalesce fs) (fun f _ m hm => evalFrag_spec f hm) hm
  refine ⟨v, h1, ?_⟩
  rw [← coalesce_text ρ fs, fragsText, ← h2]
  rfl

theorem evalSels_spec {m : Mode} {ρ : Env} (c : List (List OFrag)) (hm : Fine m ρ (dynSels c)) :
    ∃ v, evalVec evalSel m (codeSels c) = some v ∧
      (sels v).map (fun s => [s.flatten]) = c.map (fun s => [fragsText ρ s]) := by
  obtain ⟨v, h1, h2⟩ := evalVec_spec (e := evalSel) (code := codeFrags)
    (g := fun s => [(frags s.fragments).flatten])
    (h := fun s => [fragsText ρ s]) (dyn := dynFrags) (ρ := ρ) c
    (fun s _ m hm => by
      obtain ⟨v, h1, h2⟩ := evalFrags_spec s hm
      exact ⟨⟨v⟩, by simp [evalSel, h1], by simp [h2]⟩) hm
  refine ⟨v, h1, ?_⟩
  rw [← h2]
  simp [sels]

mutual
theorem evalRBC_spec {ρ : Env} : ∀ (x : ORBC) (m : Mode), Fine m ρ (dynRBC x) →
    ∃ y, evalRBC m (codeRBC x) = some y ∧ joinedRBC y.erase = meaningRBC ρ x
  | .rule c b, m, hm => by
    simp only [dynRBC] at hm
    obtain ⟨m1, i1, f1⟩ := hm.inside
    obtain ⟨v, h1, h2⟩ := evalFrags_spec c (f1.mono (fun h => by simp [h]))
    obtain ⟨m2, i2, f2⟩ := (f1.mono (b := dynRBCs b) (fun h => by simp [h])).inside
    obtain ⟨ys, h3, h4⟩ := evalRBCs_spec b m2 f2
    refine ⟨.rule (placeB (dynFrags c || dynRBCs b)).loc v (placeB (dynRBCs b)).loc ys,
      by simp only [codeRBC, evalRBC, i1, h1, i2, h3, Option.map_some], ?_⟩
    simp only [TRBC.erase, joinedRBC, meaningRBC, h2, h4]
  | .block c b, m, hm => by
    simp only [dynRBC] at hm
    obtain ⟨m1, i1, f1⟩ := hm.inside
    obtain ⟨v, h1, h2⟩ := evalSels_spec c (f1.mono (fun h => by simp [h]))
    obtain ⟨m2, i2, f2⟩ := (f1.mono (b := dynRBCs b) (fun h => by simp [h])).inside
    obtain ⟨ys, h3, h4⟩ := evalRBCs_spec b m2 f2
    refine ⟨.block (placeB (dynSels c || dynRBCs b)).loc v (placeB (dynRBCs b)).loc ys,
      by simp only [codeRBC, evalRBC, i1, h1, i2, h3, Option.map_some], ?_⟩
    simp only [TRBC.erase, joinedRBC, meaningRBC, h2, h4]
  | .attr k v, m, hm => by
    simp only [dynRBC] at hm
    obtain ⟨w, h1, h2⟩ := evalFrags_spec v (hm.mono (fun h => by simp [h]))
    have hk : ∃ k', evalStr m k = some k' ∧ k'.val = keyText ρ k := by
      cases k with
      | str s => exact ⟨_, rfl, rfl⟩
      | raw e =>
        rcases hm with rfl | hm
        · exact ⟨_, rfl, rfl⟩
        · simp [dynKey] at hm
    obtain ⟨k', h3, h4⟩ := hk
    refine ⟨.attr k' w, by simp only [codeRBC, evalRBC, h3, h1], ?_⟩
    simp only [TRBC.erase, joinedRBC, meaningRBC, h2, h4]
theorem evalRBCs_spec {ρ : Env} : ∀ (xs : List ORBC) (m : Mode), Fine m ρ (dynRBCs xs) →
    ∃ ys, evalRBCs m (codeRBCs xs) = some ys ∧ joinedRBCs (TRBC.erases ys) = meaningRBCs ρ xs
  | [], m, _ => ⟨[], rfl, rfl⟩
  | x :: xs, m, hm => by
    simp only [dynRBCs] at hm
    obtain ⟨y, h1, h2⟩ := evalRBC_spec x m (hm.mono (fun h => by simp [h]))
    obtain ⟨ys, h3, h4⟩ := evalRBCs_spec xs m (hm.mono (fun h => by simp [h]))
    refine ⟨y :: ys, by simp only [codeRBCs, evalRBCs, h1, h3], ?_⟩
    simp only [TRBC.erases, joinedRBCs, meaningRBCs, h2, h4]
end

/-- `joined` on one item. -/
def joinedScope : ScopeContent → ScopeContent
  | .rule c b => .rule [c.flatten] (joinedRBCs b)
  | .block c b => .block (c.map (fun s => [s.flatten])) (joinedRBCs b)

/-- `meaning` on one item. -/
def meaningScope (ρ : Env) : OScope → ScopeContent
  | .rule c b => .rule [fragsText ρ c] (meaningRBCs ρ b)
  | .block c b => .block (c.map (fun s => [fragsText ρ s])) (meaningRBCs ρ b)

theorem joined_eq : ∀ s : Sheet, joined s = s.map joinedScope
  | [] => rfl
  | .rule c b :: xs => by simp [joined, joinedScope, joined_eq xs]
  | .block c b :: xs => by simp [joined, joinedScope, joined_eq xs]

theorem meaning_eq (ρ : Env) : ∀ s : OSheet, meaning ρ s = s.map (meaningScope ρ)
  | [] => rfl
  | .rule c b :: xs => by simp [meaning, meaningScope, meaning_eq ρ xs]
  | .block c b :: xs => by simp [meaning, meaningScope, meaning_eq ρ xs]

theorem evalScope_spec {m : Mode} {ρ : Env} (x : OScope) (hm : Fine m ρ (dynScope x)) :
    ∃ y, evalScope m (codeScope x) = some y ∧ joinedScope y.erase = meaningScope ρ x := by
  cases x with
  | rule c b =>
    simp only [dynScope] at hm
    obtain ⟨v, h1, h2⟩ := evalFrags_spec c (hm.mono (fun h => by simp [h]))
    obtain ⟨m2, i2, f2⟩ := (hm.mono (b := dynRBCs b) (fun h => by simp [h])).inside
    obtain ⟨ys, h3, h4⟩ := evalRBCs_spec b m2 f2
    refine ⟨.rule v (placeB (dynRBCs b)).loc ys, by simp only [codeScope, evalScope, h1, i2, h3, Option.map_some], ?_⟩
    simp only [TScope.erase, joinedScope, meaningScope, h2, h4]
  | block c b =>
    simp only [dynScope] at hm
    obtain ⟨v, h1, h2⟩ := evalSels_spec c (hm.mono (fun h => by simp [h]))
    obtain ⟨m2, i2, f2⟩ := (hm.mono (b := dynRBCs b) (fun h => by simp [h])).inside
    obtain ⟨ys, h3, h4⟩ := evalRBCs_spec b m2 f2
    refine ⟨.block v (placeB (dynRBCs b)).loc ys, by simp only [codeScope, evalScope, h1, i2, h3, Option.map_some], ?_⟩
    simp only [TScope.erase, joinedScope, meaningScope, h2, h4]

theorem evalContents_spec {m : Mode} {ρ : Env} (s : OSheet) (hm : Fine m ρ (dynSheet s)) :
    ∃ t, evalVec evalScope m (reifySheet s).contents = some t ∧ joined (eraseSheet t) = meaning ρ s := by
  obtain ⟨v, h1, h2⟩ := evalVec_spec (e := evalScope) (code := codeScope)
    (g := fun y => joinedScope y.erase) (h := meaningScope ρ) (dyn := dynScope) (ρ := ρ) s
    (fun x _ m hm => evalScope_spec x hm) hm
  refine ⟨v, by rw [reifySheet_eq]; exact h1, ?_⟩
  rw [joined_eq, meaning_eq, ← h2, eraseSheet, List.map_map]
  rfl

/-- The content of the cell agrees with the sheet, if the sheet is cached. -/
def CellOk (s : OSheet) (cell : Cell) : Prop :=
  ∀ t, cell = some t → dynSheet s = false → ∀ ρ, joined (eraseSheet t) = meaning ρ s

theorem eval_spec (s : OSheet) (ρ : Env) {cell : Cell} (hc : CellOk s cell) :
    ∃ t cell', (reifySheet s).eval ρ cell = some (t, cell') ∧ joined (eraseSheet t) = meaning ρ s ∧
      CellOk s cell' := by
  have hcached : (reifySheet s).cached = !dynSheet s := by rw [reifySheet_eq]
  cases hd : dynSheet s with
  | true =>
    obtain ⟨t, h1, h2⟩ := evalContents_spec (m := .body ρ) (ρ := ρ) s (.inl rfl)
    refine ⟨t, cell, ?_, h2, hc⟩
    simp [CSheet.eval, hcached, hd, h1]
  | false =>
    cases cell with
    | some t =>
      exact ⟨t, some t, by simp [CSheet.eval, hcached, hd], hc t rfl hd ρ, hc⟩
    | none =>
      have hs : ∀ ρ, ∃ t, evalVec evalScope .static (reifySheet s).contents = some t ∧
          joined (eraseSheet t) = meaning ρ s := fun ρ => evalContents_spec s (.inr hd)
      obtain ⟨t, h1, h2⟩ := hs ρ
      refine ⟨t, some t, by simp [CSheet.eval, hcached, hd, h1], h2, ?_⟩
      intro t' ht _ ρ'
      cases ht
      obtain ⟨t', h1', h2'⟩ := hs ρ'
      rw [h1] at h1'; cases h1'
      exact h2'

theorem evalMany_spec (s : OSheet) : ∀ (ρs : List Env) {cell : Cell}, CellOk s cell →
    ∃ ts, (reifySheet s).evalMany ρs cell = some ts ∧
      ts.map (fun t => joined (eraseSheet t)) = ρs.map (fun ρ => meaning ρ s)
  | [], _, _ => ⟨[], rfl, rfl⟩
  | ρ :: ρs, cell, hc => by
    obtain ⟨t, cell', h1, h2, h3⟩ := eval_spec s ρ hc
    obtain ⟨ts, h4, h5⟩ := evalMany_spec s ρs h3
    exact ⟨t :: ts, by simp [CSheet.evalMany, h1, h4], by simp [h2, h5]⟩

end Output
