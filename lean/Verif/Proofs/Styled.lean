import Verif.Spec.Styled

/-!
# Lemmas about styled components
-/

namespace StyledP

open Styled Spec

/-! ### Places -/

/-- What `css!` means in a scope. -/
def place (sc : Scope) : Meaning :=
  match sc.cur with
  | .imported => .imported
  | .own l => .own l
  | .rules x l =>
    match lookup ⟨x.name, .mac l :: x.marks⟩ false sc.ribs with
    | .binder b => .component b
    | _ => .lost

def here : Meaning → Bool
  | .component _ => true
  | _ => false

theorem lookup_true (rs : List Rib) (i : Id) (b : Nat) : lookup i true rs ≠ .binder b := by
  induction rs generalizing i with
  | nil => simp [lookup]
  | cons r rs ih =>
    cases r with
    | bind x l => simp only [lookup]; split <;> simp_all
    | fnItem => simpa [lookup] using ih i
    | macroDef l => simpa [lookup] using ih (i.leave l)

theorem place_bind (sc : Scope) (x : Str) (l : Nat) :
    place { sc with ribs := .bind (user x) l :: sc.ribs } = place sc := by
  unfold place
  cases h : sc.cur <;> simp [lookup, user]

theorem place_bindAll (sc : Scope) (ps : List (Str × Nat)) : place (sc.bindAll (params ps)) = place sc := by
  have : ∀ (qs : List (Str × Nat)), place { sc with ribs := ((qs.map fun p => (user p.1, p.2)).map fun p => Rib.bind p.1 p.2) ++ sc.ribs } = place sc := by
    intro qs
    induction qs with
    | nil => rfl
    | cons q qs ih => exact (place_bind { sc with ribs := _ } q.1 q.2).trans ih
  simpa [Scope.bindAll, params, ← List.map_reverse] using this ps.reverse

theorem place_fn (sc : Scope) (l : Nat) :
    place { sc with ribs := .fnItem :: sc.ribs } = (place sc).inside false l := by
  unfold place Meaning.inside
  cases h : sc.cur with
  | imported => simp
  | own l => simp
  | rules x l =>
    simp only [lookup]
    split <;> rename_i h2
    · exact absurd h2 (lookup_true _ _ _)
    · cases lookup ⟨x.name, .mac l :: x.marks⟩ false sc.ribs <;> rfl

theorem place_styled (rs : List Rib) (l : Nat) :
    place { ribs := .macroDef l :: .bind (hidden l) l :: rs, cur := .rules (hidden l) l } = .component l := by
  simp [place, lookup, Id.leave, hidden]

theorem place_own (rs : List Rib) (l : Nat) : place { ribs := rs, cur := .own l } = .own l := rfl

/-- The scope of the body of a function. -/
def inFn (sc : Scope) (ps : List (Str × Nat)) : Scope :=
  Scope.bindAll { sc with ribs := .fnItem :: sc.ribs } (params ps)

/-- The scope of the user's block in a styled component. -/
def inStyled (sc : Scope) (l : Nat) (ps : List (Str × Nat)) : Scope :=
  { ribs := .macroDef l :: .bind (hidden l) l :: (inFn sc ps).ribs, cur := .rules (hidden l) l }

/-- The scope of the user's statements in a function. -/
def bodyScope (sc : Scope) (styled : Bool) (l : Nat) (ps : List (Str × Nat)) : Scope :=
  if styled then inStyled sc l ps else inFn sc ps

theorem place_body (sc : Scope) (styled : Bool) (l : Nat) (ps : List (Str × Nat)) :
    place (bodyScope sc styled l ps) = (place sc).inside styled l := by
  unfold bodyScope
  cases styled with
  | true => simp only [if_true, inStyled, place_styled]; simp [Meaning.inside]
  | false =>
    simp only [inFn, Bool.false_eq_true, if_false]
    rw [place_bindAll, place_fn sc l]

/-- The uses in a function, with or without attribute. -/
theorem fn_uses (sc : Scope) (m : Moves) (styled : Bool) (l : Nat) (ps : List (Str × Nat)) (b ss : List Stmt) :
    usesSs sc m (expandSs (.fn_ styled l ps b :: ss)) =
      ((usesSs (bodyScope sc styled l ps) ⟨[], []⟩ (expandSs b)).1 ++ (usesSs sc m (expandSs ss)).1,
        (usesSs sc m (expandSs ss)).2) := by
  cases styled with
  | true => simp [expandSs, Stmt.expand, usesSs, styledBody, bodyScope, inStyled, inFn, CExpr.uses]
  | false => simp [expandSs, Stmt.expand, usesSs, bodyScope, inFn]

/-! ### Which manager -/

theorem cssUses_append (a b : List Use) : cssUses (a ++ b) = cssUses a ++ cssUses b := by
  simp [cssUses, List.filterMap_append]

theorem callCss_meaning (sc : Scope) (m : Moves) : cssUses (callCss sc m).1 = [place sc] := by
  unfold callCss place
  cases h : sc.cur with
  | imported => simp [cssUses]
  | own l => simp [cssUses]
  | rules x l =>
    simp only
    split
    · rename_i hb; rw [hb]; simp [cssUses]
    · rename_i r hr
      cases hl : lookup ⟨x.name, .mac l :: x.marks⟩ false sc.ribs with
      | binder b => exact absurd hl (hr b)
      | unbound => simp [cssUses]
      | captured => simp [cssUses]

mutual
theorem meaning_e : ∀ (e : Expr) (sc : Scope) (m : Moves),
    cssUses (e.expand.uses sc m).1 = meanings (place sc) e
  | .var x, sc, m => by simp [Expr.expand, CExpr.uses, cssUses, meanings]
  | .css args, sc, m => by
    simp only [Expr.expand, CExpr.uses, cssUses_append, meanings, callCss_meaning, meaning_es args]
  | .app es, sc, m => by simp only [Expr.expand, CExpr.uses, meanings, meaning_es es]
  | .block b, sc, m => by simp only [Expr.expand, CExpr.uses, meanings, meaning_ss b]
  | .closure mv ps b, sc, m => by
    simp only [Expr.expand, CExpr.uses, meanings, meaning_ss b, place_bindAll]
  | .cond c a b, sc, m => by
    simp only [Expr.expand, CExpr.uses, meanings, cssUses_append, meaning_e c, meaning_ss a, meaning_ss b]
  | .loop b, sc, m => by simp only [Expr.expand, CExpr.uses, meanings, meaning_ss b]
theorem meaning_es : ∀ (es : List Expr) (sc : Scope) (m : Moves),
    cssUses (usesEs sc m (expandEs es)).1 = meaningsEs (place sc) es
  | [], sc, m => by simp [expandEs, usesEs, cssUses, meaningsEs]
  | e :: es, sc, m => by
    simp only [expandEs, usesEs, meaningsEs, cssUses_append, meaning_e e, meaning_es es]
theorem meaning_ss : ∀ (ss : List Stmt) (sc : Scope) (m : Moves),
    cssUses (usesSs sc m (expandSs ss)).1 = meaningsSs (place sc) ss
  | [], sc, m => by simp [expandSs, usesSs, cssUses, meaningsSs]
  | .expr e :: ss, sc, m => by
    simp only [expandSs, Stmt.expand, usesSs, meaningsSs, cssUses_append, meaning_e e, meaning_ss ss]
  | .let_ x l e :: ss, sc, m => by
    simp only [expandSs, Stmt.expand, usesSs, meaningsSs, cssUses_append, meaning_e e, meaning_ss ss, place_bind]
  | .fn_ styled l ps b :: ss, sc, m => by
    rw [fn_uses]
    simp only [meaningsSs, cssUses_append, meaning_ss b, meaning_ss ss, place_body]
  | .macro_ l :: ss, sc, m => by
    simp only [expandSs, Stmt.expand, usesSs, meaningsSs, meaning_ss ss, place_own]
end

/-! ### Variables -/

/-- What the user's variables can see of the ribs. -/
def strip : List Rib → List Rib
  | [] => []
  | .bind x l :: rs => if x.marks = [] then .bind x l :: strip rs else strip rs
  | .fnItem :: rs => .fnItem :: strip rs
  | .macroDef _ :: rs => strip rs

theorem lookup_strip (x : Str) (rs : List Rib) (c : Bool) : lookup (user x) c rs = lookup (user x) c (strip rs) := by
  induction rs generalizing c with
  | nil => rfl
  | cons r rs ih =>
    cases r with
    | bind y l =>
      by_cases h : y.marks = []
      · simp only [strip, h, if_true, lookup, ih]
      · have : y ≠ user x := fun e => h (by rw [e]; rfl)
        simp only [strip, h, lookup, this, if_false, ih]
    | fnItem => simp only [strip, lookup, ih]
    | macroDef l => simp only [strip, lookup, user, Id.leave]; exact ih c

theorem strip_bind (x : Str) (l : Nat) (rs : List Rib) : strip (.bind (user x) l :: rs) = .bind (user x) l :: strip rs := by
  simp [strip, user]

theorem strip_append (a b : List Rib) : strip (a ++ b) = strip a ++ strip b := by
  induction a with
  | nil => rfl
  | cons r a ih =>
    cases r <;> simp only [List.cons_append, strip, ih]
    split <;> simp

theorem strip_bindAll {sc sc' : Scope} (h : strip sc.ribs = strip sc'.ribs) (ps : List (Id × Nat)) :
    strip (sc.bindAll ps).ribs = strip (sc'.bindAll ps).ribs := by
  simp only [Scope.bindAll, strip_append, h]

theorem strip_body {sc sc' : Scope} (h : strip sc.ribs = strip sc'.ribs) (styled : Bool) (l : Nat)
    (ps : List (Str × Nat)) :
    strip (bodyScope sc styled l ps).ribs = strip (bodyScope sc' false l ps).ribs := by
  have h2 : strip (inFn sc ps).ribs = strip (inFn sc' ps).ribs :=
    strip_bindAll (by simp only [strip, h]) _
  cases styled with
  | false => simpa [bodyScope] using h2
  | true => simpa [bodyScope, inStyled, strip, hidden] using h2

theorem variableUses_append (a b : List Use) : variableUses (a ++ b) = variableUses a ++ variableUses b := by
  simp [variableUses, List.filterMap_append]

theorem callCss_vars (sc : Scope) (m : Moves) : variableUses (callCss sc m).1 = [] := by
  unfold callCss
  split
  · rfl
  · rfl
  · split <;> rfl

mutual
theorem vars_e : ∀ (e : Expr) (sc sc' : Scope) (m m' : Moves), strip sc.ribs = strip sc'.ribs →
    variableUses (e.expand.uses sc m).1 = variableUses ((withoutE e).expand.uses sc' m').1
  | .var x, sc, sc', m, m', h => by
    have : lookup (user x) false sc.ribs = lookup (user x) false sc'.ribs := by
      rw [lookup_strip, lookup_strip x sc'.ribs, h]
    simp [withoutE, Expr.expand, CExpr.uses, variableUses, this]
  | .css args, sc, sc', m, m', h => by
    simp only [withoutE, Expr.expand, CExpr.uses, variableUses_append, callCss_vars, vars_es args sc sc' m m' h]
  | .app es, sc, sc', m, m', h => by
    simp only [withoutE, Expr.expand, CExpr.uses, vars_es es sc sc' m m' h]
  | .block b, sc, sc', m, m', h => by
    simp only [withoutE, Expr.expand, CExpr.uses, vars_ss b sc sc' m m' h]
  | .closure mv ps b, sc, sc', m, m', h => by
    simp only [withoutE, Expr.expand, CExpr.uses]
    exact vars_ss b _ _ _ _ (strip_bindAll h _)
  | .cond c a b, sc, sc', m, m', h => by
    simp only [withoutE, Expr.expand, CExpr.uses, variableUses_append]
    rw [vars_e c sc sc' m m' h, vars_ss a sc sc' _ _ h, vars_ss b sc sc' _ _ h]
  | .loop b, sc, sc', m, m', h => by
    simp only [withoutE, Expr.expand, CExpr.uses]
    exact vars_ss b sc sc' _ _ h
theorem vars_es : ∀ (es : List Expr) (sc sc' : Scope) (m m' : Moves), strip sc.ribs = strip sc'.ribs →
    variableUses (usesEs sc m (expandEs es)).1 = variableUses (usesEs sc' m' (expandEs (withoutEs es))).1
  | [], sc, sc', m, m', h => by simp [withoutEs, expandEs, usesEs]
  | e :: es, sc, sc', m, m', h => by
    simp only [withoutEs, expandEs, usesEs, variableUses_append]
    rw [vars_e e sc sc' m m' h, vars_es es sc sc' _ _ h]
theorem vars_ss : ∀ (ss : List Stmt) (sc sc' : Scope) (m m' : Moves), strip sc.ribs = strip sc'.ribs →
    variableUses (usesSs sc m (expandSs ss)).1 = variableUses (usesSs sc' m' (expandSs (withoutSs ss))).1
  | [], sc, sc', m, m', h => by simp [withoutSs, expandSs, usesSs]
  | .expr e :: ss, sc, sc', m, m', h => by
    simp only [withoutSs, withoutS, expandSs, Stmt.expand, usesSs, variableUses_append]
    rw [vars_e e sc sc' m m' h, vars_ss ss sc sc' _ _ h]
  | .let_ x l e :: ss, sc, sc', m, m', h => by
    simp only [withoutSs, withoutS, expandSs, Stmt.expand, usesSs, variableUses_append]
    rw [vars_e e sc sc' m m' h, vars_ss ss { sc with ribs := _ } { sc' with ribs := .bind (user x) l :: sc'.ribs } _ _
      (by simp only [strip_bind, h])]
  | .fn_ styled l ps b :: ss, sc, sc', m, m', h => by
    simp only [withoutSs, withoutS]
    rw [fn_uses, fn_uses]
    simp only [variableUses_append]
    rw [vars_ss b (bodyScope sc styled l ps) (bodyScope sc' false l ps) _ _ (strip_body h styled l ps), vars_ss ss sc sc' _ _ h]
  | .macro_ l :: ss, sc, sc', m, m', h => by
    simp only [withoutSs, withoutS, expandSs, Stmt.expand, usesSs]
    exact vars_ss ss _ _ _ _ (by simp only [strip, h])
end

/-! ### Moves -/

theorem component_here {p : Meaning} {x : Nat} (h : p = .component x) : here p = true := by rw [h]; rfl

theorem callCss_moves (sc : Scope) (m : Moves) (x : Nat) :
    (x ∈ (callCss sc m).2.moved ↔ x ∈ m.moved) ∧
    (x ∈ (callCss sc m).2.mentioned ↔ x ∈ m.mentioned ∨ place sc = .component x) := by
  unfold callCss place
  cases h : sc.cur with
  | imported => simp
  | own l => simp
  | rules y l =>
    simp only
    split
    · rename_i hb; simp [hb, eq_comm]
    · rename_i r hr
      cases hl : lookup ⟨y.name, .mac l :: y.marks⟩ false sc.ribs with
      | binder b => exact absurd hl (hr b)
      | unbound => simp
      | captured => simp

mutual
theorem asks_e : ∀ (e : Expr), ¬ Asks false e
  | .var x => by simp [Asks]
  | .css args => by simp [Asks, asks_es args]
  | .app es => by simpa [Asks] using asks_es es
  | .block b => by simpa [Asks] using asks_ss b
  | .closure mv ps b => by simpa [Asks] using asks_ss b
  | .cond c a b => by simp [Asks, asks_e c, asks_ss a, asks_ss b]
  | .loop b => by simpa [Asks] using asks_ss b
theorem asks_es : ∀ (es : List Expr), ¬ AsksEs false es
  | [] => by simp [AsksEs]
  | e :: es => by simp [AsksEs, asks_e e, asks_es es]
theorem asks_ss : ∀ (ss : List Stmt), ¬ AsksSs false ss
  | [] => by simp [AsksSs]
  | .expr e :: ss => by simp [AsksSs, asks_e e, asks_ss ss]
  | .let_ x l e :: ss => by simp [AsksSs, asks_e e, asks_ss ss]
  | .fn_ s l ps b :: ss => by simpa [AsksSs] using asks_ss ss
  | .macro_ l :: ss => by simpa [AsksSs] using asks_ss ss
end

mutual
theorem asks_of_takes_e : ∀ (e : Expr) (h : Bool), Takes h e → Asks h e
  | .var x, h => by simp [Takes]
  | .css args, h => by simp only [Takes, Asks]; exact fun t => .inr (asks_of_takes_es args h t)
  | .app es, h => by simp only [Takes, Asks]; exact asks_of_takes_es es h
  | .block b, h => by simp only [Takes, Asks]; exact asks_of_takes_ss b h
  | .closure mv ps b, h => by
    simp only [Takes, Asks]; exact fun t => t.elim (fun t => t.2) (asks_of_takes_ss b h)
  | .cond c a b, h => by
    simp only [Takes, Asks]
    exact fun t => t.elim (fun t => .inl (asks_of_takes_e c h t)) fun t =>
      .inr (t.elim (fun t => .inl (asks_of_takes_ss a h t)) fun t => .inr (asks_of_takes_ss b h t))
  | .loop b, h => by simp only [Takes, Asks]; exact asks_of_takes_ss b h
theorem asks_of_takes_es : ∀ (es : List Expr) (h : Bool), TakesEs h es → AsksEs h es
  | [], h => by simp [TakesEs]
  | e :: es, h => by
    simp only [TakesEs, AsksEs]
    exact fun t => t.elim (fun t => .inl (asks_of_takes_e e h t)) fun t => .inr (asks_of_takes_es es h t)
theorem asks_of_takes_ss : ∀ (ss : List Stmt) (h : Bool), TakesSs h ss → AsksSs h ss
  | [], h => by simp [TakesSs]
  | .expr e :: ss, h => by
    simp only [TakesSs, AsksSs]
    exact fun t => t.elim (fun t => .inl (asks_of_takes_e e h t)) fun t => .inr (asks_of_takes_ss ss h t)
  | .let_ x l e :: ss, h => by
    simp only [TakesSs, AsksSs]
    exact fun t => t.elim (fun t => .inl (asks_of_takes_e e h t)) fun t => .inr (asks_of_takes_ss ss h t)
  | .fn_ s l ps b :: ss, h => by simp only [TakesSs, AsksSs]; exact asks_of_takes_ss ss h
  | .macro_ l :: ss, h => by simp only [TakesSs, AsksSs]; exact asks_of_takes_ss ss false
end

theorem takes_e (e : Expr) : ¬ Takes false e := fun t => asks_e e (asks_of_takes_e e _ t)
theorem takes_es (es : List Expr) : ¬ TakesEs false es := fun t => asks_es es (asks_of_takes_es es _ t)
theorem takes_ss (ss : List Stmt) : ¬ TakesSs false ss := fun t => asks_ss ss (asks_of_takes_ss ss _ t)

/-- What has happened to the variables after some code: it was taken if it was before or if
the code takes it, and the same for mentioned. -/
def After (sc : Scope) (m m' : Moves) (takes asks : Prop) : Prop :=
  ∀ x, (x ∈ m'.moved ↔ x ∈ m.moved ∨ place sc = .component x ∧ takes) ∧
    (x ∈ m'.mentioned ↔ x ∈ m.mentioned ∨ place sc = .component x ∧ asks)

mutual
theorem moves_e : ∀ (e : Expr) (sc : Scope) (m : Moves),
    After sc m (e.expand.uses sc m).2 (Takes (here (place sc)) e) (Asks (here (place sc)) e)
  | .var x, sc, m => by intro x; simp [Expr.expand, CExpr.uses, Takes, Asks]
  | .css args, sc, m => by
    intro x
    have h := moves_es args sc m x
    have h2 := callCss_moves sc (usesEs sc m (expandEs args)).2 x
    simp only [Expr.expand, CExpr.uses, Takes, Asks]
    refine ⟨h2.1.trans h.1, h2.2.trans ?_⟩
    rw [h.2]
    have := @component_here (place sc) x
    grind
  | .app es, sc, m => by
    simp only [Expr.expand, CExpr.uses, Takes, Asks]; exact moves_es es sc m
  | .block b, sc, m => by
    simp only [Expr.expand, CExpr.uses, Takes, Asks]; exact moves_ss b sc m
  | .closure mv ps b, sc, m => by
    intro x
    have h := moves_ss b (sc.bindAll (params ps)) { moved := m.moved, mentioned := [] } x
    rw [place_bindAll] at h
    simp only [Expr.expand, CExpr.uses, Takes, Asks, closeOver]
    cases mv <;> grind
  | .cond c a b, sc, m => by
    intro x
    have h := moves_e c sc m x
    have h1 := moves_ss a sc (c.expand.uses sc m).2 x
    have h2 := moves_ss b sc (c.expand.uses sc m).2 x
    simp only [Expr.expand, CExpr.uses, Takes, Asks]
    grind
  | .loop b, sc, m => by
    intro x
    have h1 := moves_ss b sc m x
    have h2 := moves_ss b sc (usesSs sc m (expandSs b)).2 x
    simp only [Expr.expand, CExpr.uses, Takes, Asks]
    grind
theorem moves_es : ∀ (es : List Expr) (sc : Scope) (m : Moves),
    After sc m (usesEs sc m (expandEs es)).2 (TakesEs (here (place sc)) es) (AsksEs (here (place sc)) es)
  | [], sc, m => by intro x; simp [expandEs, usesEs, TakesEs, AsksEs]
  | e :: es, sc, m => by
    intro x
    have h1 := moves_e e sc m x
    have h2 := moves_es es sc (e.expand.uses sc m).2 x
    simp only [expandEs, usesEs, TakesEs, AsksEs]
    grind
theorem moves_ss : ∀ (ss : List Stmt) (sc : Scope) (m : Moves),
    After sc m (usesSs sc m (expandSs ss)).2 (TakesSs (here (place sc)) ss) (AsksSs (here (place sc)) ss)
  | [], sc, m => by intro x; simp [expandSs, usesSs, TakesSs, AsksSs]
  | .expr e :: ss, sc, m => by
    intro x
    have h1 := moves_e e sc m x
    have h2 := moves_ss ss sc (e.expand.uses sc m).2 x
    simp only [expandSs, Stmt.expand, usesSs, TakesSs, AsksSs]
    grind
  | .let_ y l e :: ss, sc, m => by
    intro x
    have h1 := moves_e e sc m x
    have h2 := moves_ss ss { sc with ribs := .bind (user y) l :: sc.ribs } (e.expand.uses sc m).2 x
    rw [place_bind] at h2
    simp only [expandSs, Stmt.expand, usesSs, TakesSs, AsksSs]
    grind
  | .fn_ styled l ps b :: ss, sc, m => by
    rw [fn_uses]
    simp only [TakesSs, AsksSs]
    exact moves_ss ss sc m
  | .macro_ l :: ss, sc, m => by
    intro x
    have h2 := moves_ss ss { ribs := .macroDef l :: sc.ribs, cur := .own l } m x
    rw [place_own] at h2
    simp only [expandSs, Stmt.expand, usesSs, TakesSs, AsksSs]
    have h3 := takes_ss ss
    have h4 := asks_ss ss
    simp only [here] at h2
    grind
end

/-! ### Variables that are gone -/

/-- No call of `css!` uses a variable that is gone. -/
def Clean (us : List Use) : Prop := ∀ r, Use.css (.manager r true) ∉ us

theorem clean_append (a b : List Use) : Clean (a ++ b) ↔ Clean a ∧ Clean b := by
  simp only [Clean, List.mem_append, not_or]
  exact ⟨fun h => ⟨fun r => (h r).1, fun r => (h r).2⟩, fun h r => ⟨h.1 r, h.2 r⟩⟩

theorem callCss_clean (sc : Scope) (m : Moves) :
    Clean (callCss sc m).1 ↔ ∀ l, place sc = .component l → l ∉ m.moved := by
  unfold callCss place
  cases h : sc.cur with
  | imported => simp [Clean]
  | own l => simp [Clean]
  | rules y l =>
    simp only
    split
    · rename_i hb; simp [hb, Clean]
    · rename_i r hr
      cases hl : lookup ⟨y.name, .mac l :: y.marks⟩ false sc.ribs with
      | binder b => exact absurd hl (hr b)
      | unbound => simp [Clean]
      | captured => simp [Clean]

/-- The code is clean when it starts with these moves. -/
def CleanFrom (sc : Scope) (m : Moves) (us : List Use) (kept asks : Prop) : Prop :=
  Clean us ↔ kept ∧ ∀ l, place sc = .component l → l ∈ m.moved → ¬ asks

theorem here_component {p : Meaning} (h : here p = true) : ∃ l, p = .component l := by
  cases p <;> simp_all [here]

theorem takes_component_es {p : Meaning} {es : List Expr} (h : TakesEs (here p) es) : ∃ l, p = .component l := by
  cases hp : here p with
  | true => exact here_component hp
  | false => rw [hp] at h; exact absurd h (takes_es es)

theorem takes_component_e {p : Meaning} {e : Expr} (h : Takes (here p) e) : ∃ l, p = .component l := by
  cases hp : here p with
  | true => exact here_component hp
  | false => rw [hp] at h; exact absurd h (takes_e e)

theorem takes_component_ss {p : Meaning} {ss : List Stmt} (h : TakesSs (here p) ss) : ∃ l, p = .component l := by
  cases hp : here p with
  | true => exact here_component hp
  | false => rw [hp] at h; exact absurd h (takes_ss ss)

/-- One piece of code after the other. -/
theorem clean_seq {sc : Scope} {m m1 : Moves} {us us2 : List Use} {k k2 t a a2 : Prop}
    (h1 : CleanFrom sc m us k a) (h2 : CleanFrom sc m1 us2 k2 a2)
    (hm : ∀ x, x ∈ m1.moved ↔ x ∈ m.moved ∨ place sc = .component x ∧ t)
    (ht : t → ∃ l, place sc = .component l) :
    CleanFrom sc m (us ++ us2) (k ∧ k2 ∧ (t → ¬ a2)) (a ∨ a2) := by
  unfold CleanFrom at *
  rw [clean_append, h1, h2]
  constructor
  · rintro ⟨⟨hk, hl⟩, hk2, hl2⟩
    refine ⟨⟨hk, hk2, ?_⟩, ?_⟩
    · intro t1
      obtain ⟨l, e⟩ := ht t1
      exact hl2 l e ((hm l).2 (.inr ⟨e, t1⟩))
    · intro l e hmem
      exact fun o => o.elim (hl l e hmem) (hl2 l e ((hm l).2 (.inl hmem)))
  · rintro ⟨⟨hk, hk2, hta⟩, hl⟩
    refine ⟨⟨hk, fun l e hmem o => hl l e hmem (.inl o)⟩, hk2, ?_⟩
    intro l e hmem
    rcases (hm l).1 hmem with h | ⟨_, h⟩
    · exact fun o => hl l e h (.inr o)
    · exact hta h

mutual
theorem clean_e : ∀ (e : Expr) (sc : Scope) (m : Moves),
    CleanFrom sc m (e.expand.uses sc m).1 (Kept (here (place sc)) e) (Asks (here (place sc)) e)
  | .var x, sc, m => by simp [CleanFrom, Clean, Expr.expand, CExpr.uses, Kept, Asks]
  | .css args, sc, m => by
    have h := clean_es args sc m
    have hm := fun x => (moves_es args sc m x).1
    have h2 : CleanFrom sc (usesEs sc m (expandEs args)).2 (callCss sc (usesEs sc m (expandEs args)).2).1 True
        (here (place sc) = true) := by
      unfold CleanFrom
      rw [callCss_clean]
      constructor
      · intro h; exact ⟨trivial, fun l e hmem _ => h l e hmem⟩
      · rintro ⟨-, h⟩ l e hmem; exact h l e hmem (component_here e)
    have h3 := clean_seq h h2 hm takes_component_es
    simp only [Expr.expand, CExpr.uses, Kept, Asks]
    unfold CleanFrom at *
    rw [h3]
    grind
  | .app es, sc, m => by
    simp only [Expr.expand, CExpr.uses, Kept, Asks]; exact clean_es es sc m
  | .block b, sc, m => by
    simp only [Expr.expand, CExpr.uses, Kept, Asks]; exact clean_ss b sc m
  | .closure mv ps b, sc, m => by
    have h := clean_ss b (sc.bindAll (params ps)) { moved := m.moved, mentioned := [] }
    unfold CleanFrom at *
    rw [place_bindAll] at h
    simpa only [Expr.expand, CExpr.uses, Kept, Asks] using h
  | .cond c a b, sc, m => by
    have h := clean_e c sc m
    have hm := fun x => (moves_e c sc m x).1
    have ha := clean_ss a sc (c.expand.uses sc m).2
    have hb := clean_ss b sc (c.expand.uses sc m).2
    have h2 : CleanFrom sc (c.expand.uses sc m).2
        ((usesSs sc (c.expand.uses sc m).2 (expandSs a)).1 ++ (usesSs sc (c.expand.uses sc m).2 (expandSs b)).1)
        (KeptSs (here (place sc)) a ∧ KeptSs (here (place sc)) b)
        (AsksSs (here (place sc)) a ∨ AsksSs (here (place sc)) b) := by
      unfold CleanFrom at *
      rw [clean_append, ha, hb]
      grind
    have h3 := clean_seq h h2 hm takes_component_e
    simp only [Expr.expand, CExpr.uses, Kept, Asks, List.append_assoc]
    unfold CleanFrom at *
    rw [h3]
    grind
  | .loop b, sc, m => by
    have h := clean_ss b sc (usesSs sc m (expandSs b)).2
    have hm := fun x => (moves_ss b sc m x).1
    have ht : TakesSs (here (place sc)) b → AsksSs (here (place sc)) b := asks_of_takes_ss b _
    have hc := @takes_component_ss (place sc) b
    simp only [Expr.expand, CExpr.uses, Kept, Asks]
    unfold CleanFrom at *
    rw [h]
    constructor
    · rintro ⟨hk, hl⟩
      refine ⟨⟨hk, fun t => ?_⟩, fun l e hmem => hl l e ((hm l).2 (.inl hmem))⟩
      obtain ⟨l, e⟩ := hc t
      exact hl l e ((hm l).2 (.inr ⟨e, t⟩)) (ht t)
    · rintro ⟨⟨hk, hn⟩, hl⟩
      refine ⟨hk, fun l e hmem => ?_⟩
      rcases (hm l).1 hmem with h | ⟨_, h⟩
      · exact hl l e h
      · exact absurd h hn
theorem clean_es : ∀ (es : List Expr) (sc : Scope) (m : Moves),
    CleanFrom sc m (usesEs sc m (expandEs es)).1 (KeptEs (here (place sc)) es) (AsksEs (here (place sc)) es)
  | [], sc, m => by simp [CleanFrom, Clean, expandEs, usesEs, KeptEs, AsksEs]
  | e :: es, sc, m => by
    simp only [expandEs, usesEs, KeptEs, AsksEs]
    exact clean_seq (clean_e e sc m) (clean_es es sc _) (fun x => (moves_e e sc m x).1) takes_component_e
theorem clean_ss : ∀ (ss : List Stmt) (sc : Scope) (m : Moves),
    CleanFrom sc m (usesSs sc m (expandSs ss)).1 (KeptSs (here (place sc)) ss) (AsksSs (here (place sc)) ss)
  | [], sc, m => by simp [CleanFrom, Clean, expandSs, usesSs, KeptSs, AsksSs]
  | .expr e :: ss, sc, m => by
    simp only [expandSs, Stmt.expand, usesSs, KeptSs, AsksSs]
    exact clean_seq (clean_e e sc m) (clean_ss ss sc _) (fun x => (moves_e e sc m x).1) takes_component_e
  | .let_ y l e :: ss, sc, m => by
    have h := clean_ss ss { sc with ribs := .bind (user y) l :: sc.ribs } (e.expand.uses sc m).2
    unfold CleanFrom at h
    rw [place_bind] at h
    simp only [expandSs, Stmt.expand, usesSs, KeptSs, AsksSs]
    exact clean_seq (clean_e e sc m) h (fun x => (moves_e e sc m x).1) takes_component_e
  | .fn_ styled l ps b :: ss, sc, m => by
    have h := clean_ss b (bodyScope sc styled l ps) ⟨[], []⟩
    have h2 := clean_ss ss sc m
    have hs : here ((place sc).inside styled l) = styled := by
      unfold Meaning.inside
      cases styled with
      | true => rfl
      | false => cases place sc <;> rfl
    rw [fn_uses]
    simp only [KeptSs, AsksSs]
    unfold CleanFrom at *
    rw [place_body, hs] at h
    rw [clean_append, h, h2]
    simp [and_assoc]
  | .macro_ l :: ss, sc, m => by
    have h := clean_ss ss { ribs := .macroDef l :: sc.ribs, cur := .own l } m
    have ha := asks_ss ss
    unfold CleanFrom at *
    rw [place_own] at h
    simp only [expandSs, Stmt.expand, usesSs, KeptSs, AsksSs]
    simp only [here] at h
    rw [h]
    simp [ha]
end
/-! ### Code without attributes -/

mutual
theorem without_meaning_e : ∀ (e : Expr) (p : Meaning), here p = false → p ≠ .lost → .lost ∉ meanings p (withoutE e)
  | .var x, p, hh, h => by simp [withoutE, meanings]
  | .css args, p, hh, h => by
    simp [withoutE, meanings, without_meaning_es args p hh h, Ne.symm h]
  | .app es, p, hh, h => by simpa only [withoutE, meanings] using without_meaning_es es p hh h
  | .block b, p, hh, h => by simpa only [withoutE, meanings] using without_meaning_ss b p hh h
  | .closure mv ps b, p, hh, h => by simpa only [withoutE, meanings] using without_meaning_ss b p hh h
  | .cond c a b, p, hh, h => by
    simp [withoutE, meanings, without_meaning_e c p hh h, without_meaning_ss a p hh h, without_meaning_ss b p hh h]
  | .loop b, p, hh, h => by simpa only [withoutE, meanings] using without_meaning_ss b p hh h
theorem without_meaning_es : ∀ (es : List Expr) (p : Meaning), here p = false → p ≠ .lost →
    .lost ∉ meaningsEs p (withoutEs es)
  | [], p, hh, h => by simp [withoutEs, meaningsEs]
  | e :: es, p, hh, h => by
    simp [withoutEs, meaningsEs, without_meaning_e e p hh h, without_meaning_es es p hh h]
theorem without_meaning_ss : ∀ (ss : List Stmt) (p : Meaning), here p = false → p ≠ .lost →
    .lost ∉ meaningsSs p (withoutSs ss)
  | [], p, hh, h => by simp [withoutSs, meaningsSs]
  | .expr e :: ss, p, hh, h => by
    simp [withoutSs, withoutS, meaningsSs, without_meaning_e e p hh h, without_meaning_ss ss p hh h]
  | .let_ x l e :: ss, p, hh, h => by
    simp [withoutSs, withoutS, meaningsSs, without_meaning_e e p hh h, without_meaning_ss ss p hh h]
  | .fn_ s l ps b :: ss, p, hh, h => by
    have hp : p.inside false l = p := by unfold Meaning.inside; cases p <;> simp_all [here]
    simp [withoutSs, withoutS, meaningsSs, hp, without_meaning_ss b p hh h, without_meaning_ss ss p hh h]
  | .macro_ l :: ss, p, hh, h => by
    simpa only [withoutSs, withoutS, meaningsSs] using without_meaning_ss ss (.own l) rfl (by simp)
end

mutual
theorem without_kept_e : ∀ (e : Expr), Kept false (withoutE e)
  | .var x => by simp [withoutE, Kept]
  | .css args => by simp [withoutE, Kept, without_kept_es args]
  | .app es => by simpa only [withoutE, Kept] using without_kept_es es
  | .block b => by simpa only [withoutE, Kept] using without_kept_ss b
  | .closure mv ps b => by simpa only [withoutE, Kept] using without_kept_ss b
  | .cond c a b => by
    simp [withoutE, Kept, without_kept_e c, without_kept_ss a, without_kept_ss b, takes_e]
  | .loop b => by simp [withoutE, Kept, without_kept_ss b, takes_ss]
theorem without_kept_es : ∀ (es : List Expr), KeptEs false (withoutEs es)
  | [] => by simp [withoutEs, KeptEs]
  | e :: es => by simp [withoutEs, KeptEs, without_kept_e e, without_kept_es es, takes_e]
theorem without_kept_ss : ∀ (ss : List Stmt), KeptSs false (withoutSs ss)
  | [] => by simp [withoutSs, KeptSs]
  | .expr e :: ss => by simp [withoutSs, withoutS, KeptSs, without_kept_e e, without_kept_ss ss, takes_e]
  | .let_ x l e :: ss => by simp [withoutSs, withoutS, KeptSs, without_kept_e e, without_kept_ss ss, takes_e]
  | .fn_ s l ps b :: ss => by simp [withoutSs, withoutS, KeptSs, without_kept_ss b, without_kept_ss ss]
  | .macro_ l :: ss => by simpa only [withoutSs, withoutS, KeptSs] using without_kept_ss ss
end

/-! ### Compiling -/

theorem errors_iff (us : List Use) :
    (us.all fun u => !u.error) = true ↔
      (∀ v ∈ variableUses us, ∃ l, v.2 = .binder l) ∧ .lost ∉ cssUses us ∧ Clean us := by
  induction us with
  | nil => simp [variableUses, cssUses, Clean]
  | cons u us ih =>
    have hc : Clean (u :: us) ↔ (∀ r, Use.css (.manager r true) ≠ u) ∧ Clean us := by
      simp only [Clean, List.mem_cons, not_or]
      exact ⟨fun h => ⟨fun r => (h r).1, fun r => (h r).2⟩, fun h r => ⟨h.1 r, h.2 r⟩⟩
    simp only [List.all_cons, Bool.and_eq_true, ih, hc]
    cases u with
    | var x r => cases r <;> simp [Use.error, variableUses, cssUses]
    | css t =>
      cases t with
      | imported => simp [Use.error, variableUses, cssUses]
      | own l => simp [Use.error, variableUses, cssUses]
      | manager r g =>
        cases r <;> cases g <;> simp [Use.error, variableUses, cssUses]

theorem compiles_iff (b : List Stmt) :
    compiles b = true ↔
      (∀ v ∈ variableUses (uses (expandSs (withoutSs b))), ∃ l, v.2 = .binder l) ∧
        .lost ∉ meaningsSs .imported b ∧ KeptSs false b := by
  unfold compiles
  rw [errors_iff]
  unfold uses
  rw [vars_ss b ⟨[], .imported⟩ ⟨[], .imported⟩ ⟨[], []⟩ ⟨[], []⟩ rfl, meaning_ss b]
  have h := clean_ss b ⟨[], .imported⟩ ⟨[], []⟩
  unfold CleanFrom at h
  rw [h]
  simp [place, here]

mutual
theorem without_twice_e : ∀ (e : Expr), withoutE (withoutE e) = withoutE e
  | .var x => by simp [withoutE]
  | .css args => by simp [withoutE, without_twice_es args]
  | .app es => by simp [withoutE, without_twice_es es]
  | .block b => by simp [withoutE, without_twice_ss b]
  | .closure mv ps b => by simp [withoutE, without_twice_ss b]
  | .cond c a b => by simp [withoutE, without_twice_e c, without_twice_ss a, without_twice_ss b]
  | .loop b => by simp [withoutE, without_twice_ss b]
theorem without_twice_es : ∀ (es : List Expr), withoutEs (withoutEs es) = withoutEs es
  | [] => by simp [withoutEs]
  | e :: es => by simp [withoutEs, without_twice_e e, without_twice_es es]
theorem without_twice_ss : ∀ (ss : List Stmt), withoutSs (withoutSs ss) = withoutSs ss
  | [] => by simp [withoutSs]
  | .expr e :: ss => by simp [withoutSs, withoutS, without_twice_e e, without_twice_ss ss]
  | .let_ x l e :: ss => by simp [withoutSs, withoutS, without_twice_e e, without_twice_ss ss]
  | .fn_ s l ps b :: ss => by simp [withoutSs, withoutS, without_twice_ss b, without_twice_ss ss]
  | .macro_ l :: ss => by simp [withoutSs, withoutS, without_twice_ss ss]
end

theorem compiles_without (b : List Stmt) :
    compiles (withoutSs b) = true ↔ ∀ v ∈ variableUses (uses (expandSs (withoutSs b))), ∃ l, v.2 = .binder l := by
  rw [compiles_iff, without_twice_ss]
  simp [without_kept_ss, without_meaning_ss b .imported rfl (by simp)]

/-! ### Plain code -/

mutual
theorem plain_meaning_e : ∀ (e : Expr) (p : Meaning), PlainE e → ∀ q ∈ meanings p e, q = p
  | .var x, p, h => by simp [meanings]
  | .css args, p, h => by
    simp only [PlainE] at h
    simp only [meanings, List.mem_append, List.mem_singleton]
    exact fun q hq => hq.elim (plain_meaning_es args p h q) id
  | .app es, p, h => by simp only [PlainE] at h; simpa only [meanings] using plain_meaning_es es p h
  | .block b, p, h => by simp only [PlainE] at h; simpa only [meanings] using plain_meaning_ss b p h
  | .closure mv ps b, p, h => by simp only [PlainE] at h; simpa only [meanings] using plain_meaning_ss b p h.2
  | .cond c a b, p, h => by
    simp only [PlainE] at h
    simp only [meanings, List.mem_append]
    exact fun q hq => hq.elim (fun hq => hq.elim (plain_meaning_e c p h.1 q) (plain_meaning_ss a p h.2.1 q))
      (plain_meaning_ss b p h.2.2 q)
  | .loop b, p, h => by simp only [PlainE] at h; simpa only [meanings] using plain_meaning_ss b p h
theorem plain_meaning_es : ∀ (es : List Expr) (p : Meaning), PlainEs es → ∀ q ∈ meaningsEs p es, q = p
  | [], p, h => by simp [meaningsEs]
  | e :: es, p, h => by
    simp only [PlainEs] at h
    simp only [meaningsEs, List.mem_append]
    exact fun q hq => hq.elim (plain_meaning_e e p h.1 q) (plain_meaning_es es p h.2 q)
theorem plain_meaning_ss : ∀ (ss : List Stmt) (p : Meaning), PlainSs ss → ∀ q ∈ meaningsSs p ss, q = p
  | [], p, h => by simp [meaningsSs]
  | .expr e :: ss, p, h => by
    simp only [PlainSs] at h
    simp only [meaningsSs, List.mem_append]
    exact fun q hq => hq.elim (plain_meaning_e e p h.1 q) (plain_meaning_ss ss p h.2 q)
  | .let_ x l e :: ss, p, h => by
    simp only [PlainSs] at h
    simp only [meaningsSs, List.mem_append]
    exact fun q hq => hq.elim (plain_meaning_e e p h.1 q) (plain_meaning_ss ss p h.2 q)
  | .fn_ s l ps b :: ss, p, h => by simp [PlainSs] at h
  | .macro_ l :: ss, p, h => by simp [PlainSs] at h
end

mutual
theorem plain_takes_e : ∀ (e : Expr) (b : Bool), PlainE e → ¬ Takes b e
  | .var x, b, h => by simp [Takes]
  | .css args, b, h => by simp only [PlainE] at h; simpa only [Takes] using plain_takes_es args b h
  | .app es, b, h => by simp only [PlainE] at h; simpa only [Takes] using plain_takes_es es b h
  | .block s, b, h => by simp only [PlainE] at h; simpa only [Takes] using plain_takes_ss s b h
  | .closure mv ps s, b, h => by
    simp only [PlainE] at h; simp [Takes, h.1, plain_takes_ss s b h.2]
  | .cond c x y, b, h => by
    simp only [PlainE] at h
    simp [Takes, plain_takes_e c b h.1, plain_takes_ss x b h.2.1, plain_takes_ss y b h.2.2]
  | .loop s, b, h => by simp only [PlainE] at h; simpa only [Takes] using plain_takes_ss s b h
theorem plain_takes_es : ∀ (es : List Expr) (b : Bool), PlainEs es → ¬ TakesEs b es
  | [], b, h => by simp [TakesEs]
  | e :: es, b, h => by
    simp only [PlainEs] at h; simp [TakesEs, plain_takes_e e b h.1, plain_takes_es es b h.2]
theorem plain_takes_ss : ∀ (ss : List Stmt) (b : Bool), PlainSs ss → ¬ TakesSs b ss
  | [], b, h => by simp [TakesSs]
  | .expr e :: ss, b, h => by
    simp only [PlainSs] at h; simp [TakesSs, plain_takes_e e b h.1, plain_takes_ss ss b h.2]
  | .let_ x l e :: ss, b, h => by
    simp only [PlainSs] at h; simp [TakesSs, plain_takes_e e b h.1, plain_takes_ss ss b h.2]
  | .fn_ s l ps b :: ss, p, h => by simp [PlainSs] at h
  | .macro_ l :: ss, p, h => by simp [PlainSs] at h
end

mutual
theorem plain_kept_e : ∀ (e : Expr) (b : Bool), PlainE e → Kept b e
  | .var x, b, h => by simp [Kept]
  | .css args, b, h => by
    simp only [PlainE] at h; simp [Kept, plain_kept_es args b h, plain_takes_es args b h]
  | .app es, b, h => by simp only [PlainE] at h; simpa only [Kept] using plain_kept_es es b h
  | .block s, b, h => by simp only [PlainE] at h; simpa only [Kept] using plain_kept_ss s b h
  | .closure mv ps s, b, h => by simp only [PlainE] at h; simpa only [Kept] using plain_kept_ss s b h.2
  | .cond c x y, b, h => by
    simp only [PlainE] at h
    simp [Kept, plain_takes_e c b h.1, plain_kept_e c b h.1, plain_kept_ss x b h.2.1, plain_kept_ss y b h.2.2]
  | .loop s, b, h => by
    simp only [PlainE] at h; simp [Kept, plain_kept_ss s b h, plain_takes_ss s b h]
theorem plain_kept_es : ∀ (es : List Expr) (b : Bool), PlainEs es → KeptEs b es
  | [], b, h => by simp [KeptEs]
  | e :: es, b, h => by
    simp only [PlainEs] at h
    simp [KeptEs, plain_kept_e e b h.1, plain_kept_es es b h.2, plain_takes_e e b h.1]
theorem plain_kept_ss : ∀ (ss : List Stmt) (b : Bool), PlainSs ss → KeptSs b ss
  | [], b, h => by simp [KeptSs]
  | .expr e :: ss, b, h => by
    simp only [PlainSs] at h
    simp [KeptSs, plain_kept_e e b h.1, plain_kept_ss ss b h.2, plain_takes_e e b h.1]
  | .let_ x l e :: ss, b, h => by
    simp only [PlainSs] at h
    simp [KeptSs, plain_kept_e e b h.1, plain_kept_ss ss b h.2, plain_takes_e e b h.1]
  | .fn_ s l ps b :: ss, p, h => by simp [PlainSs] at h
  | .macro_ l :: ss, p, h => by simp [PlainSs] at h
end

/-! ### Variables refer to binders of the user -/

/-- The binder of a user's variable is around. -/
def Around (sc : Scope) (v : Str × Nat) : Prop := Rib.bind (user v.1) v.2 ∈ sc.ribs

theorem lookup_around (x : Str) (l : Nat) (rs : List Rib) (c : Bool) (h : lookup (user x) c rs = .binder l) :
    Rib.bind (user x) l ∈ rs := by
  induction rs generalizing c with
  | nil => simp [lookup] at h
  | cons r rs ih =>
    cases r with
    | bind y k =>
      simp only [lookup] at h
      split at h
      · rename_i e; subst e
        cases c <;> simp at h
        simp [h]
      · exact .tail _ (ih c h)
    | fnItem => exact .tail _ (ih true h)
    | macroDef k => exact .tail _ (ih c (by simpa [lookup, Id.leave, user] using h))

theorem around_bindAll (sc : Scope) (ps : List (Str × Nat)) (v : Str × Nat) :
    Around (sc.bindAll (params ps)) v ↔ v ∈ ps ∨ Around sc v := by
  simp only [Around, Scope.bindAll, params, List.mem_append, List.mem_map, List.mem_reverse]
  constructor
  · rintro (⟨a, ⟨b, hb, rfl⟩, h⟩ | h)
    · simp only [Rib.bind.injEq, user, Id.mk.injEq, and_true] at h
      exact .inl (by rw [show v = b from Prod.ext h.1.symm h.2.symm]; exact hb)
    · exact .inr h
  · rintro (h | h)
    · exact .inl ⟨_, ⟨v, h, rfl⟩, rfl⟩
    · exact .inr h

theorem around_bind (sc : Scope) (x : Str) (l : Nat) (v : Str × Nat) :
    Around { sc with ribs := .bind (user x) l :: sc.ribs } v ↔ v = (x, l) ∨ Around sc v := by
  simp only [Around, List.mem_cons, Rib.bind.injEq, user, Id.mk.injEq, and_true]
  rw [Prod.ext_iff]

theorem around_body (sc : Scope) (styled : Bool) (l : Nat) (ps : List (Str × Nat)) (v : Str × Nat) :
    Around (bodyScope sc styled l ps) v ↔ v ∈ ps ∨ Around sc v := by
  have h : Around (inFn sc ps) v ↔ v ∈ ps ∨ Around sc v := by
    rw [inFn, around_bindAll]; simp [Around]
  cases styled with
  | false => simpa [bodyScope] using h
  | true =>
    rw [← h]
    simp [bodyScope, inStyled, Around, user, hidden]

mutual
theorem binders_e : ∀ (e : Expr) (sc : Scope) (m : Moves) (x : Str) (l : Nat),
    (x, Res.binder l) ∈ variableUses (e.expand.uses sc m).1 → (x, l) ∈ bindersE e ∨ Around sc (x, l)
  | .var y, sc, m, x, l => by
    simp only [Expr.expand, CExpr.uses, variableUses, List.filterMap_cons, List.filterMap_nil, List.mem_singleton,
      Prod.mk.injEq, bindersE]
    rintro ⟨rfl, h⟩
    exact .inr (lookup_around _ _ _ _ h.symm)
  | .css args, sc, m, x, l => by
    simp only [Expr.expand, CExpr.uses, variableUses_append, callCss_vars, List.append_nil, bindersE]
    exact binders_es args sc m x l
  | .app es, sc, m, x, l => by
    simp only [Expr.expand, CExpr.uses, bindersE]; exact binders_es es sc m x l
  | .block b, sc, m, x, l => by
    simp only [Expr.expand, CExpr.uses, bindersE]; exact binders_ss b sc m x l
  | .closure mv ps b, sc, m, x, l => by
    simp only [Expr.expand, CExpr.uses, bindersE, List.mem_append]
    intro h
    have := binders_ss b _ _ x l h
    rw [around_bindAll] at this
    grind
  | .cond c a b, sc, m, x, l => by
    simp only [Expr.expand, CExpr.uses, bindersE, List.mem_append, variableUses_append]
    have h1 := binders_e c sc m x l
    have h2 := binders_ss a sc (c.expand.uses sc m).2 x l
    have h3 := binders_ss b sc (c.expand.uses sc m).2 x l
    grind
  | .loop b, sc, m, x, l => by
    simp only [Expr.expand, CExpr.uses, bindersE]; exact binders_ss b sc _ x l
theorem binders_es : ∀ (es : List Expr) (sc : Scope) (m : Moves) (x : Str) (l : Nat),
    (x, Res.binder l) ∈ variableUses (usesEs sc m (expandEs es)).1 → (x, l) ∈ bindersEs es ∨ Around sc (x, l)
  | [], sc, m, x, l => by simp [expandEs, usesEs, variableUses]
  | e :: es, sc, m, x, l => by
    simp only [expandEs, usesEs, variableUses_append, List.mem_append, bindersEs]
    have h1 := binders_e e sc m x l
    have h2 := binders_es es sc (e.expand.uses sc m).2 x l
    grind
theorem binders_ss : ∀ (ss : List Stmt) (sc : Scope) (m : Moves) (x : Str) (l : Nat),
    (x, Res.binder l) ∈ variableUses (usesSs sc m (expandSs ss)).1 → (x, l) ∈ bindersSs ss ∨ Around sc (x, l)
  | [], sc, m, x, l => by simp [expandSs, usesSs, variableUses]
  | .expr e :: ss, sc, m, x, l => by
    simp only [expandSs, Stmt.expand, usesSs, variableUses_append, List.mem_append, bindersSs]
    have h1 := binders_e e sc m x l
    have h2 := binders_ss ss sc (e.expand.uses sc m).2 x l
    grind
  | .let_ y k e :: ss, sc, m, x, l => by
    simp only [expandSs, Stmt.expand, usesSs, variableUses_append, List.mem_append, bindersSs, List.cons_append,
      List.mem_cons]
    have h1 := binders_e e sc m x l
    have h2 := binders_ss ss { sc with ribs := .bind (user y) k :: sc.ribs } (e.expand.uses sc m).2 x l
    rw [around_bind] at h2
    grind
  | .fn_ s k ps b :: ss, sc, m, x, l => by
    rw [fn_uses]
    simp only [variableUses_append, List.mem_append, bindersSs]
    have h1 := binders_ss b (bodyScope sc s k ps) ⟨[], []⟩ x l
    rw [around_body] at h1
    have h2 := binders_ss ss sc m x l
    grind
  | .macro_ k :: ss, sc, m, x, l => by
    simp only [expandSs, Stmt.expand, usesSs, bindersSs]
    intro h
    have := binders_ss ss _ _ x l h
    simpa [Around] using this
end

end StyledP
