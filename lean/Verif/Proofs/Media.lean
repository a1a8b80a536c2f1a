import Verif.Spec.Media

/-!
# Invariants of the media query hooks
-/

namespace Media

theorem run_append (k : Hook) : ∀ (a b : List Event) (s : St), run k (a ++ b) s = run k b (run k a s)
  | [], _, _ => rfl
  | _ :: a, b, _ => run_append k a b _

/-- What holds for both hooks. -/
structure Inv (s : St) : Prop where
  shown : s.dirty = false → s.query ≠ none → s.shown = s.state
  deps : s.deps = s.query
  effect : ∀ q, s.effect = some q → s.query = some q
  listener : ∀ q, s.query = some q → s.effect = none → ∃ last, s.listener = some (q, last)

theorem Inv.init (f : Str → Bool) : Inv (St.init f) := by
  constructor <;> simp [St.init]

theorem Inv.step (k : Hook) {s : St} (e : Event) (h : Inv s) : Inv (step k s e) := by
  cases e with
  | render q =>
    simp only [Media.step, render]
    by_cases hd : s.deps = some q
    · have hq : s.query = some q := by rw [← h.deps, hd]
      simp only [hq, Option.isNone_some, Bool.false_eq_true, if_false, hd, if_true]
      constructor
      · intros; rfl
      · simp
      · intro q' he; rw [← hq]; exact h.effect q' he
      · intro q' hq' he
        simp only [Option.some.injEq] at hq'
        subst hq'
        exact h.listener q hq he
    · have hd' : ¬ (if s.query.isNone = true then { s with state := k.first (some (s.media q)) } else s).deps = some q := by
        split <;> exact hd
      simp only [hd', if_false]
      constructor
      · intros; rfl
      · rfl
      · intro q' he; exact he
      · intro q' _ he; cases he
  | effect =>
    simp only [Media.step, runEffect]
    split
    · exact h
    · rename_i q hq
      have hq' := h.effect q hq
      cases k with
      | plain =>
        constructor
        · exact h.shown
        · exact h.deps
        · simp
        · intro q' hq'' _
          simp only [hq', Option.some.injEq] at hq''
          subst hq''
          exact ⟨_, rfl⟩
      | prepared v f =>
        simp only [St.set]
        split
        · constructor
          · exact h.shown
          · exact h.deps
          · simp
          · intro q' hq'' _
            simp only [hq', Option.some.injEq] at hq''
            subst hq''
            exact ⟨_, rfl⟩
        · constructor
          · simp
          · exact h.deps
          · simp
          · intro q' hq'' _
            simp only [hq', Option.some.injEq] at hq''
            subst hq''
            exact ⟨_, rfl⟩
  | media f => exact ⟨h.shown, h.deps, h.effect, h.listener⟩
  | report =>
    simp only [Media.step, report]
    split
    · exact h
    · rename_i q last hl
      split
      · exact h
      · have hlis : ∀ q', s.query = some q' → s.effect = none → q' = q := by
          intro q' h1 h2
          obtain ⟨l, h3⟩ := h.listener q' h1 h2
          rw [hl] at h3; cases h3; rfl
        simp only [St.set]
        split
        · exact ⟨h.shown, h.deps, h.effect, fun q' h1 h2 => ⟨s.media q, by have := hlis q' h1 h2; subst this; rfl⟩⟩
        · exact ⟨by simp, h.deps, h.effect, fun q' h1 h2 => ⟨s.media q, by have := hlis q' h1 h2; subst this; rfl⟩⟩

theorem Inv.run (k : Hook) : ∀ (es : List Event) {s : St}, Inv s → Inv (run k es s)
  | [], _, h => h
  | e :: es, _, h => Inv.run k es (h.step k e)

/-- The state is what the browser reported last. -/
def Sync (s : St) : Prop := ∀ q last, s.effect = none → s.listener = some (q, last) → s.state = last

theorem sync_settled {s : St} (hi : Inv s) (h : Sync s) (hs : s.Settled) {q : Str} (hq : s.query = some q) :
    s.shown = s.media q := by
  obtain ⟨h1, h2, h3⟩ := hs
  obtain ⟨last, hl⟩ := hi.listener q hq h1
  rw [hi.shown h2 (by rw [hq]; simp), h q last h1 hl, h3 q last hl]

theorem sync_report {s : St} (h : ∀ q last, s.listener = some (q, last) → s.media q = last → s.state = last) :
    Sync (report s) := by
  simp only [report]
  split
  · rename_i hl
    intro q last _ hl'
    rw [hl] at hl'; cases hl'
  · rename_i q last hl
    split
    · rename_i hm
      intro q' last' _ hl'
      rw [hl] at hl'; cases hl'
      exact h q last hl hm
    · intro q' last' _ hl'
      simp only [St.set] at hl' ⊢
      split at hl' <;> rename_i he
      · simp only [Option.some.injEq, Prod.mk.injEq] at hl'
        rw [if_pos he, ← hl'.2]
        exact he.symm
      · simp only [Option.some.injEq, Prod.mk.injEq] at hl'
        rw [if_neg he]
        exact hl'.2

/-- Once in sync, the state stays in sync until an effect runs without setting it. -/
theorem Sync.step (k : Hook) {s : St} (e : Event) (h : Sync s)
    (he : e = .effect → (∃ v f, k = .prepared v f) ∨ s.effect = none)
    (hr : ∀ q, e = .render q → s.query ≠ none) : Sync (step k s e) := by
  cases e with
  | render q =>
    have hq : ¬ s.query.isNone = true := by
      have := hr q rfl
      cases hs : s.query with
      | none => exact absurd hs this
      | some _ => simp
    simp only [Media.step, render, hq]
    simp only [Bool.false_eq_true, if_false]
    split
    · exact h
    · intro q' last h1; cases h1
  | effect =>
    simp only [Media.step, runEffect]
    split
    · exact h
    · rename_i q hq
      rcases he rfl with ⟨v, f, rfl⟩ | he
      · intro q' last _ hl
        simp only [St.set] at hl ⊢
        split at hl <;> rename_i hx
        · simp only [Option.some.injEq, Prod.mk.injEq] at hl
          simp only [hx, if_true]
          rw [← hl.2]; exact hx.symm
        · simp only [Option.some.injEq, Prod.mk.injEq] at hl
          simp only [hx, if_false]
          exact hl.2
      · rw [he] at hq; cases hq
  | media f => exact h
  | report =>
    have h0 : s.effect = none ∨ s.effect ≠ none := Classical.em _
    rcases h0 with h0 | h0
    · exact sync_report (fun q last hl _ => h q last h0 hl)
    · have : (report s).effect ≠ none := by
        simp only [report, St.set]
        split
        · exact h0
        · split
          · exact h0
          · split <;> exact h0
      exact fun q last h1 => absurd h1 this

theorem query_run (k : Hook) {q0 : Str} : ∀ (es : List Event) {s : St}, s.query = some q0 → OnlyQuery q0 es →
    (run k es s).query = some q0
  | [], _, h, _ => h
  | e :: es, s, h, ho => by
    refine query_run k es ?_ (fun q' h' => ho q' (by simp [h']))
    cases e with
    | render q => have := ho q (by simp); subst this; rfl
    | effect =>
      simp only [step, runEffect]
      split
      · exact h
      · cases k with
        | plain => exact h
        | prepared => simp only [St.set]; split <;> exact h
    | media f => exact h
    | report =>
      simp only [step, report, St.set]
      split
      · exact h
      · split
        · exact h
        · split <;> exact h

/-- With one query and no effect waiting, none is scheduled. -/
theorem effect_step (k : Hook) {q0 : Str} {e : Event} {s : St} (hi : Inv s) (h : s.query = some q0)
    (ho : ∀ q, e = .render q → q = q0) (he : s.effect = none) : (step k s e).effect = none := by
  cases e with
  | render q =>
    have := ho q rfl; subst this
    have hd : s.deps = some q := by rw [hi.deps, h]
    simp only [step, render, h, Option.isNone_some, Bool.false_eq_true, if_false, hd, if_true]
    exact he
  | effect => simp [step, runEffect, he]
  | media f => exact he
  | report =>
    simp only [step, report, St.set]
    split
    · exact he
    · split
      · exact he
      · split <;> exact he

theorem effect_run (k : Hook) {q0 : Str} : ∀ (es : List Event) {s : St}, Inv s → s.query = some q0 → OnlyQuery q0 es →
    s.effect = none → (run k es s).effect = none
  | [], _, _, _, _, h => h
  | e :: es, s, hi, hq, ho, h => by
    have hq' := query_run k [e] hq (fun q' h' => ho q' (by simp at h'; simp [h']))
    exact effect_run k es (hi.step k e) hq' (fun q' h' => ho q' (by simp [h']))
      (effect_step k hi hq (fun q h' => ho q (by simp [h'])) h)

/-- A schedule with one query that starts in sync, with the effect done. -/
theorem sync_run (k : Hook) {q0 : Str} : ∀ (es : List Event) {s : St}, Inv s → s.query = some q0 → s.effect = none →
    OnlyQuery q0 es → Sync s → Sync (run k es s)
  | [], _, _, _, _, _, h => h
  | e :: es, s, hi, hq, he, ho, h => by
    have hq' := query_run k [e] hq (fun q' h' => ho q' (by simp at h'; simp [h']))
    refine sync_run k es (hi.step k e) hq' (effect_step k hi hq (fun q h' => ho q (by simp [h'])) he)
      (fun q' h' => ho q' (by simp [h'])) ?_
    exact h.step k e (fun _ => Or.inr he) (fun _ _ => by rw [hq]; simp)

/-- The second hook is always in sync after the first render. -/
theorem sync_prepared (v : Option Bool) (f : Bool) : ∀ (es : List Event) {s : St}, Inv s → (s.query = none → s.listener = none) →
    Sync s → Sync (run (.prepared v f) es s)
  | [], _, _, _, h => h
  | e :: es, s, hi, hn, h => by
    by_cases hq : s.query = none
    · have hl := hn hq
      have hd : s.deps = none := by rw [hi.deps, hq]
      have he : s.effect = none := by
        cases he : s.effect with
        | none => rfl
        | some q => have := hi.effect q he; rw [hq] at this; cases this
      refine sync_prepared v f es (hi.step _ e) ?_ ?_
      · intro hq'
        cases e with
        | render q => simp [step, render] at hq'
        | effect => simp [step, runEffect, he, hl]
        | media f => exact hl
        | report => simp [step, report, hl]
      · cases e with
        | render q => intro q' last h1; simp [step, render, hq, hd] at h1
        | effect => intro q' last _ h2; simp [step, runEffect, he, hl] at h2
        | media f => exact h
        | report => intro q' last _ h2; simp [step, report, hl] at h2
    · refine sync_prepared v f es (hi.step _ e) ?_ (h.step _ e (fun _ => Or.inl ⟨v, f, rfl⟩) (fun _ _ => hq))
      intro hq'
      exfalso
      cases e with
      | render q => simp [step, render] at hq'
      | effect =>
        simp only [step, runEffect, St.set] at hq'
        split at hq'
        · exact hq hq'
        · split at hq' <;> exact hq hq'
      | media f => exact hq hq'
      | report =>
        simp only [step, report, St.set] at hq'
        split at hq'
        · exact hq hq'
        · split at hq'
          · exact hq hq'
          · split at hq' <;> exact hq hq'

/-- While the media do not change, the state and the listener are up to date. -/
theorem before_effect {q : Str} (pre : List Event) : ∀ (s : St), Inv s → s.query = some q → s.state = s.media q →
    (∀ q' l, s.listener = some (q', l) → s.effect = none ∧ l = s.media q') → NoMedia pre → OnlyQuery q pre →
    (run .plain pre s).state = (run .plain pre s).media q ∧
      ∀ q' l, (run .plain pre s).listener = some (q', l) →
        (run .plain pre s).effect = none ∧ l = (run .plain pre s).media q' := by
  induction pre with
  | nil => intro s _ _ h h' _ _; exact ⟨h, h'⟩
  | cons e pre ih =>
    intro s hi hq hst hl hn ho
    have ho' : OnlyQuery q pre := fun q' h' => ho q' (by simp [h'])
    have hn' : NoMedia pre := fun g h' => hn g (by simp [h'])
    have hq' : (step .plain s e).query = some q := query_run .plain [e] hq (fun q' h' => ho q' (by simp at h'; simp [h']))
    cases e with
    | render q' =>
      have := ho q' (by simp); subst this
      have hd : s.deps = some q' := by rw [hi.deps, hq]
      have hstep : step .plain s (.render q') = { s with query := some q', shown := s.state, dirty := false } := by
        simp [step, render, hq, hd]
      have := ih (step .plain s (.render q')) (hi.step _ _) hq' (by rw [hstep]; exact hst) (by rw [hstep]; exact hl) hn' ho'
      exact this
    | effect =>
      cases he : s.effect with
      | none =>
        have hstep : step .plain s .effect = s := by simp [step, runEffect, he]
        simp only [run, hstep]
        exact ih s hi hq hst hl hn' ho'
      | some q' =>
        have hstep : step .plain s .effect = { s with effect := none, listener := some (q', s.media q') } := by
          simp [step, runEffect, he]
        refine ih _ (hi.step _ _) hq' (by rw [hstep]; exact hst) ?_ hn' ho'
        rw [hstep]
        intro q'' l h; cases h; exact ⟨rfl, rfl⟩
    | media g => exact absurd (by simp) (hn g)
    | report =>
      have hstep : step .plain s .report = s := by
        simp only [step, report]
        split
        · rfl
        · rename_i q' l h
          rw [if_pos (hl q' l h).2.symm]
      simp only [run, hstep]
      exact ih s hi hq hst hl hn' ho'

end Media
