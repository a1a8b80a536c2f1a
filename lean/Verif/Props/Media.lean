import Verif.Proofs.Media

/-!
# Properties of the media query hooks

C51 and C52. A reachable state is `run k es (St.init f)`: any schedule of renders with any
queries, of effects, of changes of the media and of deliveries of change events.
-/

namespace Media

/-- Both match / only wide matches, for the examples. -/
def demoWide : Str → Bool := fun q => q = c! "(min-width: 600px)"

/-- Only the other query matches. -/
def demoNarrow : Str → Bool := fun q => q = c! "(max-width: 599px)"

/-! ## C52: the prepared hook -/

/-- **C52**, the first render: the value prepared on the server is returned if there is
one, otherwise whether the query matches. Without Web APIs, as on the server, it is the
prepared value, or the fallback. -/
theorem C52_first (value : Option Bool) (fallback : Bool) (f : Str → Bool) (q : Str) :
    (∀ v, value = some v → (run (.prepared value fallback) [.render q] (St.init f)).shown = v) ∧
    (value = none → (run (.prepared value fallback) [.render q] (St.init f)).shown = f q) ∧
    (value = none → (Hook.prepared value fallback).first none = fallback) := by
  refine ⟨?_, ?_, ?_⟩
  · rintro v rfl; rfl
  · rintro rfl; rfl
  · rintro rfl; rfl

/-- **C52**, until the effect has run, the prepared value stays: hydration sees the same
value in every render before. -/
theorem C52_until_effect (v fallback : Bool) (f : Str → Bool) (q : Str) : ∀ (es : List Event), Event.effect ∉ es →
    (run (.prepared (some v) fallback) (.render q :: es) (St.init f)).shown = v := by
  intro es
  suffices h : ∀ (es : List Event) (s : St), Event.effect ∉ es → s.query ≠ none → s.listener = none → s.state = v → s.shown = v →
      (run (.prepared (some v) fallback) es s).shown = v by
    intro he
    exact h es _ he (by simp [step, render]) (by simp [step, render, St.init]) rfl rfl
  intro es
  induction es with
  | nil => intro s _ _ _ _ h; exact h
  | cons e es ih =>
    intro s he hq hl hst hsh
    have he' : Event.effect ∉ es := fun h => he (List.mem_cons_of_mem _ h)
    have hq' : ¬ s.query.isNone = true := by
      cases hs : s.query with
      | none => exact absurd hs hq
      | some _ => simp
    cases e with
    | render q' =>
      refine ih _ he' ?_ ?_ ?_ ?_ <;> simp only [step, render, hq', Bool.false_eq_true, if_false]
      · simp
      · split <;> exact hl
      · split <;> exact hst
      · split <;> exact hst
    | effect => exact absurd (List.mem_cons_self ..) he
    | media g => exact ih _ he' hq hl hst hsh
    | report =>
      simp only [run, step, report, hl]
      exact ih _ he' hq hl hst hsh

/-- **C52**: whatever was prepared, and whatever has happened, once nothing is outstanding
the hook returned in the last render whether the query of that render matches. -/
theorem C52_settled (value : Option Bool) (fallback : Bool) (f : Str → Bool) (es : List Event) (q : Str)
    (hq : (run (.prepared value fallback) es (St.init f)).query = some q)
    (hs : (run (.prepared value fallback) es (St.init f)).Settled) :
    (run (.prepared value fallback) es (St.init f)).shown = (run (.prepared value fallback) es (St.init f)).media q := by
  refine sync_settled ((Inv.init f).run _ es) ?_ hs hq
  exact sync_prepared value fallback es (Inv.init f) (fun _ => rfl) (fun _ _ _ h => by cases h)

/-- What is outstanding can be done: after running the effect, delivering the event and
rendering again with the same query, everything is settled, in any state. So the
hypothesis of `C52_settled` can always be met. -/
theorem C52_reaches_settled (k : Hook) (f : Str → Bool) (es : List Event) (q : Str)
    (hq : (run k es (St.init f)).query = some q) :
    (run k (es ++ [.effect, .report, .render q]) (St.init f)).Settled ∧
      (run k (es ++ [.effect, .report, .render q]) (St.init f)).query = some q ∧
      (run k (es ++ [.effect, .report, .render q]) (St.init f)).media = (run k es (St.init f)).media := by
  have hi := (Inv.init f).run k es
  rw [run_append]
  generalize run k es (St.init f) = s at *
  have he : (step k s .effect).effect = none ∧ (step k s .effect).query = some q ∧ (step k s .effect).media = s.media := by
    simp only [step, runEffect]
    split
    · rename_i h; exact ⟨h, hq, rfl⟩
    · cases k with
      | plain => exact ⟨rfl, hq, rfl⟩
      | prepared => simp only [St.set]; split <;> exact ⟨rfl, hq, rfl⟩
  have hi1 := hi.step k .effect
  simp only [run]
  generalize step k s .effect = s1 at *
  obtain ⟨e1, e2, e3⟩ := he
  have hr : (step k s1 .report).effect = none ∧ (step k s1 .report).query = some q ∧ (step k s1 .report).media = s.media ∧
      ∀ q last, (step k s1 .report).listener = some (q, last) → s.media q = last := by
    simp only [step, report]
    split
    · rename_i h; exact ⟨e1, e2, e3, fun _ _ h' => by rw [h] at h'; cases h'⟩
    · rename_i q' last h
      split
      · rename_i hm
        refine ⟨e1, e2, e3, fun _ _ h' => ?_⟩
        rw [h] at h'; cases h'
        rw [← e3]; exact hm
      · simp only [St.set]
        split
        · refine ⟨e1, e2, e3, fun _ _ h' => ?_⟩
          cases h'; rw [e3]
        · refine ⟨e1, e2, e3, fun _ _ h' => ?_⟩
          cases h'; rw [e3]
  have hi2 := hi1.step k .report
  generalize step k s1 .report = s2 at *
  obtain ⟨r1, r2, r3, r4⟩ := hr
  have hd : s2.deps = some q := by rw [hi2.deps, r2]
  simp only [step, render, r2, Option.isNone_some, Bool.false_eq_true, if_false, hd, if_true]
  exact ⟨⟨r1, rfl, fun q' last h => by rw [← r4 q' last h, ← r3]⟩, trivial, r3⟩

/-- Non-vacuity: prepared `true` on the server, but the window is narrow; first `true` is
returned, and `false` once the effect has run; then the query changes, then the media. -/
example :
    let k := Hook.prepared (some true) false
    let q := c! "(min-width: 600px)"
    let q' := c! "(max-width: 599px)"
    (run k [.render q] (St.init demoNarrow)).shown = true ∧
    (run k [.render q, .effect, .report, .render q] (St.init demoNarrow)).shown = false ∧
    (run k [.render q, .effect, .render q, .render q', .effect, .render q'] (St.init demoNarrow)).shown = true ∧
    (run k [.render q, .effect, .render q, .render q', .effect, .render q', .media demoWide, .report, .render q']
      (St.init demoNarrow)).shown = false := by
  decide +kernel

/-! ## C51: the plain hook -/

/-- **C51 is false**, first way: the component is rendered with another query. The state
keeps the value of the old query, the new effect installs a listener and does not set the
state, and the browser has nothing to report until the new query changes. Everything is
settled, the query does not match, and the hook says it does. -/
theorem C51_false_query :
    let s := run .plain [.render (c! "(min-width: 600px)"), .effect, .render (c! "(max-width: 599px)"), .effect, .report]
      (St.init demoWide)
    s.Settled ∧ s.query = some (c! "(max-width: 599px)") ∧ s.media (c! "(max-width: 599px)") = false ∧ s.shown = true := by
  refine ⟨⟨by decide +kernel, by decide +kernel, ?_⟩, by decide +kernel, by decide +kernel, by decide +kernel⟩
  intro q last h
  cases h
  rfl

/-- **C51 is false**, second way: the window is resized between the first render and the
effect. -/
theorem C51_false_race :
    let s := run .plain [.render (c! "(min-width: 600px)"), .media demoNarrow, .effect, .report, .render (c! "(min-width: 600px)")]
      (St.init demoWide)
    s.Settled ∧ s.query = some (c! "(min-width: 600px)") ∧ s.media (c! "(min-width: 600px)") = false ∧ s.shown = true := by
  refine ⟨⟨by decide +kernel, by decide +kernel, ?_⟩, by decide +kernel, by decide +kernel, by decide +kernel⟩
  intro q last h
  cases h
  rfl

/-- The first render returns whether the query matches. -/
theorem C51_first (f : Str → Bool) (q : Str) : (run .plain [.render q] (St.init f)).shown = f q := rfl

/-- **C51**, as far as it is true: if the component always passes the same query, and the
media do not change between the first render and the effect, then whenever nothing is
outstanding the hook returned whether the query matches. -/
theorem C51_constant_partial (f : Str → Bool) (q : Str) (pre es : List Event) (hp : NoMedia pre)
    (hop : OnlyQuery q pre) (ho : OnlyQuery q es)
    (hs : (run .plain (.render q :: pre ++ .effect :: es) (St.init f)).Settled) :
    (run .plain (.render q :: pre ++ .effect :: es) (St.init f)).shown =
      (run .plain (.render q :: pre ++ .effect :: es) (St.init f)).media q := by
  have hq : (run .plain [.render q] (St.init f)).query = some q := rfl
  have hi := (Inv.init f).run .plain [.render q]
  have h1 := before_effect pre _ hi hq rfl (fun q' l h => by cases h) hp hop
  have hi1 := hi.run .plain pre
  have hq1 := query_run .plain pre hq hop
  have hrun : run .plain (.render q :: pre ++ .effect :: es) (St.init f) =
      run .plain es (step .plain (run .plain pre (run .plain [.render q] (St.init f))) .effect) := by
    rw [List.cons_append, run, run_append]; rfl
  rw [hrun] at hs ⊢
  generalize run .plain pre (run .plain [.render q] (St.init f)) = s at *
  obtain ⟨h2, h3⟩ := h1
  have hi2 := hi1.step .plain .effect
  have hq2 : (step .plain s .effect).query = some q := query_run .plain [.effect] hq1 (fun q' h' => by simp at h')
  have hs2 : Sync (step .plain s .effect) ∧ (step .plain s .effect).effect = none := by
    simp only [step, runEffect]
    split
    · rename_i he
      refine ⟨fun q' l _ hl => ?_, he⟩
      obtain ⟨l', hl'⟩ := hi1.listener q hq1 he
      rw [hl] at hl'; cases hl'
      rw [h2, (h3 q l hl).2]
    · rename_i q' he
      have hqq := hi1.effect q' he
      rw [hq1] at hqq; cases hqq
      refine ⟨fun q' l _ hl => ?_, rfl⟩
      cases hl
      exact h2
  refine sync_settled (hi2.run .plain es) (sync_run .plain es hi2 hq2 hs2.2 ho hs2.1) hs (query_run .plain es hq2 ho)

/-- **C51**, as far as it is true: in any history, once the browser has reported a change
to the listener of the current query, the hook is right whenever nothing is outstanding,
until the query changes. -/
theorem C51_after_change_partial (f : Str → Bool) (es es' : List Event) (q : Str) (last : Bool)
    (hq : (run .plain es (St.init f)).query = some q) (he : (run .plain es (St.init f)).effect = none)
    (hl : (run .plain es (St.init f)).listener = some (q, last)) (hc : (run .plain es (St.init f)).media q ≠ last)
    (ho : OnlyQuery q es') (hs : (run .plain (es ++ .report :: es') (St.init f)).Settled) :
    (run .plain (es ++ .report :: es') (St.init f)).shown = (run .plain (es ++ .report :: es') (St.init f)).media q := by
  have hi := (Inv.init f).run .plain es
  rw [run_append, run] at hs ⊢
  generalize run .plain es (St.init f) = s at *
  have hi2 := hi.step .plain .report
  have hq2 : (step .plain s .report).query = some q := query_run .plain [.report] hq (fun q' h' => by simp at h')
  have he2 := effect_step .plain (e := .report) hi hq (fun _ h => by cases h) he
  have hs2 : Sync (step .plain s .report) := by
    refine sync_report (fun q' l h hm => ?_)
    rw [hl] at h; cases h
    exact absurd hm hc
  exact sync_settled (hi2.run .plain es') (sync_run .plain es' hi2 hq2 he2 ho hs2) hs (query_run .plain es' hq2 ho)

/-- Without a reported change nothing happens to the state. -/
theorem no_report {q : Str} : ∀ (es : List Event) {s : St} {last : Bool}, Inv s → s.query = some q → s.effect = none →
    s.listener = some (q, last) → OnlyQuery q es → ¬ Reports .plain s q es →
    (run .plain es s).state = s.state ∧ (run .plain es s).listener = some (q, last)
  | [], _, _, _, _, _, hl, _, _ => ⟨rfl, hl⟩
  | e :: es, s, last, hi, hq, he, hl, ho, hr => by
    have hstep : (step .plain s e).state = s.state ∧ (step .plain s e).listener = some (q, last) := by
      cases e with
      | render q' =>
        have hd : s.deps = some q := by rw [hi.deps, hq]
        have : q' = q := ho q' (by simp)
        subst this
        simp [step, render, hq, hd, hl]
      | effect => simp [step, runEffect, he, hl]
      | media g => exact ⟨rfl, hl⟩
      | report =>
        have : s.media q = last := Decidable.byContradiction (fun h => hr ⟨[], es, last, rfl, hl, h⟩)
        simp [step, report, hl, this]
    have ho1 : OnlyQuery q [e] := fun q' h => ho q' (by
      simp only [List.mem_singleton] at h
      subst h; simp)
    have ih := no_report es (hi.step .plain e) (query_run .plain [e] hq ho1)
      (effect_step .plain hi hq (fun q' h => ho q' (by simp [h])) he) hstep.2 (fun q' h => ho q' (by simp [h]))
      (fun ⟨a, b, l, h1, h2, h3⟩ => hr ⟨e :: a, b, l, by rw [h1]; rfl, h2, h3⟩)
    exact ⟨ih.1.trans hstep.1, ih.2⟩

/-- **C51, exactly.** In any history in which the effect for a query runs and the query stays:
whenever nothing is outstanding, the hook is right if and only if the value that it would have
returned just before the effect was right then, or the browser has reported a change since. -/
theorem C51_exactly (f : Str → Bool) (es es' : List Event) (q : Str)
    (he : (run .plain es (St.init f)).effect = some q) (ho : OnlyQuery q es')
    (hs : (run .plain (es ++ .effect :: es') (St.init f)).Settled) :
    (run .plain (es ++ .effect :: es') (St.init f)).shown = (run .plain (es ++ .effect :: es') (St.init f)).media q ↔
      (run .plain (es ++ [.render q]) (St.init f)).shown = (run .plain es (St.init f)).media q ∨
        Reports .plain (run .plain (es ++ [.effect]) (St.init f)) q es' := by
  have hi := (Inv.init f).run .plain es
  have hq := hi.effect q he
  have hd : (run .plain es (St.init f)).deps = some q := by rw [hi.deps, hq]
  have e1 : (run .plain (es ++ [.render q]) (St.init f)).shown = (run .plain es (St.init f)).state := by
    rw [run_append]
    simp [run, step, render, hq, hd]
  have hi1 : Inv (run .plain (es ++ [.effect]) (St.init f)) := (Inv.init f).run .plain _
  have h1 : (run .plain (es ++ [.effect]) (St.init f)).state = (run .plain es (St.init f)).state ∧
      (run .plain (es ++ [.effect]) (St.init f)).listener = some (q, (run .plain es (St.init f)).media q) ∧
      (run .plain (es ++ [.effect]) (St.init f)).effect = none ∧ (run .plain (es ++ [.effect]) (St.init f)).query = some q := by
    rw [run_append]
    simp [run, step, runEffect, he, hq]
  have e2 : es ++ .effect :: es' = (es ++ [.effect]) ++ es' := by simp
  rw [e1]
  by_cases hr : Reports .plain (run .plain (es ++ [.effect]) (St.init f)) q es'
  · refine ⟨fun _ => Or.inr hr, fun _ => ?_⟩
    obtain ⟨a, b, last, g1, g2, g3⟩ := hr
    subst g1
    have hoa : OnlyQuery q a := fun q' h => ho q' (by simp [h])
    have hob : OnlyQuery q b := fun q' h => ho q' (by simp [h])
    rw [← run_append] at g2 g3
    have g4 : (run .plain (es ++ [.effect] ++ a) (St.init f)).query = some q := by
      rw [run_append]; exact query_run .plain a h1.2.2.2 hoa
    have g5 : (run .plain (es ++ [.effect] ++ a) (St.init f)).effect = none := by
      rw [run_append]
      exact effect_run .plain a hi1 h1.2.2.2 hoa h1.2.2.1
    have e3 : es ++ .effect :: (a ++ .report :: b) = (es ++ [.effect] ++ a) ++ .report :: b := by simp
    rw [e3] at hs ⊢
    exact C51_after_change_partial f _ b q last g4 g5 g2 g3 hob hs
  · obtain ⟨g1, g2⟩ := no_report es' hi1 h1.2.2.2 h1.2.2.1 h1.2.1 ho hr
    rw [e2, run_append] at hs ⊢
    have hi2 := hi1.run .plain es'
    have g3 := hi2.shown hs.2.1 (by rw [query_run .plain es' h1.2.2.2 ho]; simp)
    rw [g3, g1, h1.1, hs.2.2 _ _ g2]
    exact ⟨Or.inl, fun h => h.elim id (fun h => absurd h hr)⟩

/-- Non-vacuity: the two wrong schedules and a right one. -/
example :
    (run .plain [.render (c! "(min-width: 600px)"), .effect, .render (c! "(max-width: 599px)")] (St.init demoWide)).effect =
        some (c! "(max-width: 599px)") ∧
    (run .plain [.render (c! "(min-width: 600px)"), .media demoNarrow] (St.init demoWide)).effect = some (c! "(min-width: 600px)") ∧
    (∃ es', OnlyQuery (c! "(min-width: 600px)") es' ∧
      Reports .plain (run .plain ([.render (c! "(min-width: 600px)"), .media demoNarrow] ++ [.effect]) (St.init demoWide))
        (c! "(min-width: 600px)") es') := by
  refine ⟨by decide +kernel, by decide +kernel, [.media demoWide, .report], ?_, [.media demoWide], [], false, rfl, by decide +kernel, by decide +kernel⟩
  intro q' h
  simp at h

/-- Non-vacuity of `C51_constant_partial`: the window becomes narrow and wide again. -/
example :
    let q := c! "(min-width: 600px)"
    let es : List Event := [.media demoNarrow, .report, .render q]
    (run .plain (.render q :: [.render q] ++ .effect :: es) (St.init demoWide)).shown = false ∧
    (run .plain (.render q :: [.render q] ++ .effect :: (es ++ [.media demoWide, .report, .render q])) (St.init demoWide)).shown = true := by
  decide +kernel

/-- Non-vacuity of `C51_after_change_partial`: after the wrong value of `C51_false_query`,
a change puts it right. -/
example :
    let es : List Event := [.render (c! "(min-width: 600px)"), .effect, .render (c! "(max-width: 599px)"), .effect,
      .media demoNarrow]
    (run .plain es (St.init demoWide)).query = some (c! "(max-width: 599px)") ∧
    (run .plain es (St.init demoWide)).effect = none ∧
    (run .plain es (St.init demoWide)).listener = some (c! "(max-width: 599px)", false) ∧
    (run .plain es (St.init demoWide)).media (c! "(max-width: 599px)") = true ∧
    (run .plain (es ++ .report :: [.render (c! "(max-width: 599px)")]) (St.init demoWide)).shown = true := by
  decide +kernel

end Media
