import Verif.Model.Media

/-!
# Words used in the properties of the media query hooks
-/

namespace Media

/-- Nothing is outstanding: the effects have run, the change events have been delivered,
and the component has been rendered since the state changed. -/
def St.Settled (s : St) : Prop :=
  s.effect = none ∧ s.dirty = false ∧ ∀ q last, s.listener = some (q, last) → s.media q = last

/-- The component is only rendered with query `q`. -/
def OnlyQuery (q : Str) (es : List Event) : Prop := ∀ q', Event.render q' ∈ es → q' = q

/-- The media do not change. -/
def NoMedia (es : List Event) : Prop := ∀ f, Event.media f ∉ es

/-- In these events after `s`, the browser reports at least one change of query `q`. -/
def Reports (k : Hook) (s : St) (q : Str) (es : List Event) : Prop :=
  ∃ a b last, es = a ++ .report :: b ∧ (run k a s).listener = some (q, last) ∧ (run k a s).media q ≠ last

end Media
