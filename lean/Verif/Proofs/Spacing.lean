import Verif.Spec.Inline

/-! # The spacing iterator -/

namespace Spacing
open Spec

variable {σ α : Type} (f : Spacer σ α)

/-- What a state still yields. -/
def yields : State α → List α → σ → List α
  | .notStarted, it, s => between f s it
  | .atItemSpaced item spacing next, it, s => item :: spacing :: between f s (next :: it)
  | .atItem item next, it, s => item :: between f s (next :: it)
  | .atSpacing spacing next, it, s => spacing :: between f s (next :: it)
  | .atEnd item, _, _ => [item]
  | .done, _, _ => []

/-- `AtEnd` only at the end. -/
def Fits : State α → List α → Prop
  | .atEnd _, it => it = []
  | _, _ => True

theorem yields_maybe (item : α) (it : List α) (s : σ) :
    yields f (maybeSpaced f item (pop it).1 s).1 (pop it).2 (maybeSpaced f item (pop it).1 s).2 =
      between f s (item :: it) ∧ Fits (maybeSpaced f item (pop it).1 s).1 (pop it).2 ∧
      (maybeSpaced f item (pop it).1 s).1 ≠ .notStarted ∧ (maybeSpaced f item (pop it).1 s).1 ≠ .done := by
  cases it with
  | nil => exact ⟨rfl, rfl, nofun, nofun⟩
  | cons y ys =>
    simp only [pop, maybeSpaced]
    generalize hf : f s item y = r
    obtain ⟨o, s'⟩ := r
    cases o with
    | none => exact ⟨by simp [yields, between, hf], trivial, nofun, nofun⟩
    | some x => exact ⟨by simp [yields, between, hf], trivial, nofun, nofun⟩

theorem advance_spec {st : State α} {it : List α} {s : σ} (hs : st ≠ .notStarted) (hf : Fits st it) :
    match advanceStarted f st it s with
    | (none, i) => yields f st it s = [] ∧ i.state = .done
    | (some x, i) => yields f st it s = x :: yields f i.state i.it i.spacer ∧ Fits i.state i.it ∧
        i.state ≠ .notStarted := by
  cases st with
  | notStarted => exact absurd rfl hs
  | done => exact ⟨rfl, rfl⟩
  | atEnd item => exact ⟨rfl, trivial, nofun⟩
  | atItemSpaced a b c => exact ⟨rfl, trivial, nofun⟩
  | atItem a b =>
    obtain ⟨h1, h2, h3, -⟩ := yields_maybe f b it s
    exact ⟨congrArg (a :: ·) h1.symm, h2, h3⟩
  | atSpacing a b =>
    obtain ⟨h1, h2, h3, -⟩ := yields_maybe f b it s
    exact ⟨congrArg (a :: ·) h1.symm, h2, h3⟩

theorem next_spec (i : Iter σ α) (hf : Fits i.state i.it) :
    match next f i with
    | (none, j) => yields f i.state i.it i.spacer = [] ∧ j.state = .done
    | (some x, j) => yields f i.state i.it i.spacer = x :: yields f j.state j.it j.spacer ∧ Fits j.state j.it := by
  obtain ⟨it, st, s⟩ := i
  have main := fun (st : State α) (h1 : st ≠ .notStarted) (h2 : Fits st it) => advance_spec f (s := s) h1 h2
  cases st with
  | notStarted =>
    cases it with
    | nil => exact ⟨rfl, rfl⟩
    | cons x xs =>
      obtain ⟨h1, h2, h3, -⟩ := yields_maybe f x xs s
      have := advance_spec f (s := (maybeSpaced f x (pop xs).1 s).2) h3 h2
      rw [h1] at this
      have he : next f ⟨x :: xs, .notStarted, s⟩ =
        advanceStarted f (maybeSpaced f x (pop xs).1 s).1 (pop xs).2 (maybeSpaced f x (pop xs).1 s).2 := rfl
      rw [he]
      revert this
      split
      · exact fun h => h
      · exact fun h => ⟨h.1, h.2.1⟩
  | done => exact ⟨rfl, rfl⟩
  | atEnd item => exact ⟨rfl, trivial⟩
  | atItemSpaced a b c => exact ⟨rfl, trivial⟩
  | atItem a b =>
    obtain ⟨h1, h2, h3⟩ := main (.atItem a b) (nofun) hf
    exact ⟨h1, h2⟩
  | atSpacing a b =>
    obtain ⟨h1, h2, h3⟩ := main (.atSpacing a b) (nofun) hf
    exact ⟨h1, h2⟩

theorem collect_spec : ∀ (n : Nat) (i : Iter σ α), Fits i.state i.it →
    (yields f i.state i.it i.spacer).length ≤ n → collect f n i = yields f i.state i.it i.spacer
  | 0, i, _, hn => by
    have : (yields f i.state i.it i.spacer) = [] := List.length_eq_zero_iff.1 (by omega)
    rw [this]; rfl
  | n + 1, i, hf, hn => by
    have h := next_spec f i hf
    simp only [collect]
    revert h
    split
    · rename_i j he
      rintro ⟨h, -⟩
      rw [h, he]
    · rename_i x j he
      rintro ⟨h1, h2⟩
      rw [h1] at hn ⊢
      rw [he]
      simp only
      rw [collect_spec n j h2 (by simpa using hn)]

theorem between_length : ∀ (xs : List α) (s : σ), (between f s xs).length ≤ 2 * xs.length - 1
  | [], _ => by simp [between]
  | [x], _ => by simp [between]
  | x :: y :: xs, s => by
    have := between_length (y :: xs) (f s x y).2
    simp only [between, List.length_cons, List.length_append]
    simp only [List.length_cons] at this
    have h2 : (f s x y).1.toList.length ≤ 1 := by cases (f s x y).1 <;> simp
    omega

theorem collect_between (xs : List α) (s : σ) (n : Nat) (hn : 2 * xs.length ≤ n) :
    collect f n (spacedWith xs s) = between f s xs :=
  collect_spec f n (spacedWith xs s) trivial (by
    have := between_length f xs s
    show (between f s xs).length ≤ n
    omega)

theorem spaced_eq (xs : List α) (s : σ) : spaced f xs s = between f s xs :=
  collect_between f xs s _ (Nat.le_refl _)

end Spacing
