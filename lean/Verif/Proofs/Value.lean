import Verif.Spec.Value
import Verif.Proofs.Browser
import Verif.Proofs.Literal

/-!
# Lemmas about values given to the macros
-/

namespace ValueP

open Spec BrowserP GroupsP

/-- With `n` more brackets open. -/
def lift (n : Nat) : At → At
  | .out m => .out (m + n)
  | .esc m => .esc (m + n)
  | .str q m => .str q (m + n)
  | .strEsc q m => .strEsc q (m + n)
  | .opening m => .opening (m + n)
  | .comment m => .comment (m + n)
  | .closing m => .closing (m + n)

theorem lift_out {n : Nat} {q : At} (h : lift n q = .out 0) : q = .out 0 := by
  cases q <;> simp [lift] at h
  rw [h.1]

theorem lift_isOut (n : Nat) (q : At) : (lift n q).isOut = q.isOut := by cases q <;> rfl

theorem lift_next {n : Nat} {q q' : At} {c : Char} (h : q.next c = some q') : (lift n q).next c = some (lift n q') := by
  cases q with
  | out m =>
    simp only [At.next, lift] at h ⊢
    repeat' split at h
    all_goals first | (cases h; done) | skip
    all_goals (cases h; simp_all)
    all_goals omega
  | esc m => simp only [At.next, lift] at h ⊢; split at h <;> simp_all; subst h; rfl
  | str s m =>
    simp only [At.next, lift] at h ⊢
    repeat' split at h
    all_goals first | (cases h; done) | (cases h; simp_all)
  | strEsc s m => simp only [At.next, lift] at h ⊢; cases h; rfl
  | opening m => cases h
  | comment m => cases h
  | closing m => cases h

theorem runText_lift (n : Nat) : ∀ (s : Str) {q q' : At}, runText q s = some q' → runText (lift n q) s = some (lift n q')
  | [], q, q', h => by simp only [runText, Option.some.injEq] at h ⊢; rw [h]
  | c :: s, q, q', h => by
    rw [runText] at h ⊢
    split at h
    · cases h
    · rename_i h1
      rw [if_neg (fun e => h1 ⟨lift_out e.1, e.2⟩)]
      split at h
      · cases h
      · rename_i h2
        rw [if_neg (by rw [lift_isOut]; exact h2)]
        split at h
        · cases h
        · rename_i q1 hq1
          rw [lift_next hq1]
          exact runText_lift n s h

theorem closed_run {v : Str} (h : ClosedValue v) {q : At} (hq : q.isOut = true) : runText q v = some q := by
  cases q <;> simp [At.isOut] at hq
  rename_i n
  have := runText_lift n v h.1.1
  simpa [lift] using this

/-- `runText_append` with the condition on the other side. -/
theorem runText_append' {t : Str} : ∀ (x : Str) {q q' : At}, x.getLast? ≠ some '/' →
    runText q x = some q' → runText q (x ++ t) = runText q' t
  | [], q, q', _, h => by
    simp only [runText, Option.some.injEq] at h
    subst h; rfl
  | c :: x, q, q', hl, h => by
    rw [runText] at h
    rw [List.cons_append, runText]
    split at h
    · cases h
    · rename_i h1
      rw [if_neg h1]
      have h2 : ¬ (q.isOut = true ∧ c = '/' ∧ (x ++ t).head? = some '*') := by
        rintro ⟨e1, rfl, e3⟩
        cases x with
        | nil => simp at hl
        | cons d x =>
          rw [if_pos ⟨e1, rfl, by simpa using e3⟩] at h
          cases h
      rw [if_neg h2]
      split at h
      · cases h
      · split at h
        · cases h
        · rename_i q1 hq1
          try rw [hq1]
          refine runText_append' x ?_ h
          cases x with
          | nil => simp
          | cons d x => simpa using hl

/-- `runText_append` with a condition outside of strings only. -/
theorem runText_append_state {t : Str} : ∀ (x : Str) {q q' : At}, (q'.isOut = true → t.head? ≠ some '*') →
    runText q x = some q' → runText q (x ++ t) = runText q' t
  | [], q, q', _, h => by
    simp only [runText, Option.some.injEq] at h
    subst h; rfl
  | c :: x, q, q', ht, h => by
    rw [runText] at h
    split at h
    · cases h
    rename_i h1
    split at h
    · cases h
    rename_i h2
    split at h
    · cases h
    rename_i q1 h3
    rw [List.cons_append, runText, if_neg h1, if_neg, h3]
    · exact runText_append_state x ht h
    · rintro ⟨a, rfl, e⟩
      cases x with
      | nil =>
        simp only [runText, Option.some.injEq] at h
        subst h
        refine ht ?_ e
        cases q <;> simp [At.isOut] at a
        simp [At.next] at h3
        rw [← h3]; rfl
      | cons d x => exact h2 ⟨a, rfl, e⟩

theorem string_run {v : Str} (h : StringText v) {d : Char} (hd : d = '"' ∨ d = '\'') (n : Nat) :
    runText (.str d n) v = some (.str d n) := by
  induction v with
  | nil => rfl
  | cons c v ih =>
    obtain ⟨h1, h2, h3, h4⟩ := h c (by simp)
    have e : (At.str d n).next c = some (.str d n) := by
      have : c ≠ d := by rcases hd with rfl | rfl <;> assumption
      simp [At.next, this, h3, h4]
    rw [runText, if_neg (by simp), if_neg (by simp [At.isOut]), e]
    exact ih (fun c hc => h c (by simp [hc]))

/-- The quotes of strings. -/
def Quoted : At → Prop
  | .str q _ | .strEsc q _ => q = '"' ∨ q = '\''
  | _ => True

theorem quoted_next {q q' : At} {c : Char} (hq : Quoted q) (h : q.next c = some q') : Quoted q' := by
  cases q with
  | out m =>
    simp only [At.next] at h
    split at h
    · cases h; assumption
    repeat' split at h
    all_goals first | (cases h; done) | (cases h; trivial)
  | esc m => simp only [At.next] at h; split at h <;> cases h; trivial
  | str s m =>
    simp only [At.next] at h
    repeat' split at h
    all_goals first | (cases h; done) | (cases h; first | trivial | exact hq)
  | strEsc s m => simp only [At.next] at h; cases h; exact hq
  | opening m => cases h
  | comment m => cases h
  | closing m => cases h

theorem quoted_run : ∀ (x : Str) {q q' : At}, Quoted q → runText q x = some q' → Quoted q'
  | [], q, q', hq, h => by
    simp only [runText, Option.some.injEq] at h
    subst h; exact hq
  | c :: x, q, q', hq, h => by
    rw [runText] at h
    split at h
    · cases h
    split at h
    · cases h
    split at h
    · cases h
    rename_i q1 h3
    exact quoted_run x (quoted_next hq h3) h

theorem quoted_out (n : Nat) : Quoted (.out n) := trivial

/-- Values that fit the places they are used in. -/
def Fits (N : Names) (σ : Str → Option Str) : Prop :=
  ∀ n v, σ n = some v → (n ∈ N.outside → ClosedValue v) ∧ (n ∈ N.inside → StringText v)

/-- What the values of a list of pieces are. -/
theorem pieces_values {σ : Str → Option Str} {p : Piece} {ps : List Piece} {ts : List Str}
    (h : (p :: ps).map (Piece.value σ) = ts.map some) :
    ∃ t ts', ts = t :: ts' ∧ p.value σ = some t ∧ ps.map (Piece.value σ) = ts'.map some := by
  cases ts with
  | nil => simp at h
  | cons t ts =>
    simp only [List.map_cons, List.cons.injEq] at h
    exact ⟨t, ts, rfl, h.1, h.2⟩

theorem fits_cases {N : Names} {σ : Str → Option Str} (hσ : Fits N σ) {n t : Str} (h : σ n = some t) {q : At}
    (hq : Quoted q) (hf : N.fits n q = true) :
    (q.isOut = true ∧ ClosedValue t ∧ runText q t = some q) ∨
      (q.isOut = false ∧ (∃ d m, q = .str d m) ∧ runText q t = some q) := by
  obtain ⟨h1, h2⟩ := hσ n t h
  cases q <;> simp [Names.fits] at hf
  · exact .inl ⟨rfl, h1 hf, closed_run (h1 hf) rfl⟩
  · exact .inr ⟨rfl, ⟨_, _, rfl⟩, string_run (h2 hf) hq _⟩

/-- Outside of strings, the text after a run does not begin with a star. -/
theorem head_star {N : Names} {σ : Str → Option Str} (hσ : Fits N σ) {s : Str} {ps : List Piece} {q q' : At}
    (hq : q.isOut = true) (hr : runPieces N q ps = some q')
    {ts : List Str} (hn : NoTwoRuns (.run s :: ps)) (h : ps.map (Piece.value σ) = ts.map some) :
    ts.flatten.head? ≠ some '*' := by
  cases ps with
  | nil =>
    cases ts with
    | nil => simp
    | cons => simp at h
  | cons p ps =>
    obtain ⟨t, ts', rfl, h1, -⟩ := pieces_values h
    cases p with
    | run => exact absurd hn (by simp [NoTwoRuns])
    | escape =>
      simp only [Piece.value, Option.some.injEq] at h1
      subst h1; simp
    | hole b n a =>
      rw [runPieces] at hr
      split at hr
      · rename_i hf
        have hq' : Quoted q := by cases q <;> simp_all [At.isOut, Quoted]
        rcases fits_cases hσ h1 hq' hf with ⟨-, this, -⟩ | ⟨h0, -⟩
        · cases t with
          | nil => exact absurd rfl this.2.1
          | cons c t => simpa using this.2.2.1
        · rw [hq] at h0; cases h0
      · cases hr

theorem noTwoRuns_tail {p : Piece} {ps : List Piece} (h : NoTwoRuns (p :: ps)) : NoTwoRuns ps := by
  cases ps with
  | nil => trivial
  | cons q ps =>
    cases p <;> cases q <;> simp_all [NoTwoRuns]

theorem runPieces_run {N : Names} {σ : Str → Option Str} (hσ : Fits N σ) :
    ∀ (ps : List Piece) (ts : List Str) {q q' : At}, NoTwoRuns ps → Quoted q → runPieces N q ps = some q' →
      ps.map (Piece.value σ) = ts.map some → runText q ts.flatten = some q'
  | [], ts, q, q', _, _, h, hv => by
    cases ts with
    | nil => simpa [runPieces, runText] using h
    | cons => simp at hv
  | .run s :: ps, ts, q, q', hn, hq, h, hv => by
    obtain ⟨t, ts', rfl, h1, h2⟩ := pieces_values hv
    simp only [Piece.value, Option.some.injEq] at h1
    subst h1
    rw [runPieces] at h
    cases hr : runText q s with
    | none => rw [hr] at h; cases h
    | some q1 =>
      rw [hr] at h
      rw [List.flatten_cons, runText_append_state s (fun ho => head_star hσ ho h hn h2) hr]
      exact runPieces_run hσ ps ts' (noTwoRuns_tail hn) (quoted_run s hq hr) h h2
  | .escape :: ps, ts, q, q', hn, hq, h, hv => by
    obtain ⟨t, ts', rfl, h1, h2⟩ := pieces_values hv
    simp only [Piece.value, Option.some.injEq] at h1
    subst h1
    rw [runPieces] at h
    cases hr : runText q (c! "${") with
    | none => rw [hr] at h; cases h
    | some q1 =>
      rw [hr] at h
      rw [List.flatten_cons, runText_append' _ (by decide) hr]
      exact runPieces_run hσ ps ts' (noTwoRuns_tail hn) (quoted_run _ hq hr) h h2
  | .hole b n a :: ps, ts, q, q', hn, hq, h, hv => by
    obtain ⟨t, ts', rfl, h1, h2⟩ := pieces_values hv
    rw [runPieces] at h
    split at h
    · rename_i hf
      rw [List.flatten_cons]
      rcases fits_cases hσ h1 hq hf with ⟨-, hc, hr⟩ | ⟨h0, -, hr⟩
      · rw [runText_append' _ hc.2.2.2 hr]
        exact runPieces_run hσ ps ts' (noTwoRuns_tail hn) hq h h2
      · rw [runText_append_state _ (fun ho => by rw [h0] at ho; cases ho) hr]
        exact runPieces_run hσ ps ts' (noTwoRuns_tail hn) hq h h2
    · cases h

theorem lastOk_append {a b : Str} (hb : b ≠ []) : LastOk (a ++ b) ↔ LastOk b := by
  unfold LastOk
  rw [List.getLast?_append]
  cases hl : b.getLast? with
  | none => exact absurd (List.getLast?_eq_none_iff.1 hl) hb
  | some d => simp

theorem quoted_pieces {N : Names} {p : Piece} {ps : List Piece} {q q' : At} (hq : Quoted q)
    (h : runPieces N q (p :: ps) = some q') : ∃ q1, Quoted q1 ∧ runPieces N q1 ps = some q' := by
  cases p with
  | run s =>
    rw [runPieces] at h
    obtain ⟨q1, h1, h2⟩ := Option.bind_eq_some_iff.1 h
    exact ⟨q1, quoted_run s hq h1, h2⟩
  | escape =>
    rw [runPieces] at h
    obtain ⟨q1, h1, h2⟩ := Option.bind_eq_some_iff.1 h
    exact ⟨q1, quoted_run _ hq h1, h2⟩
  | hole b n a =>
    rw [runPieces] at h
    split at h
    · exact ⟨q, hq, h⟩
    · cases h

/-- The values put in are not all empty, since the text ends outside of strings. -/
theorem values_ne {N : Names} {σ : Str → Option Str} (hσ : Fits N σ) : ∀ (ps : List Piece) (ts : List Str) {q q' : At},
    ps ≠ [] → (∀ p ∈ ps, p.Ok) → Quoted q → runPieces N q ps = some q' → q'.isOut = true →
    ps.map (Piece.value σ) = ts.map some → ts.flatten ≠ []
  | [], _, _, _, h, _, _, _, _, _ => absurd rfl h
  | p :: ps, ts, q, q', _, hok, hq, hr, ho, h => by
    obtain ⟨t, ts', rfl, h1, h2⟩ := pieces_values h
    have hp := hok p (by simp)
    cases p with
    | run s =>
      simp only [Piece.value, Option.some.injEq] at h1
      subst h1
      simp [hp.1]
    | escape =>
      simp only [Piece.value, Option.some.injEq] at h1
      subst h1
      simp
    | hole b n a =>
      rw [runPieces] at hr
      split at hr
      · rename_i hf
        rcases fits_cases hσ h1 hq hf with ⟨-, hc, -⟩ | ⟨h0, -, -⟩
        · simp [hc.2.1]
        · cases ps with
          | nil =>
            simp only [runPieces, Option.some.injEq] at hr
            subst hr
            rw [h0] at ho; cases ho
          | cons p ps =>
            have := values_ne hσ (p :: ps) ts' (by simp) (fun x hx => hok x (by simp [hx])) hq hr ho h2
            simp only [List.flatten_cons]
            intro e
            exact this (List.append_eq_nil_iff.1 e).2
      · cases hr

theorem text_ne {p : Piece} (hp : p.Ok) : p.text ≠ [] := by
  cases p with
  | run s => exact hp.1
  | escape => simp [Piece.text]
  | hole b n a => simp [Piece.text]

theorem pieces_head {N : Names} {σ : Str → Option Str} (hσ : Fits N σ) {ps : List Piece} {ts : List Str} {q' : At}
    (hok : ∀ p ∈ ps, p.Ok) (hr : runPieces N (.out 0) ps = some q')
    (hh : HeadOk (ps.flatMap Piece.text)) (h : ps.map (Piece.value σ) = ts.map some) :
    HeadOk ts.flatten := by
  cases ps with
  | nil =>
    cases ts with
    | nil => intro c hc; simp at hc
    | cons => simp at h
  | cons p ps =>
    have hp := hok p (by simp)
    obtain ⟨t, ts', rfl, h1, -⟩ := pieces_values h
    rw [List.flatten_cons]
    cases p with
    | run s =>
      simp only [Piece.value, Option.some.injEq] at h1
      subst h1
      refine HeadOk.append ?_ hp.1 _
      intro c hc
      refine hh c ?_
      cases s with
      | nil => simp at hc
      | cons d s => simpa [Piece.text] using hc
    | escape =>
      simp only [Piece.value, Option.some.injEq] at h1
      subst h1
      intro c hc
      simp only [List.cons_append, List.head?_cons, Option.mem_def, Option.some.injEq] at hc
      subst hc; decide
    | hole b n a =>
      rw [runPieces] at hr
      split at hr
      · rename_i hf
        rcases fits_cases hσ h1 (quoted_out 0) hf with ⟨-, hc, -⟩ | ⟨h0, -, -⟩
        · exact HeadOk.append ((trim_iff t).1 hc.1.2).1 hc.2.1 _
        · cases h0
      · cases hr

theorem pieces_last {N : Names} {σ : Str → Option Str} (hσ : Fits N σ) : ∀ (ps : List Piece) (ts : List Str) {q q' : At},
    Quoted q → runPieces N q ps = some q' → q'.isOut = true →
    (∀ p ∈ ps, p.Ok) → LastOk (ps.flatMap Piece.text) → ps.map (Piece.value σ) = ts.map some → LastOk ts.flatten
  | [], ts, _, _, _, _, _, _, _, h => by
    cases ts with
    | nil => intro c hc; simp at hc
    | cons => simp at h
  | [p], ts, q, q', hq, hr, ho, hok, hl, h => by
    have hp := hok p (by simp)
    obtain ⟨t, ts', rfl, h1, h2⟩ := pieces_values h
    cases ts' with
    | cons => simp at h2
    | nil =>
      rw [List.flatten_cons, List.flatten_nil, List.append_nil]
      cases p with
      | run s =>
        simp only [Piece.value, Option.some.injEq] at h1
        subst h1
        simpa [Piece.text] using hl
      | escape =>
        simp only [Piece.value, Option.some.injEq] at h1
        subst h1
        intro c hc
        simp only [List.getLast?_cons_cons, List.getLast?_singleton, Option.mem_def, Option.some.injEq] at hc
        subst hc; decide
      | hole b n a =>
        rw [runPieces] at hr
        split at hr
        · rename_i hf
          simp only [runPieces, Option.some.injEq] at hr
          subst hr
          rcases fits_cases hσ h1 hq hf with ⟨-, hc, -⟩ | ⟨h0, -, -⟩
          · exact ((trim_iff t).1 hc.1.2).2
          · rw [h0] at ho; cases ho
        · cases hr
  | p :: p' :: ps, ts, q, q', hq, hr, ho, hok, hl, h => by
    obtain ⟨t, ts', rfl, h1, h2⟩ := pieces_values h
    have hp' := hok p' (by simp)
    obtain ⟨q1, hq1, hr1⟩ := quoted_pieces hq hr
    have hok' : ∀ x ∈ p' :: ps, x.Ok := fun x hx => hok x (List.mem_cons_of_mem _ hx)
    rw [List.flatMap_cons, lastOk_append (by simp [text_ne hp'])] at hl
    rw [List.flatten_cons, lastOk_append (values_ne hσ _ _ (by simp) hok' hq1 hr1 ho h2)]
    exact pieces_last hσ (p' :: ps) ts' hq1 hr1 ho hok' hl h2

/-- A text with such values put in is whole. -/
theorem whole_replaced {N : Names} {σ : Str → Option Str} (hσ : Fits N σ) {s t : Str}
    (hs : WholeTemplate N s) (h : Replaced σ s t) : Whole t ∧ (s ≠ [] → t ≠ []) := by
  obtain ⟨htrim, ps, hp, hn, hr⟩ := hs
  obtain ⟨fs, h1, h2⟩ := Literal.replaced_iff.1 h
  rw [Literal.parse_merge hp, Option.some.injEq] at h1
  rw [← h1, Literal.merge_value] at h2
  obtain ⟨ts, hts, ht⟩ := (Literal.fragsValue_pieces σ t ps).1 h2
  subst ht
  obtain ⟨hok, hs⟩ := hp
  obtain ⟨h1, h2⟩ := (trim_iff s).1 htrim
  rw [hs] at h1 h2
  refine ⟨⟨runPieces_run hσ ps ts hn (quoted_out 0) hr hts,
    (trim_iff _).2 ⟨pieces_head hσ hok hr h1 hts, pieces_last hσ ps ts (quoted_out 0) hr rfl hok h2 hts⟩⟩, ?_⟩
  intro hne
  cases ps with
  | nil => exact absurd hs hne
  | cons p ps => exact values_ne hσ (p :: ps) ts (by simp) hok (quoted_out 0) hr rfl hts

theorem whole_sels {N : Names} {σ : Str → Option Str} (hσ : Fits N σ) : ∀ {c c' : List Selector},
    (∀ s ∈ c, WholeTemplate N s.flatten ∧ s.flatten ≠ []) → ReplacedSels σ c c' →
    ∀ s ∈ c', Whole s.flatten ∧ s.flatten ≠ []
  | [], [], _, _ => by simp
  | s :: ss, t :: ts, hs, h => by
    intro u hu
    rcases List.mem_cons.1 hu with rfl | hu
    · have h1 := hs s (by simp)
      have h2 := whole_replaced hσ h1.1 h.1
      exact ⟨h2.1, h2.2 h1.2⟩
    · exact whole_sels hσ (fun x hx => hs x (by simp [hx])) h.2 u hu

mutual
theorem whole_in {N : Names} {σ : Str → Option Str} (hσ : Fits N σ) : ∀ (x y : RBC),
    WholeTemplateIn N x → ReplacedRBC σ x y → WholeIn y
  | .attr k v, .attr k' v', hx, h => by
    obtain ⟨rfl, h2⟩ := h
    exact ⟨hx.1, (whole_replaced hσ hx.2 h2).1⟩
  | .rule c b, .rule c' b', hx, h => ⟨(whole_replaced hσ hx.1 h.1).1, whole_all hσ b b' hx.2 h.2⟩
  | .block c b, .block c' b', hx, h => ⟨whole_sels hσ hx.1 h.1, whole_all hσ b b' hx.2 h.2⟩
theorem whole_all {N : Names} {σ : Str → Option Str} (hσ : Fits N σ) : ∀ (xs ys : List RBC),
    WholeTemplateAll N xs → ReplacedRBCs σ xs ys → WholeAll ys
  | [], [], _, _ => trivial
  | x :: xs, y :: ys, hx, h => ⟨whole_in hσ x y hx.1 h.1, whole_all hσ xs ys hx.2 h.2⟩
end

theorem replaced_toRBC {σ : Str → Option Str} : ∀ {s t : Sheet}, ReplacedSheet σ s t →
    ReplacedRBCs σ (s.map ScopeContent.toRBC) (t.map ScopeContent.toRBC)
  | [], [], _ => trivial
  | .block c b :: xs, .block c' b' :: ys, h => ⟨⟨h.1, h.2.1⟩, replaced_toRBC h.2.2⟩
  | .rule c b :: xs, .rule c' b' :: ys, h => ⟨⟨h.1, h.2.1⟩, replaced_toRBC h.2.2⟩

theorem whole_sheet {N : Names} {σ : Str → Option Str} (hσ : Fits N σ) {s t : Sheet}
    (hs : WholeTemplateSheet N s) (h : ReplacedSheet σ s t) : WholeSheet t :=
  whole_all hσ _ _ hs (replaced_toRBC h)

theorem replacedDecls_append {σ : Str → Option Str} : ∀ {a a' b b' : List Decl}, ReplacedDecls σ a a' →
    ReplacedDecls σ b b' → ReplacedDecls σ (a ++ b) (a' ++ b')
  | [], [], _, _, _, h => h
  | _ :: _, _ :: _, _, _, h, h' => ⟨h.1, replacedDecls_append h.2 h'⟩

theorem replacedSels_nil {σ : Str → Option Str} {c c' : List Selector} (h : ReplacedSels σ c c') : c = [] ↔ c' = [] := by
  cases c <;> cases c' <;> simp_all [ReplacedSels]

mutual
theorem decls_in {σ : Str → Option Str} (sel : Str → Str) (cur : Str) : ∀ (x y : RBC) (r r' : List Str) (o o' : Option Str),
    r.length = r'.length → o.isSome = o'.isSome → ReplacedRBC σ x y →
    ReplacedDecls σ (declsIn sel cur r o x) (declsIn sel cur r' o' y)
  | .attr k v, .attr k' v', r, r', o, o', hr, ho, h => by
    obtain ⟨rfl, h2⟩ := h
    refine ⟨⟨rfl, h2, ?_⟩, trivial⟩
    cases o <;> cases o' <;> simp_all
  | .rule c b, .rule c' b', r, r', o, o', hr, ho, h => by
    simp only [declsIn]
    exact decls_all sel cur b b' _ _ o o' (by simp [hr]) ho h.2
  | .block c b, .block c' b', r, r', o, o', hr, ho, h => by
    simp only [declsIn]
    exact decls_all sel cur b b' _ _ _ _ hr (by simp) h.2
theorem decls_all {σ : Str → Option Str} (sel : Str → Str) (cur : Str) : ∀ (xs ys : List RBC) (r r' : List Str)
    (o o' : Option Str), r.length = r'.length → o.isSome = o'.isSome → ReplacedRBCs σ xs ys →
    ReplacedDecls σ (declsInAll sel cur r o xs) (declsInAll sel cur r' o' ys)
  | [], [], _, _, _, _, _, _, _ => trivial
  | x :: xs, y :: ys, r, r', o, o', hr, ho, h => by
    simp only [declsInAll]
    exact replacedDecls_append (decls_in sel cur x y r r' o o' hr ho h.1) (decls_all sel cur xs ys r r' o o' hr ho h.2)
end

theorem decls_replaced {σ : Str → Option Str} {s t : Sheet} (h : ReplacedSheet σ s t) (cls : Option Str) :
    ReplacedDecls σ (decls cls s) (decls cls t) :=
  decls_all _ _ _ _ _ _ _ _ rfl rfl (replaced_toRBC h)

end ValueP
