import Verif.Proofs.Select

/-!
# Reading selectors of global styles

Lemmas for C75.
-/

namespace SelectP

open Spec

variable {El : Type}

/-- `&` replaced by `:root`. -/
def swapAmp : SelPiece → SelPiece
  | .simple x => if x = ['&'] then .simple (c! ":root") else .simple x
  | p => p

theorem amp_tail {p : SelPiece} {ps : List SelPiece} (h : ampOk (p :: ps) = true) : ampOk ps = true := by
  cases p <;> simp_all [ampOk]

theorem amp_flush {acc : Str} {ps : List SelPiece} (h : ampOk (flush acc ps) = true) : ampOk ps = true := by
  unfold flush at h
  split at h
  · exact h
  · exact amp_tail h

theorem amp_simple {x : Str} {ps : List SelPiece} (h : ampOk (.simple x :: ps) = true) :
    x = ['&'] ∨ ('&' ∉ x ∧ x ≠ [':']) := by
  simp only [ampOk, Bool.and_eq_true, Bool.or_eq_true, decide_eq_true_eq] at h
  simpa using h.1.1

theorem amp_pre {pre ps : List SelPiece} (h : pre = [] ∨ pre = [.space] ∨ ∃ k, pre = [.mark k])
    (hok : ampOk (pre ++ ps) = true) : ampOk ps = true := by
  rcases h with rfl | rfl | ⟨k, rfl⟩
  · exact hok
  · exact amp_tail hok
  · exact amp_tail hok

theorem swapAmp_flush {acc : Str} {ps : List SelPiece} (h : '&' ∉ acc) :
    (flush acc ps).map swapAmp = flush acc (ps.map swapAmp) := by
  unfold flush
  split
  · rfl
  · have : acc ≠ ['&'] := by rintro rfl; simp at h
    simp [swapAmp, this]

theorem swapAmp_pre {pre : List SelPiece} (h : pre = [] ∨ pre = [.space] ∨ ∃ k, pre = [.mark k]) :
    pre.map swapAmp = pre := by
  rcases h with rfl | rfl | ⟨k, rfl⟩ <;> rfl

theorem expandAmp_cons {cur : Str} {c : Char} {s : Str} (hc : c ≠ '&') :
    expandAmp cur (c :: s) = c :: expandAmp cur s := by
  rw [expandAmp]
  rintro rfl; exact hc rfl

/-- Replacing `&` in the text replaces it in the pieces. -/
theorem pieces_amp : ∀ (s : Str),
    (∀ acc q ps, pieces acc q s = some ps → ampOk ps = true → '&' ∉ acc → (q ≠ .out 0 → acc ≠ []) →
      pieces acc q (expandAmp (c! ":root") s) = some (ps.map swapAmp)) ∧
    (∀ ps, pieces [] (.out 0) s = some ps → ampOk (.simple ['&'] :: ps) = true →
      pieces (c! ":root") (.out 0) (expandAmp (c! ":root") s) = some (.simple (c! ":root") :: ps.map swapAmp)) := by
  intro s
  induction s with
  | nil =>
    refine ⟨?_, ?_⟩
    · intro acc q ps h hok hamp _
      simp only [pieces] at h
      split at h
      · rename_i hq
        cases h
        rw [swapAmp_flush hamp, expandAmp, pieces, if_pos hq]
        rfl
      · cases h
    · intro ps h hok
      simp only [pieces, if_pos, flush] at h
      cases h
      simp [expandAmp, pieces, flush]
  | cons c s ih =>
    by_cases hamp : c = '&'
    · subst hamp
      have hout : ∀ acc, pieces acc (.out 0) ('&' :: s) =
          (pieces [] (.out 0) s).map (fun ps => flush acc (.simple ['&'] :: ps)) := by
        intro acc; simp [pieces, cssSpace]
      have hexp : expandAmp (c! ":root") ('&' :: s) = c! ":root" ++ expandAmp (c! ":root") s := by rw [expandAmp]
      refine ⟨?_, ?_⟩
      · intro acc q ps h hok hacc hne
        by_cases hq : q = .out 0
        · subst hq
          rw [hout] at h
          obtain ⟨ps', h1, rfl⟩ := Option.map_eq_some_iff.1 h
          have hcol : acc ≠ [':'] := by
            rintro rfl
            rcases amp_simple hok with h | h
            · simp at h
            · exact h.2 rfl
          rw [hexp, pieces_root_out _ _ hcol, ih.2 ps' h1 (amp_flush hok), swapAmp_flush hacc]
          rfl
        · exfalso
          rw [in_cases hq] at h
          obtain ⟨q', -, h⟩ := Option.bind_eq_some_iff.1 h
          obtain ⟨x, r, rfl⟩ := pieces_prefix _ _ _ _ h (by simp)
          rcases amp_simple hok with h' | ⟨h', -⟩
          · have := congrArg List.length h'
            have h0 := List.length_pos_iff.2 (hne hq)
            simp at this
            omega
          · exact h' (by simp)
      · intro ps h hok
        rw [hout] at h
        obtain ⟨ps', h1, rfl⟩ := Option.map_eq_some_iff.1 h
        rw [hexp, pieces_root_out _ _ (by simp), ih.2 ps' h1 (amp_tail hok)]
        rfl
    · rw [expandAmp_cons hamp]
      have happ : ∀ acc (o : Option At) ps, o.bind (fun q' => pieces (acc ++ [c]) q' s) = some ps → ampOk ps = true →
          '&' ∉ acc →
          o.bind (fun q' => pieces (acc ++ [c]) q' (expandAmp (c! ":root") s)) = some (ps.map swapAmp) := by
        intro acc q ps h hok hacc
        obtain ⟨q', h1, h2⟩ := Option.bind_eq_some_iff.1 h
        rw [h1, Option.bind_some]
        exact ih.1 _ _ _ h2 hok (by simp [hacc, Ne.symm hamp]) (by simp)
      rcases out_cases c hamp with ⟨pre, acc1, q1, hpre, hacc1, hstep⟩ | ⟨hno, o, hstep⟩
      · have h1a : '&' ∉ acc1 := by
          rcases hacc1 with ⟨rfl, -⟩ | rfl
          · simp
          · simpa using Ne.symm hamp
        have h1c : q1 ≠ .out 0 → acc1 ≠ [] := by
          rcases hacc1 with ⟨rfl, rfl⟩ | rfl
          · intro h; exact absurd rfl h
          · simp
        refine ⟨?_, ?_⟩
        · intro acc q ps h hok hacc hne
          by_cases hq : q = .out 0
          · subst hq
            by_cases hcol : c = ':' ∧ acc = [':']
            · obtain ⟨rfl, rfl⟩ := hcol
              have e : ∀ t, pieces [':'] (.out 0) (':' :: t) =
                  ((At.out 0).next ':').bind (fun q' => pieces ([':'] ++ [':']) q' t) := by
                intro t
                simp only [pieces]
                simp [cssSpace, combOf, At.next, opensSimple]
              rw [e] at h ⊢
              exact happ _ _ _ h hok hacc
            · rw [hstep acc _ hcol] at h ⊢
              obtain ⟨ps', h1, rfl⟩ := Option.map_eq_some_iff.1 h
              rw [ih.1 acc1 q1 ps' h1 (amp_pre hpre (amp_flush hok)) h1a h1c, Option.map_some, swapAmp_flush hacc,
                List.map_append, swapAmp_pre hpre]
          · rw [in_cases hq] at h ⊢
            exact happ _ _ _ h hok hacc
        · intro ps h hok
          rw [hstep [] _ (by simp)] at h
          obtain ⟨ps', h1, rfl⟩ := Option.map_eq_some_iff.1 h
          rw [hstep (c! ":root") _ (by simp), ih.1 acc1 q1 ps' h1 (amp_pre hpre (amp_flush (amp_tail hok))) h1a h1c,
            Option.map_some]
          simp [flush, swapAmp_pre hpre]
      · refine ⟨?_, ?_⟩
        · intro acc q ps h hok hacc hne
          by_cases hq : q = .out 0
          · subst hq
            rw [hstep] at h ⊢
            exact happ _ _ _ h hok hacc
          · rw [in_cases hq] at h ⊢
            exact happ _ _ _ h hok hacc
        · intro ps h hok
          exfalso
          rw [hstep] at h
          obtain ⟨q', -, h⟩ := Option.bind_eq_some_iff.1 h
          obtain ⟨x, r, rfl⟩ := pieces_prefix _ _ _ _ h (by simp)
          simp [ampOk, hno, hamp] at hok

/-- The same for steps. -/
def swapAmpStep : Step → Step
  | .simple x => if x = ['&'] then .simple (c! ":root") else .simple x
  | p => p

theorem steps_swapAmp : ∀ (ps : List SelPiece) (g : Gap),
    steps g (ps.map swapAmp) = (steps g ps).map (List.map swapAmpStep) := by
  intro ps
  induction ps with
  | nil => intro g; cases g <;> rfl
  | cons p ps ih =>
    intro g
    cases p with
    | simple x =>
      have e : ∃ y, swapAmp (.simple x) = .simple y ∧ swapAmpStep (.simple x) = .simple y := by
        by_cases hx : x = ['&']
        · exact ⟨c! ":root", by simp [swapAmp, swapAmpStep, hx]⟩
        · exact ⟨x, by simp [swapAmp, swapAmpStep, hx]⟩
      obtain ⟨y, e1, e2⟩ := e
      have e3 : ∀ k, swapAmpStep (.comb k) = .comb k := fun _ => rfl
      rw [List.map_cons, e1]
      cases g <;> simp only [steps, ih] <;> cases steps .nothing ps <;> simp [e2, e3]
    | space =>
      rw [List.map_cons, show swapAmp .space = .space from rfl]
      cases g <;> simp only [steps, ih]
    | mark k =>
      rw [List.map_cons, show swapAmp (.mark k) = .mark k from rfl]
      cases g <;> simp only [steps, ih, Option.map_none]

theorem below_withRoot (D : Doc El) (a e : El) : D.withRoot.Below a e ↔ D.Below a e := by
  constructor
  · intro h
    induction h with
    | child h => exact .child h
    | deeper _ h ih => exact .deeper ih h
  · intro h
    induction h with
    | child h => exact .child h
    | deeper _ h ih => exact .deeper ih h

theorem after_withRoot (D : Doc El) (a e : El) : D.withRoot.After a e ↔ D.After a e := by
  constructor
  · intro h
    induction h with
    | next h => exact .next h
    | later _ h ih => exact .later ih h
  · intro h
    induction h with
    | next h => exact .next h
    | later _ h ih => exact .later ih h

theorem reach_swapAmp (D : Doc El) : ∀ (r : List Step) (P : El → Prop),
    D.reach (r.map swapAmpStep) P = D.withRoot.reach r P := by
  intro r
  induction r with
  | nil => intro P; rfl
  | cons a r ih =>
    intro P
    cases a with
    | simple x =>
      by_cases hx : x = ['&']
      · simp only [List.map_cons, swapAmpStep, hx, if_true, Doc.reach, ih]
        congr 1
      · simp only [List.map_cons, swapAmpStep, hx, if_false, Doc.reach, ih]
        congr 1
        funext e
        simp [Doc.withRoot, hx]
    | comb k =>
      simp only [List.map_cons, swapAmpStep, Doc.reach, ih]
      congr 1
      funext e
      have hr : ∀ a, D.rel k a e = D.withRoot.rel k a e := by
        intro a
        cases k with
        | below => exact (propext (below_withRoot D a e)).symm
        | child => rfl
        | next => rfl
        | after => exact (propext (after_withRoot D a e)).symm
      simp only [hr]

theorem means_global {s : Str} (hok : GlobalSelector s) (D : Doc El) (e : El) :
    D.Matches (expandAmp (c! ":root") s) e ↔ D.withRoot.Matches s e := by
  obtain ⟨-, -, ps, hps, hcur⟩ := hok
  have h1 := (pieces_amp s).1 [] (.out 0) ps hps hcur (by simp) (by simp)
  have hread : readSelector (expandAmp (c! ":root") s) = (readSelector s).map (List.map swapAmpStep) := by
    rw [readSelector, readSelector, h1, hps]
    exact steps_swapAmp _ _
  unfold Doc.Matches
  rw [hread]
  constructor
  · rintro ⟨first, r, h3, h4⟩
    obtain ⟨r0, h5, h6⟩ := Option.map_eq_some_iff.1 h3
    rw [← h6, reach_swapAmp] at h4
    cases r0 with
    | nil => cases h6
    | cons a r0 =>
      cases a with
      | simple x => exact ⟨x, r0, h5, h4⟩
      | comb k => simp [swapAmpStep] at h6
  · rintro ⟨first, r, h3, h4⟩
    rw [h3]
    have h5 := reach_swapAmp D (.simple first :: r) (fun _ => True)
    by_cases hx : first = ['&']
    · refine ⟨c! ":root", r.map swapAmpStep, by simp [swapAmpStep, hx], ?_⟩
      rw [List.map_cons] at h5
      simp only [swapAmpStep, hx, if_true] at h5
      rw [h5, ← hx]; exact h4
    · refine ⟨first, r.map swapAmpStep, by simp [swapAmpStep, hx], ?_⟩
      rw [List.map_cons] at h5
      simp only [swapAmpStep, hx, if_false] at h5
      rw [h5]; exact h4

theorem matches_root (D : Doc El) (e : El) : D.Matches (c! ":root") e ↔ D.meets e (c! ":root") := by
  have h : readSelector (c! ":root") = some [.simple (c! ":root")] := by decide
  unfold Doc.Matches
  rw [h]
  constructor
  · rintro ⟨first, r, h1, h2⟩
    cases h1
    exact h2.2
  · intro h1
    exact ⟨_, _, rfl, trivial, h1⟩

/-- Which elements the printed selectors of a block of a global style match. -/
theorem list_means_global (sels : List Selector) (hs : ∀ s ∈ sels, GlobalSelector s.flatten)
    (hne : sels ≠ []) (D : Doc El) (e : El) :
    (∃ s ∈ selectorList [] (.out 0) (Str.join (c! ", ") (sels.map (fun s => scopeSelector none s.flatten))),
      D.Matches s e) ↔ ∃ s ∈ sels, D.withRoot.Matches s.flatten e := by
  have hm : ∀ s ∈ sels, D.Matches (scopeSelector none s.flatten) e ↔ D.withRoot.Matches s.flatten e :=
    fun s hm => means_global (hs s hm) D e
  cases sels with
  | nil => exact absurd rfl hne
  | cons s l =>
    rw [list_join _ (by
      intro t ht
      obtain ⟨s, hs', rfl⟩ := List.mem_map.1 ht
      obtain ⟨-, -, ps, hps, hcur⟩ := hs s hs'
      exact ⟨_, (pieces_amp _).1 [] (.out 0) ps hps hcur (by simp) (by simp)⟩) (by simp)]
    simp only [List.map_cons, List.nil_append, List.mem_cons, List.mem_map, exists_eq_or_imp]
    constructor
    · rintro (h | ⟨t, ⟨u, ⟨s', h1, rfl⟩, rfl⟩, h2⟩)
      · exact .inl ((hm s (by simp)).1 h)
      · rw [matches_space] at h2
        exact .inr ⟨s', h1, (hm s' (by simp [h1])).1 h2⟩
    · rintro (h | ⟨s', h1, h2⟩)
      · exact .inl ((hm s (by simp)).2 h)
      · exact .inr ⟨_, ⟨_, ⟨s', h1, rfl⟩, rfl⟩, (matches_space _ _ _).2 ((hm s' (by simp [h1])).2 h2)⟩

end SelectP
