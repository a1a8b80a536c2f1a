import Verif.Spec.Inline

/-! # Component values -/

namespace Inline
open Spec Output

/-! ## Sizes -/

theorem treeSize_pos (t : Tree) : 1 ≤ treeSize t := by cases t <;> simp [treeSize]

theorem treesSize_append : ∀ a b : List Tree, treesSize (a ++ b) = treesSize a + treesSize b
  | [], b => by simp [treesSize]
  | t :: a, b => by simp [treesSize, treesSize_append a b, Nat.add_assoc]

theorem length_le_size : ∀ ts : List Tree, ts.length ≤ treesSize ts
  | [] => by simp
  | t :: ts => by
    have := length_le_size ts
    have := treeSize_pos t
    simp only [List.length_cons, treesSize]
    omega

/-! ## Identifiers -/

theorem getLast_cons_chain (p : IdentPart) (ps : List IdentPart) : (p :: ps).getLast? = some ((p :: ps).getLast (by simp)) :=
  List.getLast?_eq_some_getLast _

theorem ends_cons {p q : IdentPart} {ps : List IdentPart} {rest : List Tree} :
    Ends (p :: q :: ps) rest ↔ Ends (q :: ps) rest := by
  simp only [Ends, List.getLast?_cons_cons]

theorem ends_single {p : IdentPart} {rest : List Tree} :
    Ends [p] rest ↔ ∀ q ts, rest = partTree q :: ts → ¬ Joins p q := by
  simp only [Ends, List.getLast?_singleton, Option.some.injEq]
  constructor
  · intro h q ts hr; exact h p q ts rfl hr
  · rintro h _ q ts rfl hr; exact h q ts hr

theorem identRest_sound : ∀ (ts : List Tree) (last : IdentPart),
    ts = (identRest last ts).1.map partTree ++ (identRest last ts).2 ∧ Chain last (identRest last ts).1 ∧
      Ends (last :: (identRest last ts).1) (identRest last ts).2
  | [], last => by
    cases last <;> exact ⟨rfl, trivial, ends_single.2 (fun q ts h => by cases h)⟩
  | .group d c :: ts, last => by
    cases last <;> exact ⟨rfl, trivial, ends_single.2 (fun q ts h => by cases q <;> cases h)⟩
  | .lit a b :: ts, last => by
    cases last <;> exact ⟨rfl, trivial, ends_single.2 (fun q ts h => by cases q <;> cases h)⟩
  | .ident n r :: ts, .ident m s => by
    refine ⟨rfl, trivial, ends_single.2 (fun q ts h => ?_)⟩
    cases q with
    | dash j => cases h
    | ident => simp [Joins]
  | .ident n r :: ts, .dash j => by
    obtain ⟨h1, h2, h3⟩ := identRest_sound ts (.ident n r)
    have he : identRest (.dash j) (.ident n r :: ts) =
      (.ident n r :: (identRest (.ident n r) ts).1, (identRest (.ident n r) ts).2) := rfl
    rw [he]
    refine ⟨?_, ⟨trivial, h2⟩, ends_cons.2 h3⟩
    simp only [List.map_cons, List.cons_append, partTree]
    rw [← h1]
  | .punct c j :: ts, .ident m s => by
    by_cases hc : c = '-'
    · subst hc
      obtain ⟨h1, h2, h3⟩ := identRest_sound ts (.dash j)
      have he : identRest (.ident m s) (.punct '-' j :: ts) =
        (.dash j :: (identRest (.dash j) ts).1, (identRest (.dash j) ts).2) := by simp [identRest]
      rw [he]
      refine ⟨?_, ⟨trivial, h2⟩, ends_cons.2 h3⟩
      simp only [List.map_cons, List.cons_append, partTree]
      rw [← h1]
    · have he : identRest (.ident m s) (.punct c j :: ts) = ([], .punct c j :: ts) := by simp [identRest, hc]
      rw [he]
      refine ⟨rfl, trivial, ends_single.2 (fun q ts h => ?_)⟩
      cases q with
      | dash j => cases h; exact absurd rfl hc
      | ident => cases h
  | .punct c j :: ts, .dash joint => by
    by_cases hc : c = '-' ∧ joint = true
    · obtain ⟨rfl, rfl⟩ := hc
      obtain ⟨h1, h2, h3⟩ := identRest_sound ts (.dash j)
      have he : identRest (.dash true) (.punct '-' j :: ts) =
        (.dash j :: (identRest (.dash j) ts).1, (identRest (.dash j) ts).2) := by simp [identRest]
      rw [he]
      refine ⟨?_, ⟨rfl, h2⟩, ends_cons.2 h3⟩
      simp only [List.map_cons, List.cons_append, partTree]
      rw [← h1]
    · have he : identRest (.dash joint) (.punct c j :: ts) = ([], .punct c j :: ts) := by
        simp only [identRest, hc, if_false]
      rw [he]
      refine ⟨rfl, trivial, ends_single.2 (fun q ts h hj => ?_)⟩
      cases q with
      | dash j => cases h; exact hc ⟨rfl, hj⟩
      | ident => cases h

theorem identRest_stop {last : IdentPart} {rest : List Tree}
    (h : ∀ q ts, rest = partTree q :: ts → ¬ Joins last q) : identRest last rest = ([], rest) := by
  cases rest with
  | nil => cases last <;> rfl
  | cons t ts =>
    cases t with
    | group => cases last <;> rfl
    | lit => cases last <;> rfl
    | ident n r =>
      have := h (.ident n r) ts rfl
      cases last with
      | ident => rfl
      | dash => exact absurd trivial this
    | punct c j =>
      by_cases hc : c = '-'
      · subst hc
        have := h (.dash j) ts rfl
        cases last with
        | ident => exact absurd trivial this
        | dash joint =>
          have hj : joint = false := by simpa [Joins] using this
          subst hj
          simp [identRest]
      · cases last <;> simp [identRest, hc]

theorem identRest_complete : ∀ (ps : List IdentPart) (last : IdentPart) (rest : List Tree), Chain last ps →
    Ends (last :: ps) rest → identRest last (ps.map partTree ++ rest) = (ps, rest)
  | [], last, rest, _, he => by
    simp only [List.map_nil, List.nil_append]
    exact identRest_stop (ends_single.1 he)
  | q :: ps, last, rest, hc, he => by
    have ih := identRest_complete ps q rest hc.2 (ends_cons.1 he)
    have hj := hc.1
    cases q with
    | dash j =>
      cases last with
      | ident => simp only [List.map_cons, List.cons_append, partTree, identRest, if_true, ih]
      | dash joint =>
        simp only [Joins] at hj
        subst hj
        simp [partTree, identRest, ih]
    | ident n r =>
      cases last with
      | ident => exact absurd hj (by simp [Joins])
      | dash joint => simp only [List.map_cons, List.cons_append, partTree, identRest, ih]

theorem parseIdent_sound {ts rest : List Tree} {i : CssIdent} (h : parseIdent ts = some (i, rest)) :
    ts = i.map partTree ++ rest ∧ IdentOk i ∧ Ends i rest := by
  cases ts with
  | nil => cases h
  | cons t ts =>
    cases t with
    | group => cases h
    | lit => cases h
    | ident n r =>
      have he : parseIdent (.ident n r :: ts) =
        some (.ident n r :: (identRest (.ident n r) ts).1, (identRest (.ident n r) ts).2) := rfl
      rw [he] at h
      cases h
      obtain ⟨h1, h2, h3⟩ := identRest_sound ts (.ident n r)
      refine ⟨?_, h2, h3⟩
      simp only [List.map_cons, List.cons_append, partTree]
      rw [← h1]
    | punct c j =>
      by_cases hc : c = '-'
      · subst hc
        have he : parseIdent (.punct '-' j :: ts) =
          some (.dash j :: (identRest (.dash j) ts).1, (identRest (.dash j) ts).2) := by simp [parseIdent]
        rw [he] at h
        cases h
        obtain ⟨h1, h2, h3⟩ := identRest_sound ts (.dash j)
        refine ⟨?_, h2, h3⟩
        simp only [List.map_cons, List.cons_append, partTree]
        rw [← h1]
      · simp [parseIdent, hc] at h

theorem parseIdent_complete {i : CssIdent} {rest : List Tree} (hi : IdentOk i) (he : Ends i rest) :
    parseIdent (i.map partTree ++ rest) = some (i, rest) := by
  cases i with
  | nil => exact absurd hi (by simp [IdentOk])
  | cons p ps =>
    have := identRest_complete ps p rest hi he
    cases p with
    | dash j => simp only [List.map_cons, List.cons_append, partTree, parseIdent, if_true, this]
    | ident n r => simp only [List.map_cons, List.cons_append, partTree, parseIdent, this]

/-- `CssIdent::peek`, in terms of the parts. -/
theorem peekIdent_iff (ts : List Tree) : peekIdent ts = true ↔
    (∃ n r rest, ts = .ident n r :: rest) ∨ ∃ j q rest, ts = .punct '-' j :: partTree q :: rest := by
  cases ts with
  | nil => simp [peekIdent]
  | cons t ts =>
    cases t with
    | group => simp [peekIdent, isMinus, isIdent]
    | lit => simp [peekIdent, isMinus, isIdent]
    | ident n r => simp [peekIdent, isMinus, isIdent]
    | punct c j =>
      by_cases hc : c = '-'
      · subst hc
        cases ts with
        | nil => simp [peekIdent, isMinus]
        | cons u us =>
          have : peekIdent (.punct '-' j :: u :: us) = (isMinus u || isIdent u) := by simp [peekIdent, isMinus]
          rw [this]
          constructor
          · intro h
            right
            cases u with
            | group => simp [isMinus, isIdent] at h
            | lit => simp [isMinus, isIdent] at h
            | ident n r => exact ⟨j, .ident n r, us, rfl⟩
            | punct d k =>
              by_cases hd : d = '-'
              · subst hd; exact ⟨j, .dash k, us, rfl⟩
              · have : isMinus (.punct d k) = false := by
                  unfold isMinus; split
                  · rename_i h'; cases h'; exact absurd rfl hd
                  · rfl
                simp [this, isIdent] at h
          · rintro (⟨n, r, rest, h⟩ | ⟨j', q, rest, h⟩)
            · cases h
            · simp only [List.cons.injEq] at h
              rw [h.2.1]
              cases q <;> simp [partTree, isMinus, isIdent]
      · have hm : isMinus (.punct c j) = false := by
          unfold isMinus; split
          · rename_i h'; cases h'; exact absurd rfl hc
          · rfl
        have : peekIdent (.punct c j :: ts) = false := by
          simp [peekIdent, hm, isIdent]
        rw [this]
        constructor
        · intro h; cases h
        · rintro (⟨n, r, rest, h⟩ | ⟨j', q, rest, h⟩)
          · cases h
          · simp only [List.cons.injEq, Tree.punct.injEq] at h
            exact absurd h.1.1 hc

/-! ## Component values -/

/-- The last two branches of `cv`. -/
def cvElse (isExpr : RExpr → Bool) (n : Nat) (ts : List Tree) : Option (CV × List Tree) :=
  if peekIdent ts then
    match parseIdent ts with
    | none => none
    | some (i, .group .paren args :: rest) =>
      match cvs isExpr n args with
      | none => none
      | some cs => some (.func i cs, rest)
    | some (i, rest) => some (.tok (.ident i), rest)
  else
    match parsePreserved ts with
    | none => none
    | some (t, rest) => some (.tok t, rest)

theorem cv_group (isExpr : RExpr → Bool) (n : Nat) (d : Delim) (inner rest : List Tree) :
    cv isExpr (n + 1) (.group d inner :: rest) = (cvs isExpr n inner).map (fun cs => (.block d cs, rest)) := by
  simp only [cv]
  cases cvs isExpr n inner <;> rfl

theorem cv_expr (isExpr : RExpr → Bool) (n : Nat) (j : Bool) (e rest : List Tree) :
    cv isExpr (n + 1) (.punct '$' j :: .group .brace e :: rest) =
      if isExpr e then some (.expr j e, rest) else none := by
  simp only [cv]

theorem cv_else (isExpr : RExpr → Bool) (n : Nat) (ts : List Tree)
    (h1 : ∀ d inner rest, ts ≠ .group d inner :: rest)
    (h2 : ∀ j e rest, ts ≠ .punct '$' j :: .group .brace e :: rest) :
    cv isExpr (n + 1) ts = cvElse isExpr n ts := by
  unfold cv
  split
  · rename_i d inner rest; exact absurd rfl (h1 d inner rest)
  · exact absurd rfl (h2 _ _ _)
  · rfl

theorem parsePreserved_sound {ts rest : List Tree} {t : PTok} (h : parsePreserved ts = some (t, rest)) :
    (∃ c j, t = .punct c j ∧ c ≠ '\'' ∧ ts = .punct c j :: rest) ∨ (∃ a b, t = .lit a b ∧ ts = .lit a b :: rest) := by
  unfold parsePreserved at h
  split at h
  · rename_i c j ts
    split at h
    · cases h
    · rename_i hc; cases h; exact .inl ⟨c, j, rfl, hc, rfl⟩
  · rename_i a b ts; cases h; exact .inr ⟨a, b, rfl, rfl⟩
  · cases h

mutual
theorem cv_sound (isExpr : RExpr → Bool) : ∀ (n : Nat) (ts : List Tree) (c : CV) (rest : List Tree),
    cv isExpr n ts = some (c, rest) → ts = tokensCV c ++ rest ∧ CVOk isExpr c ∧ Followed c rest
  | 0, _, _, _, h => by simp [cv] at h
  | n + 1, ts, c, rest, h => by
    by_cases hg : ∃ d inner r, ts = .group d inner :: r
    · obtain ⟨d, inner, r, rfl⟩ := hg
      rw [cv_group] at h
      obtain ⟨cs, h1, h2⟩ := Option.map_eq_some_iff.1 h
      cases h2
      obtain ⟨h3, h4⟩ := cvs_sound isExpr n inner cs h1
      exact ⟨by simp only [tokensCV, ← h3, List.cons_append, List.nil_append], h4, trivial⟩
    · by_cases hd : ∃ j e r, ts = .punct '$' j :: .group .brace e :: r
      · obtain ⟨j, e, r, rfl⟩ := hd
        rw [cv_expr] at h
        split at h
        · rename_i he
          cases h
          exact ⟨rfl, he, trivial⟩
        · cases h
      · rw [cv_else isExpr n ts (fun d i r he => hg ⟨d, i, r, he⟩) (fun j e r he => hd ⟨j, e, r, he⟩)] at h
        unfold cvElse at h
        split at h
        · rename_i hp
          split at h
          · cases h
          · rename_i i args r hi
            obtain ⟨h1, h2, h3⟩ := parseIdent_sound hi
            split at h
            · cases h
            · rename_i cs hcs
              cases h
              obtain ⟨h4, h5⟩ := cvs_sound isExpr n args cs hcs
              refine ⟨?_, ⟨h2, ?_, h5⟩, trivial⟩
              · rw [h1]; simp only [tokensCV, ← h4, List.append_assoc, List.cons_append, List.nil_append]
              · rintro j rfl
                rw [h1] at hp
                rcases (peekIdent_iff _).1 hp with ⟨_, _, _, h6⟩ | ⟨_, q, _, h6⟩
                · cases h6
                · cases q <;> cases h6
          · rename_i i r hnp hi
            cases h
            obtain ⟨h1, h2, h3⟩ := parseIdent_sound hi
            refine ⟨h1, h2, h3, ?_, ?_⟩
            · intro a ts' he
              exact hnp a ts' he
            · rintro j rfl
              rw [h1] at hp
              rcases (peekIdent_iff _).1 hp with ⟨_, _, _, h6⟩ | ⟨j2, q, r', h6⟩
              · cases h6
              · simp only [List.map_cons, List.map_nil, List.cons_append, List.nil_append, partTree,
                  List.cons.injEq, Tree.punct.injEq] at h6
                cases q with
                | dash j' => exact ⟨j', r', h6.2⟩
                | ident m s => exact absurd trivial (ends_single.1 h3 (.ident m s) r' h6.2)
        · rename_i hp
          split at h
          · cases h
          · rename_i t r ht
            cases h
            rcases parsePreserved_sound ht with ⟨c, j, rfl, hc, rfl⟩ | ⟨a, b, rfl, rfl⟩
            · refine ⟨rfl, hc, ?_, ?_⟩
              · rintro rfl e ts' rfl
                exact hd ⟨j, e, ts', rfl⟩
              · rintro rfl q ts' rfl
                exact hp ((peekIdent_iff _).2 (.inr ⟨j, q, ts', rfl⟩))
            · exact ⟨rfl, trivial, trivial⟩
theorem cvs_sound (isExpr : RExpr → Bool) : ∀ (n : Nat) (ts : List Tree) (cs : List CV),
    cvs isExpr n ts = some cs → ts = tokens cs ∧ CVsOk isExpr cs []
  | n, [], cs, h => by
    have : cvs isExpr n [] = some [] := by cases n <;> rfl
    rw [this] at h
    cases h
    exact ⟨rfl, trivial⟩
  | 0, _ :: _, cs, h => by simp [cvs] at h
  | n + 1, t :: ts, cs, h => by
    simp only [cvs] at h
    split at h
    · cases h
    · rename_i c rest h1
      split at h
      · cases h
      · rename_i cs' h2
        cases h
        obtain ⟨h3, h4, h5⟩ := cv_sound isExpr n _ c rest h1
        obtain ⟨h6, h7⟩ := cvs_sound isExpr n rest cs' h2
        refine ⟨by rw [h3, tokens, ← h6], h4, ?_, h7⟩
        rw [List.append_nil, ← h6]; exact h5
end

theorem partTree_ne_group (q : IdentPart) (d : Delim) (c : List Tree) : partTree q ≠ .group d c := by
  cases q <;> simp [partTree]

theorem ident_head {i : CssIdent} (hi : IdentOk i) (rest : List Tree) :
    (∀ d inner r, i.map partTree ++ rest ≠ .group d inner :: r) ∧
    (∀ j e r, i.map partTree ++ rest ≠ .punct '$' j :: .group .brace e :: r) ∧
    ((∀ j, i = [.dash j] → ∃ j' ts, rest = .punct '-' j' :: ts) → peekIdent (i.map partTree ++ rest) = true) := by
  cases i with
  | nil => exact absurd hi (by simp [IdentOk])
  | cons p ps =>
    refine ⟨?_, ?_, ?_⟩
    · intro d inner r h
      simp only [List.map_cons, List.cons_append, List.cons.injEq] at h
      exact partTree_ne_group _ _ _ h.1
    · intro j e r h
      simp only [List.map_cons, List.cons_append, List.cons.injEq] at h
      cases p <;> simp [partTree] at h
    · intro h
      rw [peekIdent_iff]
      cases p with
      | ident n r => exact .inl ⟨n, r, _, rfl⟩
      | dash j =>
        right
        cases ps with
        | nil =>
          obtain ⟨j', ts, rfl⟩ := h j rfl
          exact ⟨j, .dash j', ts, rfl⟩
        | cons q qs => exact ⟨j, q, _, rfl⟩

mutual
theorem cv_complete (isExpr : RExpr → Bool) : ∀ (n : Nat) (c : CV) (rest : List Tree), CVOk isExpr c →
    Followed c rest → 2 * treesSize (tokensCV c) ≤ n → cv isExpr n (tokensCV c ++ rest) = some (c, rest)
  | 0, c, rest, hc, hf, hn => by
    exfalso
    have : 1 ≤ treesSize (tokensCV c) := by
      cases c with
      | func i args =>
        simp only [tokensCV, treesSize_append, treesSize, treeSize]; omega
      | tok t =>
        cases t with
        | ident i =>
          cases i with
          | nil => exact absurd hc (by simp [CVOk, IdentOk])
          | cons p ps =>
            have := treeSize_pos (partTree p)
            simp only [tokensCV, List.map_cons, treesSize]; omega
        | punct => simp [tokensCV, treesSize, treeSize]
        | lit => simp [tokensCV, treesSize, treeSize]
      | block => simp only [tokensCV, treesSize, treeSize]; omega
      | expr => simp only [tokensCV, treesSize, treeSize]; omega
    omega
  | n + 1, .block d cs, rest, hc, hf, hn => by
    have e : tokensCV (.block d cs) ++ rest = .group d (tokens cs) :: rest := rfl
    rw [e, cv_group, cvs_complete isExpr n cs hc (by simp only [tokensCV, treesSize, treeSize] at hn; omega)]
    rfl
  | n + 1, .expr j x, rest, hc, hf, hn => by
    have e : tokensCV (.expr j x) ++ rest = .punct '$' j :: .group .brace x :: rest := rfl
    rw [e, cv_expr]
    simp only [CVOk] at hc
    rw [if_pos hc]
  | n + 1, .tok (.lit a b), rest, hc, hf, hn => by
    have e : tokensCV (.tok (.lit a b)) ++ rest = .lit a b :: rest := rfl
    rw [e, cv_else isExpr n _ (by simp) (by simp)]
    simp [cvElse, peekIdent, isMinus, isIdent, parsePreserved]
  | n + 1, .tok (.punct c j), rest, hc, hf, hn => by
    have e : tokensCV (.tok (.punct c j)) ++ rest = .punct c j :: rest := rfl
    obtain ⟨h1, h2⟩ := hf
    rw [e, cv_else isExpr n _ (by simp) (by
      rintro j' e' r he
      simp only [List.cons.injEq, Tree.punct.injEq] at he
      exact h1 he.1.1 e' r he.2)]
    have hp : peekIdent (.punct c j :: rest) = false := by
      rw [Bool.eq_false_iff]
      intro h
      rcases (peekIdent_iff _).1 h with ⟨_, _, _, h6⟩ | ⟨j2, q, r', h6⟩
      · cases h6
      · simp only [List.cons.injEq, Tree.punct.injEq] at h6
        exact h2 h6.1.1 q r' h6.2
    simp only [CVOk] at hc
    simp [cvElse, hp, parsePreserved, hc]
  | n + 1, .tok (.ident i), rest, hc, hf, hn => by
    obtain ⟨h1, h2, h3⟩ := hf
    obtain ⟨g1, g2, g3⟩ := ident_head hc rest
    have e : tokensCV (.tok (.ident i)) ++ rest = i.map partTree ++ rest := rfl
    rw [e, cv_else isExpr n _ g1 g2, cvElse, if_pos (g3 h3), parseIdent_complete hc h1]
    split
    · rename_i he; cases he
    · rename_i i' args r he
      cases he
      exact absurd rfl (h2 args r)
    · rename_i he; cases he; rfl
  | n + 1, .func i args, rest, hc, hf, hn => by
    obtain ⟨h1, h2, h3⟩ := hc
    have e : tokensCV (.func i args) ++ rest = i.map partTree ++ (.group .paren (tokens args) :: rest) := by
      simp [tokensCV]
    obtain ⟨g1, g2, g3⟩ := ident_head h1 (.group .paren (tokens args) :: rest)
    have hends : Ends i (.group .paren (tokens args) :: rest) := by
      intro last q ts _ he
      simp only [List.cons.injEq] at he
      exact absurd he.1.symm (partTree_ne_group _ _ _)
    rw [e, cv_else isExpr n _ g1 g2, cvElse, if_pos (g3 (fun j hj => absurd hj (h2 j))), parseIdent_complete h1 hends]
    have := cvs_complete isExpr n args h3 (by
      simp only [tokensCV, treesSize_append, treesSize, treeSize] at hn; omega)
    simp only [this]
theorem cvs_complete (isExpr : RExpr → Bool) : ∀ (n : Nat) (cs : List CV), CVsOk isExpr cs [] →
    2 * treesSize (tokens cs) + 1 ≤ n → cvs isExpr n (tokens cs) = some cs
  | 0, _, _, hn => by omega
  | n + 1, [], _, _ => by simp [tokens, cvs]
  | n + 1, c :: cs, h, hn => by
    obtain ⟨h1, h2, h3⟩ := h
    rw [List.append_nil] at h2
    simp only [tokens, treesSize_append] at hn ⊢
    have hp : 1 ≤ treesSize (tokensCV c) := by
      cases c with
      | func i args => simp only [tokensCV, treesSize_append, treesSize, treeSize]; omega
      | tok t =>
        cases t with
        | ident i =>
          cases i with
          | nil => exact absurd h1 (by simp [CVOk, IdentOk])
          | cons p ps =>
            have := treeSize_pos (partTree p)
            simp only [tokensCV, List.map_cons, treesSize]; omega
        | punct => simp [tokensCV, treesSize, treeSize]
        | lit => simp [tokensCV, treesSize, treeSize]
      | block => simp only [tokensCV, treesSize, treeSize]; omega
      | expr => simp only [tokensCV, treesSize, treeSize]; omega
    have hcv := cv_complete isExpr n c (tokens cs) h1 h2 (by omega)
    have hcs := cvs_complete isExpr n cs h3 (by omega)
    cases hts : tokensCV c ++ tokens cs with
    | nil =>
      have := congrArg treesSize hts
      simp only [treesSize_append, treesSize] at this
      omega
    | cons t ts =>
      rw [hts] at hcv
      simp only [cvs, hcv, hcs]
end

theorem cv_nonempty {isExpr : RExpr → Bool} {c : CV} (h : CVOk isExpr c) : 1 ≤ (tokensCV c).length := by
  cases c with
  | func i args => simp [tokensCV]
  | tok t =>
    cases t with
    | ident i =>
      cases i with
      | nil => exact absurd h (by simp [CVOk, IdentOk])
      | cons p ps => simp [tokensCV]
    | punct => simp [tokensCV]
    | lit => simp [tokensCV]
  | block => simp [tokensCV]
  | expr => simp [tokensCV]

theorem parseCV_iff (isExpr : RExpr → Bool) (ts : List Tree) (c : CV) (rest : List Tree) :
    parseCV isExpr ts = some (c, rest) ↔ ts = tokensCV c ++ rest ∧ CVOk isExpr c ∧ Followed c rest := by
  constructor
  · exact cv_sound isExpr _ ts c rest
  · rintro ⟨rfl, h1, h2⟩
    exact cv_complete isExpr _ c rest h1 h2 (by rw [treesSize_append]; omega)

/-- `ComponentValue::parse_multiple` on a whole input. -/
def parseMultiple (isExpr : RExpr → Bool) (ts : List Tree) : Option (List CV) :=
  cvs isExpr (2 * treesSize ts + 1) ts

theorem parseMultiple_iff (isExpr : RExpr → Bool) (ts : List Tree) (cs : List CV) :
    parseMultiple isExpr ts = some cs ↔ ts = tokens cs ∧ CVsOk isExpr cs [] := by
  constructor
  · exact cvs_sound isExpr _ ts cs
  · rintro ⟨rfl, h⟩
    exact cvs_complete isExpr _ cs h (Nat.le_refl _)

end Inline
