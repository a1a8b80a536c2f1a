import Verif.Spec.Cascade
import Verif.Proofs.SelectGlobal

/-!
# The cascade

Lemmas for C91.
-/

namespace CascadeP

open Spec SelectP

variable {El : Type}

/-! ## Weights -/

theorem Weight.add_def (a b : Weight) : a + b = ⟨a.ids + b.ids, a.classes + b.classes, a.types + b.types⟩ := rfl

theorem lt_irrefl (a : Weight) : ¬ a.lt a := by
  unfold Weight.lt; omega

theorem lt_trans {a b c : Weight} (h : a.lt b) (h' : b.lt c) : a.lt c := by
  unfold Weight.lt at *; omega

theorem lt_total (a b : Weight) : a.lt b ∨ a = b ∨ b.lt a := by
  cases a; cases b
  simp only [Weight.lt, Weight.mk.injEq]
  omega

theorem highest_unique {P : Weight → Prop} {n m : Weight} (h : Highest P n) (h' : Highest P m) : n = m := by
  rcases lt_total n m with h1 | h1 | h1
  · exact absurd h1 (h.2 _ h'.1)
  · exact h1
  · exact absurd h1 (h'.2 _ h.1)

theorem highest_congr {P Q : Weight → Prop} (h : ∀ m, P m ↔ Q m) (n : Weight) : Highest P n ↔ Highest Q n := by
  have : P = Q := funext fun m => propext (h m)
  rw [this]

/-- Among finitely many weights there is a highest one. -/
theorem highest_exists {α : Type} (l : List α) (Q : α → Weight → Prop) (hQ : ∀ a m m', Q a m → Q a m' → m = m')
    (h : ∃ a ∈ l, ∃ m, Q a m) : ∃ n, Highest (fun m => ∃ a ∈ l, Q a m) n := by
  induction l with
  | nil => obtain ⟨a, ha, -⟩ := h; cases ha
  | cons b l ih =>
    by_cases hl : ∃ a ∈ l, ∃ m, Q a m
    · obtain ⟨n, ⟨a, ha, h1⟩, h2⟩ := ih hl
      by_cases hb : ∃ m, Q b m ∧ n.lt m
      · obtain ⟨m, h3, h4⟩ := hb
        refine ⟨m, ⟨b, by simp, h3⟩, ?_⟩
        rintro k ⟨c, hc, h5⟩ h6
        rcases List.mem_cons.1 hc with rfl | hc
        · rw [hQ _ _ _ h3 h5] at h6; exact lt_irrefl _ h6
        · exact h2 k ⟨c, hc, h5⟩ (lt_trans h4 h6)
      · refine ⟨n, ⟨a, by simp [ha], h1⟩, ?_⟩
        rintro k ⟨c, hc, h5⟩ h6
        rcases List.mem_cons.1 hc with rfl | hc
        · exact hb ⟨k, h5, h6⟩
        · exact h2 k ⟨c, hc, h5⟩ h6
    · obtain ⟨a, ha, m, hm⟩ := h
      rcases List.mem_cons.1 ha with rfl | ha
      · refine ⟨m, ⟨a, by simp, hm⟩, ?_⟩
        rintro k ⟨c, hc, h5⟩ h6
        rcases List.mem_cons.1 hc with rfl | hc
        · rw [hQ _ _ _ hm h5] at h6; exact lt_irrefl _ h6
        · exact hl ⟨c, hc, k, h5⟩
      · exact absurd ⟨a, ha, m, hm⟩ hl

/-! ## Winners -/

section
variable {α : Type} {key : α → Str} {important : α → Bool} {strength : α → Weight → Prop}

theorem ahead_total {i j : Nat} (h : i ≠ j) (b b' : Bool) (n m : Weight) : Ahead b n i b' m j ∨ Ahead b' m j b n i := by
  unfold Ahead
  rcases lt_total n m with h1 | rfl | h1
  · cases b <;> cases b' <;> simp [h1]
  · cases b <;> cases b' <;> simp <;> omega
  · cases b <;> cases b' <;> simp [h1]

theorem ahead_trans {b b' b'' : Bool} {n m k : Weight} {x y z : Nat} (h : Ahead b n x b' m y)
    (h' : Ahead b' m y b'' k z) : Ahead b n x b'' k z := by
  unfold Ahead at *
  rcases h with ⟨rfl, rfl⟩ | ⟨rfl, h⟩
  · rcases h' with ⟨h', -⟩ | ⟨rfl, -⟩
    · cases h'
    · exact .inl ⟨rfl, rfl⟩
  · rcases h' with h' | ⟨rfl, h'⟩
    · exact .inl h'
    · refine .inr ⟨rfl, ?_⟩
      rcases h with h | ⟨rfl, h⟩
      · rcases h' with h' | ⟨rfl, h'⟩
        · exact .inl (lt_trans h' h)
        · exact .inl h
      · rcases h' with h' | ⟨rfl, h'⟩
        · exact .inl h'
        · exact .inr ⟨rfl, by omega⟩

/-- There is only one winner. -/
theorem winner_unique {l : List α} {k : Str} {i j : Nat} (h : Winner key important strength l k i)
    (h' : Winner key important strength l k j) : i = j := by
  obtain ⟨a, n, h1, h2, h3, h4⟩ := h
  obtain ⟨b, m, h5, h6, h7, h8⟩ := h'
  apply Classical.byContradiction
  intro hij
  rcases ahead_total hij (important a) (important b) n m with h9 | h9
  · exact h8 i a n h1 h2 h3 h9
  · exact h4 j b m h5 h6 h7 h9

/-- If anything takes part there is a winner. -/
theorem winner_exists (hs : ∀ a m m', strength a m → strength a m' → m = m') (k : Str) (l : List α)
    (h : ∃ a ∈ l, key a = k ∧ ∃ n, strength a n) : ∃ i, Winner key important strength l k i := by
  have main : ∀ (N : Nat), N ≤ l.length → (∃ (j : Nat) (a : α), j < N ∧ l[j]? = some a ∧ key a = k ∧ ∃ n, strength a n) →
      ∃ (i : Nat) (a : α) (n : Weight), i < N ∧ l[i]? = some a ∧ key a = k ∧ strength a n ∧
        ∀ (j : Nat) (b : α) (m : Weight), j < N → l[j]? = some b → key b = k → strength b m →
          ¬ Ahead (important b) m j (important a) n i := by
    intro N
    induction N with
    | zero => rintro - ⟨j, -, hj, -⟩; omega
    | succ N ih =>
      rintro hN ⟨j, a, hj, hja, hk, n, hn⟩
      obtain ⟨c, hc⟩ : ∃ c, l[N]? = some c := ⟨_, List.getElem?_eq_getElem (by omega)⟩
      by_cases hlow : ∃ (j : Nat) (a : α), j < N ∧ l[j]? = some a ∧ key a = k ∧ ∃ n, strength a n
      · obtain ⟨i, a, n, h1, h2, h3, h4, h5⟩ := ih (by omega) hlow
        by_cases hnew : ∃ m, key c = k ∧ strength c m ∧ Ahead (important c) m N (important a) n i
        · obtain ⟨m, h6, h7, h8⟩ := hnew
          refine ⟨N, c, m, by omega, hc, h6, h7, ?_⟩
          intro j b q hj hjb hkb hq hah
          by_cases hjN : j = N
          · subst hjN
            rw [hc] at hjb; cases hjb
            rw [hs _ _ _ hq h7] at hah
            unfold Ahead at hah
            rcases hah with ⟨h9, h10⟩ | ⟨-, h9 | ⟨-, h9⟩⟩
            · rw [h9] at h10; cases h10
            · exact lt_irrefl _ h9
            · omega
          · exact h5 j b q (by omega) hjb hkb hq (ahead_trans hah h8)
        · refine ⟨i, a, n, by omega, h2, h3, h4, ?_⟩
          intro j b q hj hjb hkb hq hah
          by_cases hjN : j = N
          · subst hjN
            rw [hc] at hjb; cases hjb
            exact hnew ⟨q, hkb, hq, hah⟩
          · exact h5 j b q (by omega) hjb hkb hq hah
      · have hjN : j = N := by
          apply Classical.byContradiction
          intro hne
          exact hlow ⟨j, a, by omega, hja, hk, n, hn⟩
        subst hjN
        refine ⟨j, a, n, by omega, hja, hk, hn, ?_⟩
        intro i b q hi hib hkb hq hah
        by_cases hij : i = j
        · subst hij
          rw [hja] at hib; cases hib
          rw [hs _ _ _ hq hn] at hah
          unfold Ahead at hah
          rcases hah with ⟨h9, h10⟩ | ⟨-, h9 | ⟨-, h9⟩⟩
          · rw [h9] at h10; cases h10
          · exact lt_irrefl _ h9
          · omega
        · exact hlow ⟨i, b, by omega, hib, hkb, q, hq⟩
  obtain ⟨a, ha, hk, n, hn⟩ := h
  obtain ⟨j, hj⟩ := List.getElem?_of_mem ha
  have hjl : j < l.length := (List.getElem?_eq_some_iff.1 hj).1
  obtain ⟨i, a, n, h1, h2, h3, h4, h5⟩ := main l.length (Nat.le_refl _) ⟨j, a, hjl, hj, hk, n, hn⟩
  exact ⟨i, a, n, h2, h3, h4, fun j b m hj' => h5 j b m (List.getElem?_eq_some_iff.1 hj').1 hj'⟩

/-- The winner of a list that is made from another one. -/
theorem winner_map {β : Type} {key' : β → Str} {important' : β → Bool} {strength' : β → Weight → Prop} (f : α → β)
    (l : List α) (h : ∀ a ∈ l, key' (f a) = key a ∧ important' (f a) = important a ∧
      ∀ n, strength' (f a) n ↔ strength a n) (k : Str) (i : Nat) :
    Winner key' important' strength' (l.map f) k i ↔ Winner key important strength l k i := by
  unfold Winner
  constructor
  · rintro ⟨b, n, h1, h2, h3, h4⟩
    rw [List.getElem?_map, Option.map_eq_some_iff] at h1
    obtain ⟨a, h1, rfl⟩ := h1
    obtain ⟨e1, e2, e3⟩ := h a (List.mem_of_getElem? h1)
    refine ⟨a, n, h1, by rw [← e1, h2], (e3 n).1 h3, ?_⟩
    intro j b m h5 h6 h7
    obtain ⟨f1, f2, f3⟩ := h b (List.mem_of_getElem? h5)
    rw [← f2, ← e2]
    exact h4 j (f b) m (by rw [List.getElem?_map, h5]; rfl) (by rw [f1, h6]) ((f3 m).2 h7)
  · rintro ⟨a, n, h1, h2, h3, h4⟩
    obtain ⟨e1, e2, e3⟩ := h a (List.mem_of_getElem? h1)
    refine ⟨f a, n, by rw [List.getElem?_map, h1]; rfl, by rw [e1, h2], (e3 n).2 h3, ?_⟩
    intro j b m h5 h6 h7
    rw [List.getElem?_map, Option.map_eq_some_iff] at h5
    obtain ⟨b, h5, rfl⟩ := h5
    obtain ⟨f1, f2, f3⟩ := h b (List.mem_of_getElem? h5)
    rw [f2, e2]
    exact h4 j b m h5 (by rw [← f1, h6]) ((f3 m).1 h7)
end

/-! ## What printed selectors weigh -/

theorem weigh_swap (w : Str → Weight) (cur : Str) (r : List Step) :
    weigh w (r.map (swapStep cur)) = weigh (fun x => if isCurrent x then w cur else w x) r := by
  induction r with
  | nil => rfl
  | cons a r ih =>
    cases a with
    | simple x =>
      by_cases hx : isCurrent x = true
      · simp [swapStep, hx, weigh, ih]
      · simp [swapStep, hx, weigh, ih]
    | comb k => simpa [swapStep, weigh] using ih

theorem weigh_swapAmp (w : Str → Weight) (r : List Step) :
    weigh w (r.map swapAmpStep) = weigh (fun x => if x = c! "&" then w (c! ":root") else w x) r := by
  induction r with
  | nil => rfl
  | cons a r ih =>
    cases a with
    | simple x =>
      by_cases hx : x = ['&']
      · simp [swapAmpStep, hx, weigh, ih]
      · simp [swapAmpStep, hx, weigh, ih]
    | comb k => simpa [swapAmpStep, weigh] using ih

theorem weigh_afterSpace (w : Str → Weight) (r : List Step) : weigh w (afterSpace r) = weigh w r := by
  cases r with
  | nil => rfl
  | cons a r => cases a <;> rfl

/-- Scoping a selector adds the weight of the class, or replaces `&` and `:root` by it. -/
theorem weight_scoped (w : Str → Weight) {cls s : Str} (hcls : CleanClass cls) (hok : SelectorOk s) :
    weightOf w (scopeSelector (some cls) s) = weightFor w (some cls) s := by
  obtain ⟨ps, hps, hcur⟩ := hok
  obtain ⟨h1, h2⟩ := (pieces_expand hcls s.length s (Nat.le_refl _)).1 [] (.out 0) ps hps hcur (by simp) (apart_nil s)
    (by simp)
  have hmen : mentionsCurrent s = true ↔ ('&' ∈ s ∨ c! ":root" <:+: s) := by
    rw [mentions_iff hps]
    constructor
    · rintro ⟨x, hx, hx'⟩
      have := pieces_infix _ _ _ _ hps x hx
      simp only [List.nil_append] at this
      rcases isCurrent_iff.1 hx' with rfl | rfl
      · exact .inl (this.subset (by simp))
      · exact .inr this
    · exact h2
  unfold weightOf weightFor scopeSelector
  dsimp only
  by_cases hm : ('&' ∈ s ∨ c! ":root" <:+: s)
  · rw [if_pos hm]
    have hread : readSelector (expand ('.' :: cls) s) = (readSelector s).map (List.map (swapStep ('.' :: cls))) := by
      rw [readSelector, readSelector, h1, hps]
      exact steps_swap _ _ _
    rw [hread]
    cases readSelector s with
    | none => rfl
    | some r => simp [weigh_swap, hmen.2 hm]
  · rw [if_neg hm]
    have hm' : ¬ mentionsCurrent s = true := by rw [hmen]; exact hm
    by_cases hcol : s.head? = some ':'
    · rw [if_pos hcol]
      cases s with
      | nil => cases hcol
      | cons c s =>
        have : c = ':' := by simpa using hcol
        subst this
        rw [(readSelector_cls_colon hcls s).1]
        cases readSelector (':' :: s) with
        | none => rfl
        | some r => simp [weigh, hm']
    · rw [if_neg hcol, readSelector_cls hcls]
      cases readSelector s with
      | none => rfl
      | some r => simp [weigh, weigh_afterSpace, hm']

theorem weight_global (w : Str → Weight) {s : Str} (hok : GlobalSelector s) :
    weightOf w (scopeSelector none s) = weightFor w none s := by
  obtain ⟨-, -, ps, hps, hcur⟩ := hok
  have h1 := (pieces_amp s).1 [] (.out 0) ps hps hcur (by simp) (by simp)
  have hread : readSelector (expandAmp (c! ":root") s) = (readSelector s).map (List.map swapAmpStep) := by
    rw [readSelector, readSelector, h1, hps]
    exact steps_swapAmp _ _
  unfold weightOf weightFor
  rw [show scopeSelector none s = expandAmp (c! ":root") s from rfl, hread]
  cases readSelector s with
  | none => rfl
  | some r => simp [weigh_swapAmp]

/-- The class can be printed. -/
def ClassFor (cls : Option Str) : Prop := ∀ c ∈ cls, CleanClass c

/-- What a printed selector matches, and what it weighs. -/
theorem one_selector {cls : Option Str} (hcls : ClassFor cls) {s : Str} (hs : SelectorFor cls s) (D : Doc El)
    (w : Str → Weight) (e : El) (m : Weight) :
    (D.Matches (scopeSelector cls s) e ∧ weightOf w (scopeSelector cls s) = some m) ↔
      (D.MeansFor cls s e ∧ weightFor w cls s = some m) := by
  cases cls with
  | none => rw [weight_global w hs]; exact and_congr_left fun _ => means_global hs D e
  | some c =>
    rw [weight_scoped w (hcls c rfl) hs.2.2]
    exact and_congr_left fun _ => means (hcls c rfl) hs.2.2 hs.1 (fun c hc => (hs.2.1 c hc).1) D e

theorem printed_pieces {cls : Option Str} (hcls : ClassFor cls) {s : Str} (hs : SelectorFor cls s) :
    ∃ ps, pieces [] (.out 0) (scopeSelector cls s) = some ps := by
  cases cls with
  | none =>
    obtain ⟨-, -, ps, hps, hcur⟩ := hs
    exact ⟨_, (pieces_amp _).1 [] (.out 0) ps hps hcur (by simp) (by simp)⟩
  | some c => exact pieces_printed (hcls c rfl) hs.2.2

theorem current_pieces {cls : Option Str} (hcls : ClassFor cls) :
    ∃ ps, pieces [] (.out 0) (current cls) = some ps := by
  cases cls with
  | none => exact Option.isSome_iff_exists.1 (by decide)
  | some c =>
    have := pieces_cls (hcls c rfl) [] []
    rw [List.append_nil] at this
    rw [current, this]
    exact ⟨_, rfl⟩

theorem current_matches {cls : Option Str} (hcls : ClassFor cls) (D : Doc El) (w : Str → Weight) (e : El)
    (m : Weight) :
    (D.Matches (current cls) e ∧ weightOf w (current cls) = some m) ↔ (D.meets e (current cls) ∧ m = w (current cls)) := by
  have hw : weightOf w (current cls) = some (w (current cls)) := by
    have h : readSelector (current cls) = some [.simple (current cls)] := by
      cases cls with
      | none => decide
      | some c =>
        have := pieces_cls (hcls c rfl) [] []
        rw [List.append_nil] at this
        rw [current, readSelector, this]
        simp [pieces, flush, steps]
    have h0 : ∀ a : Weight, a + ⟨0, 0, 0⟩ = a := fun _ => rfl
    rw [weightOf, h]
    simp [weigh, h0]
  rw [hw, Option.some.injEq]
  have : D.Matches (current cls) e ↔ D.meets e (current cls) := by
    cases cls with
    | none => exact matches_root D e
    | some c => exact matches_cls (hcls c rfl) D e
  rw [this]
  exact and_congr_right fun _ => eq_comm

/-- The header of a block with these selectors. -/
def header (cls : Option Str) (sels : List Selector) : Str :=
  if sels = [] then current cls else Str.join (c! ", ") (sels.map (fun s => scopeSelector cls s.flatten))

/-- The selectors of a header, with their weights. -/
theorem header_matches {cls : Option Str} (hcls : ClassFor cls) {sels : List Selector}
    (hs : ∀ s ∈ sels, SelectorFor cls s.flatten) (D : Doc El) (w : Str → Weight) (e : El) (m : Weight) :
    (∃ s ∈ selectorList [] (.out 0) (header cls sels), D.Matches s e ∧ weightOf w s = some m) ↔
      if sels = [] then D.meets e (current cls) ∧ m = w (current cls)
      else ∃ s ∈ sels, D.MeansFor cls s.flatten e ∧ weightFor w cls s.flatten = some m := by
  unfold header
  by_cases hne : sels = []
  · rw [if_pos hne, if_pos hne]
    have := list_join [current cls] (by
      intro t ht
      have : t = current cls := by simpa using ht
      subst this
      exact current_pieces hcls) (by simp) []
    rw [show Str.join (c! ", ") [current cls] = current cls from rfl] at this
    rw [this]
    simpa using current_matches hcls D w e m
  · rw [if_neg hne, if_neg hne]
    have hw : ∀ t, weightOf w (' ' :: t) = weightOf w t := fun t => by rw [weightOf, readSelector_space, weightOf]
    cases sels with
    | nil => exact absurd rfl hne
    | cons s l =>
      rw [list_join _ (by
        intro t ht
        obtain ⟨s, hs', rfl⟩ := List.mem_map.1 ht
        exact printed_pieces hcls (hs s hs')) (by simp)]
      simp only [List.map_cons, List.nil_append, List.mem_cons, List.mem_map, exists_eq_or_imp]
      have hm : ∀ s' ∈ s :: l, _ := fun s' h => one_selector hcls (hs s' h) D w e m
      constructor
      · rintro (h | ⟨t, ⟨u, ⟨s', h1, rfl⟩, rfl⟩, h2⟩)
        · exact .inl ((hm s (by simp)).1 h)
        · rw [matches_space, hw] at h2
          exact .inr ⟨s', h1, (hm s' (by simp [h1])).1 h2⟩
      · rintro (h | ⟨s', h1, h2⟩)
        · exact .inl ((hm s (by simp)).2 h)
        · refine .inr ⟨_, ⟨_, ⟨s', h1, rfl⟩, rfl⟩, ?_⟩
          rw [matches_space, hw]
          exact (hm s' (by simp [h1])).2 h2

theorem scoped_head {cls : Option Str} {s : Str} (hs : SelectorFor cls s) :
    (scopeSelector cls s).head? ≠ some '@' ∧ scopeSelector cls s ≠ [] := by
  have hne : s ≠ [] := by cases cls <;> exact hs.1
  have hat : s.head? ≠ some '@' := by
    intro h
    have : ∀ c ∈ s.head?, cssSpace c = false ∧ c ≠ '@' := by cases cls <;> exact hs.2.1
    exact (this '@' h).2 rfl
  cases s with
  | nil => exact absurd rfl hne
  | cons c s =>
    have hc : c ≠ '@' := by simpa using hat
    cases cls with
    | none =>
      rw [show scopeSelector none (c :: s) = expandAmp (c! ":root") (c :: s) from rfl]
      by_cases hamp : c = '&'
      · subst hamp; rw [expandAmp]; simp
      · rw [expandAmp_cons hamp]; simp [hc]
    | some cls =>
      unfold scopeSelector
      dsimp only
      split
      · by_cases hamp : c = '&'
        · subst hamp; rw [expand]; simp
        · by_cases hroot : c! ":root" <+: c :: s
          · obtain ⟨t, ht⟩ := hroot
            rw [← ht, expand_root]; simp
          · rw [expand_cons hamp hroot]
            simp [hc]
      · split <;> simp

theorem header_head {cls : Option Str} {sels : List Selector} (hs : ∀ s ∈ sels, SelectorFor cls s.flatten) :
    (header cls sels).head? ≠ some '@' := by
  unfold header
  cases sels with
  | nil => cases cls <;> simp [current]
  | cons s l =>
    have h := scoped_head (hs s (by simp))
    rw [if_neg (by simp)]
    cases hx : scopeSelector cls s.flatten with
    | nil => exact absurd hx h.2
    | cons c x =>
      rw [hx] at h
      cases l <;> simp [Str.join, hx] <;> simpa using h.1

/-! ## From sheets to declarations -/

/-- The declaration that is printed. -/
def declOf (cls : Option Str) (x : Said) : Decl := ⟨x.rules ++ (x.selectors.map (header cls)).toList, x.key, x.value⟩

mutual
theorem decls_said (cls : Option Str) : ∀ (x : RBC) (rules : List Str) (outer : Option (List Selector)),
    declsIn (scopeSelector cls) (current cls) rules (outer.map (header cls)) x =
      (saidIn rules outer x).map (declOf cls)
  | .attr k v, rules, outer => by simp [declsIn, saidIn, declOf]
  | .rule c b, rules, outer => by
    rw [declsIn, saidIn]
    exact declsAll_said cls b _ _
  | .block c b, rules, outer => by
    rw [declsIn, saidIn, ← declsAll_said cls b]
    congr 1
    cases c with
    | nil => cases outer <;> simp [blockSelector, header]
    | cons s c => simp [blockSelector, header]
theorem declsAll_said (cls : Option Str) : ∀ (xs : List RBC) (rules : List Str) (outer : Option (List Selector)),
    declsInAll (scopeSelector cls) (current cls) rules (outer.map (header cls)) xs =
      (saidInAll rules outer xs).map (declOf cls)
  | [], _, _ => rfl
  | x :: xs, rules, outer => by
    rw [declsInAll, saidInAll, List.map_append, decls_said cls x, declsAll_said cls xs]
end

theorem decls_eq (cls : Option Str) (s : Sheet) : decls cls s = (said s).map (declOf cls) :=
  declsAll_said cls _ [] none

/-- What holds for the declarations of a sheet: their selectors are good, the at-rules around
them begin with `@`; or they are in an animation. -/
def Fine (cls : Option Str) (x : Said) : Prop :=
  (∃ r ∈ x.rules, r.head? = some '@' ∧ c! "keyframes" <:+: r) ∨
    ((∀ r ∈ x.rules, r.head? = some '@') ∧ (x.selectors = none → x.rules ≠ []) ∧
      ∀ sels, x.selectors = some sels → ∀ s ∈ sels, SelectorFor cls s.flatten)

mutual
theorem said_rules : ∀ (x : RBC) (rules : List Str) (outer : Option (List Selector)),
    ∀ y ∈ saidIn rules outer x, ∀ r ∈ rules, r ∈ y.rules
  | .attr k v, rules, outer => by
    intro y hy
    simp only [saidIn, List.mem_cons, List.not_mem_nil, or_false] at hy
    subst hy
    exact fun _ h => h
  | .rule c b, rules, outer => by
    intro y hy r hr
    exact saidAll_rules b _ _ y hy r (by simp [hr])
  | .block c b, rules, outer => by
    intro y hy
    exact saidAll_rules b _ _ y hy
theorem saidAll_rules : ∀ (xs : List RBC) (rules : List Str) (outer : Option (List Selector)),
    ∀ y ∈ saidInAll rules outer xs, ∀ r ∈ rules, r ∈ y.rules
  | [], _, _ => by intro y hy; cases hy
  | x :: xs, rules, outer => by
    intro y hy
    rw [saidInAll, List.mem_append] at hy
    exact hy.elim (said_rules x _ _ y) (saidAll_rules xs _ _ y)
end

mutual
theorem said_fine (cls : Option Str) : ∀ (x : RBC) (rules : List Str) (outer : Option (List Selector)),
    SelectorsIn (SelectorFor cls) x → (∀ r ∈ rules, r.head? = some '@') →
    (outer = none → rules = [] → ∀ k v, x ≠ .attr k v) →
    (∀ sels, outer = some sels → ∀ s ∈ sels, SelectorFor cls s.flatten) → ∀ y ∈ saidIn rules outer x, Fine cls y
  | .attr k v, rules, outer => by
    intro _ h1 h2 h3 y hy
    simp only [saidIn, List.mem_cons, List.not_mem_nil, or_false] at hy
    subst hy
    exact .inr ⟨h1, fun h4 h5 => h2 h4 h5 k v rfl, h3⟩
  | .rule c b, rules, outer => by
    intro h0 h1 h2 h3 y hy
    rw [saidIn] at hy
    rw [SelectorsIn] at h0
    rcases h0 with ⟨h4, h5 | h5⟩
    · exact .inl ⟨c.flatten, saidAll_rules b _ _ y hy _ (by simp), h4, h5⟩
    · refine saidAll_fine cls b _ _ h5 ?_ (by simp) h3 y hy
      intro r hr
      rcases List.mem_append.1 hr with hr | hr
      · exact h1 r hr
      · have : r = c.flatten := by simpa using hr
        rw [this]; exact h4
  | .block c b, rules, outer => by
    intro h0 h1 h2 h3 y hy
    rw [saidIn] at hy
    rw [SelectorsIn] at h0
    refine saidAll_fine cls b _ _ h0.2 h1 (by simp) ?_ y hy
    intro sels hsels
    cases hsels
    split
    · cases outer with
      | none => simp
      | some o => simpa using h3 o rfl
    · exact h0.1
theorem saidAll_fine (cls : Option Str) : ∀ (xs : List RBC) (rules : List Str) (outer : Option (List Selector)),
    SelectorsInAll (SelectorFor cls) xs → (∀ r ∈ rules, r.head? = some '@') →
    (outer = none → rules = [] → ∀ k v, .attr k v ∉ xs) →
    (∀ sels, outer = some sels → ∀ s ∈ sels, SelectorFor cls s.flatten) → ∀ y ∈ saidInAll rules outer xs, Fine cls y
  | [], _, _ => by intro _ _ _ _ y hy; cases hy
  | x :: xs, rules, outer => by
    intro h0 h1 h2 h3 y hy
    rw [saidInAll, List.mem_append] at hy
    rw [SelectorsInAll] at h0
    rcases hy with hy | hy
    · exact said_fine cls x _ _ h0.1 h1 (fun h4 h5 k v h6 => h2 h4 h5 k v (by simp [h6])) h3 y hy
    · exact saidAll_fine cls xs _ _ h0.2 h1 (fun h4 h5 k v h6 => h2 h4 h5 k v (by simp [h6])) h3 y hy
end

theorem fine_of {cls : Option Str} {s : Sheet} (h : SelectorsOf (SelectorFor cls) s) : ∀ x ∈ said s, Fine cls x := by
  refine saidAll_fine cls _ [] none h (by simp) ?_ (by simp)
  intro _ _ k v hm
  obtain ⟨x, -, hx⟩ := List.mem_map.1 hm
  cases x <;> cases hx

/-- A printed declaration is as strong as it should be. -/
theorem strength_iff {cls : Option Str} (hcls : ClassFor cls) {x : Said} (hx : Fine cls x) (S : Setting El) (e : El)
    (n : Weight) : S.Strength e (declOf cls x) n ↔ S.Should cls e x n := by
  unfold Setting.Strength Setting.Should
  rcases hx with ⟨r, h1, h2, h3⟩ | ⟨h1, h2, h3⟩
  · constructor
    · rintro ⟨rules, sel, h4, h5, h6, -⟩
      have : r ∈ rules ++ [sel] := by
        rw [← h4, declOf]
        exact List.mem_append_left _ h1
      rcases List.mem_append.1 this with h7 | h7
      · exact absurd h3 (h6 r h7).1
      · have : r = sel := by simpa using h7
        exact absurd (this ▸ h2) h5
    · rintro ⟨h4, -⟩
      exact absurd h3 (h4 r h1).1
  · cases hsel : x.selectors with
    | none =>
      constructor
      · rintro ⟨rules, sel, h4, h5, -⟩
        rw [declOf, hsel] at h4
        simp only [Option.map_none, Option.toList_none, List.append_nil] at h4
        exact absurd (h1 sel (by rw [h4]; simp)) h5
      · rintro ⟨-, sels, h4, -⟩
        cases h4
    | some sels =>
      have hs := h3 sels hsel
      have key := fun m => header_matches hcls hs S.doc S.weight e m
      have hp : (declOf cls x).path = x.rules ++ [header cls sels] := by simp [declOf, hsel]
      constructor
      · rintro ⟨rules, sel, h4, -, h6, h7⟩
        rw [hp] at h4
        obtain ⟨h8, h9⟩ := List.append_inj' h4 rfl
        cases h9
        exact ⟨h8 ▸ h6, sels, rfl, (highest_congr key n).1 h7⟩
      · rintro ⟨h4, sels', h5, h6⟩
        cases h5
        exact ⟨_, _, hp, header_head hs, h4, (highest_congr key n).2 h6⟩

theorem strength_unique (S : Setting El) (e : El) (d : Decl) (m m' : Weight) (h : S.Strength e d m)
    (h' : S.Strength e d m') : m = m' := by
  obtain ⟨rules, sel, h1, -, -, h2⟩ := h
  obtain ⟨rules', sel', h3, -, -, h4⟩ := h'
  rw [h1] at h3
  obtain ⟨-, h5⟩ := List.append_inj' h3 rfl
  cases h5
  exact highest_unique h2 h4

/-- A declaration that applies has a strength. -/
theorem strength_exists (S : Setting El) (e : El) (d : Decl) :
    (∃ n, S.Strength e d n) ↔ S.doc.Applies d e ∧ ∀ r ∈ d.path.dropLast, S.holds r := by
  constructor
  · rintro ⟨n, rules, sel, h1, h2, h3, ⟨s, h4, h5, -⟩, -⟩
    refine ⟨⟨rules, sel, h1, h2, fun r hr => (h3 r hr).1, s, h4, h5⟩, ?_⟩
    rw [h1, List.dropLast_concat]
    exact fun r hr => (h3 r hr).2
  · rintro ⟨⟨rules, sel, h1, h2, h3, s, h4, h5⟩, h6⟩
    rw [h1, List.dropLast_concat] at h6
    obtain ⟨n, hn⟩ := highest_exists (selectorList [] (.out 0) sel)
      (fun s m => S.doc.Matches s e ∧ weightOf S.weight s = some m)
      (fun a m m' ha hb => by rw [ha.2] at hb; exact Option.some.inj hb.2)
      ⟨s, h4, by
        obtain ⟨first, r, h7, -⟩ := id h5
        exact ⟨_, h5, by rw [weightOf, h7]; rfl⟩⟩
    exact ⟨n, rules, sel, h1, h2, fun r hr => ⟨h3 r hr, h6 r hr⟩, hn⟩

end CascadeP
