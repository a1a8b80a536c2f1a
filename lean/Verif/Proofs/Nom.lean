import Verif.Model.Nom

/-! # General facts about the combinators -/

namespace NomP
open Nom

variable {α β γ : Type}

/-- The rest is a suffix of the input. -/
def Suff (p : Parser α) : Prop := ∀ i r a, p i = some (r, a) → r <:+ i

/-- Success consumes at least one character. -/
def Prog (p : Parser α) : Prop := ∀ i r a, p i = some (r, a) → r.length < i.length

theorem Suff.le {p : Parser α} (h : Suff p) {i r : Str} {a : α} (hp : p i = some (r, a)) :
    r.length ≤ i.length := (h i r a hp).length_le

/-! ## Inversion -/

theorem map_some {p : Parser α} {f : α → β} {i r : Str} {b : β} :
    map p f i = some (r, b) ↔ ∃ a, p i = some (r, a) ∧ f a = b := by
  unfold map
  cases p i with
  | none => simp
  | some x =>
    obtain ⟨r', a⟩ := x
    constructor
    · intro h; simp at h; obtain ⟨rfl, rfl⟩ := h; exact ⟨a, rfl, rfl⟩
    · rintro ⟨a', h, rfl⟩; simp at h; obtain ⟨rfl, rfl⟩ := h; rfl

theorem map_none {p : Parser α} {f : α → β} {i : Str} : map p f i = none ↔ p i = none := by
  unfold map
  cases p i with
  | none => simp
  | some x => simp

theorem alt_some {p q : Parser α} {i : Str} {x : Str × α} :
    alt p q i = some x ↔ p i = some x ∨ (p i = none ∧ q i = some x) := by
  unfold alt
  cases p i <;> simp

theorem alt_none {p q : Parser α} {i : Str} : alt p q i = none ↔ p i = none ∧ q i = none := by
  unfold alt
  cases p i <;> simp

theorem pair_some {p : Parser α} {q : Parser β} {i r : Str} {x : α × β} :
    pair p q i = some (r, x) ↔ ∃ r', p i = some (r', x.1) ∧ q r' = some (r, x.2) := by
  unfold pair
  cases hp : p i with
  | none => simp
  | some y =>
    obtain ⟨r', a⟩ := y
    obtain ⟨xa, xb⟩ := x
    constructor
    · intro h
      refine ⟨r', ?_, ?_⟩
      all_goals (revert h; simp only; cases hq : q r' with
        | none => simp
        | some z => obtain ⟨r'', b⟩ := z; simp; try (intros; simp_all))
    · rintro ⟨s, h1, h2⟩
      simp only [Option.some.injEq, Prod.mk.injEq] at h1
      obtain ⟨rfl, rfl⟩ := h1
      simp only [h2]

theorem preceded_some {p : Parser α} {q : Parser β} {i r : Str} {b : β} :
    preceded p q i = some (r, b) ↔ ∃ r' a, p i = some (r', a) ∧ q r' = some (r, b) := by
  unfold preceded
  rw [map_some]
  constructor
  · rintro ⟨⟨a, b'⟩, h, rfl⟩
    obtain ⟨r', h1, h2⟩ := pair_some.1 h
    exact ⟨r', a, h1, h2⟩
  · rintro ⟨r', a, h1, h2⟩
    exact ⟨(a, b), pair_some.2 ⟨r', h1, h2⟩, rfl⟩

theorem terminated_some {p : Parser α} {q : Parser β} {i r : Str} {a : α} :
    terminated p q i = some (r, a) ↔ ∃ r' b, p i = some (r', a) ∧ q r' = some (r, b) := by
  unfold terminated
  rw [map_some]
  constructor
  · rintro ⟨⟨a', b⟩, h, rfl⟩
    obtain ⟨r', h1, h2⟩ := pair_some.1 h
    exact ⟨r', b, h1, h2⟩
  · rintro ⟨r', b, h1, h2⟩
    exact ⟨(a, b), pair_some.2 ⟨r', h1, h2⟩, rfl⟩

theorem delimited_some {p : Parser α} {q : Parser β} {s : Parser γ} {i r : Str} {b : β} :
    delimited p q s i = some (r, b) ↔
      ∃ r1 a r2 c, p i = some (r1, a) ∧ q r1 = some (r2, b) ∧ s r2 = some (r, c) := by
  unfold delimited
  rw [preceded_some]
  constructor
  · rintro ⟨r1, a, h1, h2⟩
    obtain ⟨r2, c, h3, h4⟩ := terminated_some.1 h2
    exact ⟨r1, a, r2, c, h1, h3, h4⟩
  · rintro ⟨r1, a, r2, c, h1, h3, h4⟩
    exact ⟨r1, a, h1, terminated_some.2 ⟨r2, c, h3, h4⟩⟩

theorem separatedPair_some {p : Parser α} {s : Parser β} {q : Parser γ} {i r : Str} {x : α × γ} :
    separatedPair p s q i = some (r, x) ↔
      ∃ r1 r2 b, p i = some (r1, x.1) ∧ s r1 = some (r2, b) ∧ q r2 = some (r, x.2) := by
  unfold separatedPair
  rw [pair_some]
  constructor
  · rintro ⟨r1, h1, h2⟩
    obtain ⟨r2, b, h3, h4⟩ := preceded_some.1 h2
    exact ⟨r1, r2, b, h1, h3, h4⟩
  · rintro ⟨r1, r2, b, h1, h3, h4⟩
    exact ⟨r1, h1, preceded_some.2 ⟨r2, b, h3, h4⟩⟩

theorem recognize_some {p : Parser α} {i r t : Str} :
    recognize p i = some (r, t) ↔ ∃ a, p i = some (r, a) ∧ t = i.take (i.length - r.length) := by
  unfold recognize
  cases p i with
  | none => simp
  | some x =>
    obtain ⟨r', a⟩ := x
    constructor
    · intro h; simp at h; obtain ⟨rfl, rfl⟩ := h; exact ⟨a, rfl, rfl⟩
    · rintro ⟨a', h, rfl⟩; simp at h; obtain ⟨rfl, rfl⟩ := h; rfl

theorem recognize_none {p : Parser α} {i : Str} : recognize p i = none ↔ p i = none := by
  unfold recognize
  cases p i <;> simp

theorem opt_some {p : Parser α} {i r : Str} {o : Option α} :
    opt p i = some (r, o) ↔ (p i = none ∧ r = i ∧ o = none) ∨ ∃ a, p i = some (r, a) ∧ o = some a := by
  unfold opt
  cases p i with
  | none => simp [eq_comm]
  | some x =>
    obtain ⟨r', a⟩ := x
    simp only [reduceCtorEq, false_and, false_or]
    constructor
    · intro h; simp at h; obtain ⟨rfl, rfl⟩ := h; exact ⟨a, rfl, rfl⟩
    · rintro ⟨a', h, rfl⟩; simp at h; obtain ⟨rfl, rfl⟩ := h; rfl

theorem tag_some {t i r a : Str} : tag t i = some (r, a) ↔ i = t ++ r ∧ a = t := by
  unfold tag
  split
  · rename_i h
    obtain ⟨s, rfl⟩ := List.isPrefixOf_iff_prefix.1 h
    simp [eq_comm]
  · rename_i h
    simp only [reduceCtorEq, false_iff]
    rintro ⟨rfl, rfl⟩
    exact h (List.isPrefixOf_iff_prefix.2 (List.prefix_append _ _))

theorem tag_none {t i : Str} : tag t i = none ↔ ¬ t <+: i := by
  unfold tag
  split
  · rename_i h; simp [List.isPrefixOf_iff_prefix.1 h]
  · rename_i h
    simp only [true_iff]
    exact fun hp => h (List.isPrefixOf_iff_prefix.2 hp)

theorem tag_append (t r : Str) : tag t (t ++ r) = some (r, t) := tag_some.2 ⟨rfl, rfl⟩

theorem takeWhile1_some {f : Char → Bool} {i r t : Str} :
    takeWhile1 f i = some (r, t) ↔ t = i.takeWhile f ∧ r = i.dropWhile f ∧ t ≠ [] := by
  unfold takeWhile1
  split
  · rename_i h
    simp only [reduceCtorEq, false_iff]
    rintro ⟨rfl, -, h'⟩
    exact h' h
  · rename_i h
    simp only [Option.some.injEq, Prod.mk.injEq]
    constructor
    · rintro ⟨rfl, rfl⟩; exact ⟨rfl, rfl, h⟩
    · rintro ⟨rfl, rfl, -⟩; exact ⟨rfl, rfl⟩

theorem takeWhile1_none {f : Char → Bool} {i : Str} :
    takeWhile1 f i = none ↔ i.takeWhile f = [] := by
  unfold takeWhile1
  split
  · rename_i h; simp [h]
  · rename_i h; simp only [reduceCtorEq, false_iff]; exact h

theorem noneOf_some {set i r : Str} {c : Char} :
    noneOf set i = some (r, c) ↔ i = c :: r ∧ c ∉ set := by
  cases i with
  | nil => simp [noneOf]
  | cons d i =>
    simp only [noneOf]
    split
    · rename_i h
      simp only [reduceCtorEq, false_iff]
      rintro ⟨h1, h2⟩
      cases h1
      exact h2 (by simpa using h)
    · rename_i h
      simp only [Option.some.injEq, Prod.mk.injEq, List.cons.injEq]
      constructor
      · rintro ⟨rfl, rfl⟩; exact ⟨⟨rfl, rfl⟩, by simpa using h⟩
      · rintro ⟨⟨rfl, rfl⟩, -⟩; exact ⟨rfl, rfl⟩

/-! ## Suffixes and progress -/

theorem suff_map {p : Parser α} {f : α → β} (h : Suff p) : Suff (map p f) := by
  intro i r b hb
  obtain ⟨a, ha, -⟩ := map_some.1 hb
  exact h i r a ha

theorem suff_alt {p q : Parser α} (hp : Suff p) (hq : Suff q) : Suff (alt p q) := by
  intro i r a h
  rcases alt_some.1 h with h | ⟨-, h⟩
  · exact hp i r a h
  · exact hq i r a h

theorem suff_fail : Suff (fail : Parser α) := by intro i r a h; simp [fail] at h

theorem suff_tag (t : Str) : Suff (tag t) := by
  intro i r a h
  obtain ⟨rfl, -⟩ := tag_some.1 h
  exact List.suffix_append _ _

theorem suff_takeWhile1 (f : Char → Bool) : Suff (takeWhile1 f) := by
  intro i r a h
  obtain ⟨-, rfl, -⟩ := takeWhile1_some.1 h
  exact List.dropWhile_suffix _

theorem suff_isNot (set : Str) : Suff (isNot set) := suff_takeWhile1 _

theorem suff_noneOf (set : Str) : Suff (noneOf set) := by
  intro i r a h
  obtain ⟨rfl, -⟩ := noneOf_some.1 h
  exact List.suffix_cons _ _

theorem suff_anychar : Suff anychar := by
  intro i r a h
  cases i with
  | nil => simp [anychar] at h
  | cons c i =>
    simp [anychar] at h
    rw [← h.1]
    exact List.suffix_cons _ _

theorem suff_not {p : Parser α} : Suff (Nom.not p) := by
  intro i r a h
  unfold Nom.not at h
  split at h
  · simp at h; rw [h]; exact List.suffix_refl _
  · simp at h

theorem suff_opt {p : Parser α} (hp : Suff p) : Suff (opt p) := by
  intro i r a h
  rcases opt_some.1 h with ⟨-, rfl, -⟩ | ⟨a, h, -⟩
  · exact List.suffix_refl _
  · exact hp i r a h

theorem suff_recognize {p : Parser α} (hp : Suff p) : Suff (recognize p) := by
  intro i r a h
  obtain ⟨b, h, -⟩ := recognize_some.1 h
  exact hp i r b h

theorem suff_pair {p : Parser α} {q : Parser β} (hp : Suff p) (hq : Suff q) : Suff (pair p q) := by
  intro i r a h
  obtain ⟨r', h1, h2⟩ := pair_some.1 h
  exact (hq _ _ _ h2).trans (hp _ _ _ h1)

theorem suff_preceded {p : Parser α} {q : Parser β} (hp : Suff p) (hq : Suff q) :
    Suff (preceded p q) := suff_map (suff_pair hp hq)
theorem suff_terminated {p : Parser α} {q : Parser β} (hp : Suff p) (hq : Suff q) :
    Suff (terminated p q) := suff_map (suff_pair hp hq)
theorem suff_delimited {p : Parser α} {q : Parser β} {s : Parser γ} (hp : Suff p) (hq : Suff q)
    (hs : Suff s) : Suff (delimited p q s) := suff_preceded hp (suff_terminated hq hs)
theorem suff_separatedPair {p : Parser α} {s : Parser β} {q : Parser γ} (hp : Suff p) (hs : Suff s)
    (hq : Suff q) : Suff (separatedPair p s q) := suff_pair hp (suff_preceded hs hq)

theorem suff_many0Loop {p : Parser α} (hp : Suff p) : ∀ n, Suff (many0Loop p n)
  | 0 => by intro i r a h; simp [many0Loop] at h
  | n + 1 => by
    intro i r a h
    simp only [many0Loop] at h
    split at h
    · simp at h; rw [h.1]; exact List.suffix_refl _
    · rename_i r1 a1 h1
      split at h
      · simp at h
      · split at h
        · simp at h
        · rename_i r2 as h2
          simp at h
          rw [← h.1]
          exact (suff_many0Loop hp n _ _ _ h2).trans (hp _ _ _ h1)

theorem suff_many0 {p : Parser α} (hp : Suff p) : Suff (many0 p) := by
  intro i r a h
  exact suff_many0Loop hp _ i r a h

theorem suff_many1 {p : Parser α} (hp : Suff p) : Suff (many1 p) := by
  intro i r a h
  simp only [many1] at h
  split at h
  · simp at h
  · rename_i r1 a1 h1
    split at h
    · simp at h
    · rename_i r2 as h2
      simp at h
      rw [← h.1]
      exact (suff_many0 hp _ _ _ h2).trans (hp _ _ _ h1)

theorem suff_sepLoop {s : Parser α} {p : Parser β} (hs : Suff s) (hp : Suff p) :
    ∀ n, Suff (sepLoop s p n)
  | 0 => by intro i r a h; simp [sepLoop] at h
  | n + 1 => by
    intro i r a h
    simp only [sepLoop] at h
    split at h
    · simp at h; rw [h.1]; exact List.suffix_refl _
    · rename_i r1 a1 h1
      split at h
      · simp at h
      · split at h
        · simp at h; rw [h.1]; exact List.suffix_refl _
        · rename_i r2 b h2
          split at h
          · simp at h
          · rename_i r3 bs h3
            simp at h
            rw [← h.1]
            exact ((suff_sepLoop hs hp n _ _ _ h3).trans (hp _ _ _ h2)).trans (hs _ _ _ h1)

theorem suff_separatedList1 {s : Parser α} {p : Parser β} (hs : Suff s) (hp : Suff p) :
    Suff (separatedList1 s p) := by
  intro i r a h
  simp only [separatedList1] at h
  split at h
  · simp at h
  · rename_i r1 a1 h1
    split at h
    · simp at h
    · rename_i r2 as h2
      simp at h
      rw [← h.1]
      exact (suff_sepLoop hs hp _ _ _ _ h2).trans (hp _ _ _ h1)

theorem prog_map {p : Parser α} {f : α → β} (h : Prog p) : Prog (map p f) := by
  intro i r b hb
  obtain ⟨a, ha, -⟩ := map_some.1 hb
  exact h i r a ha

theorem prog_alt {p q : Parser α} (hp : Prog p) (hq : Prog q) : Prog (alt p q) := by
  intro i r a h
  rcases alt_some.1 h with h | ⟨-, h⟩
  · exact hp i r a h
  · exact hq i r a h

theorem prog_fail : Prog (fail : Parser α) := by intro i r a h; simp [fail] at h

theorem prog_tag {t : Str} (ht : t ≠ []) : Prog (tag t) := by
  intro i r a h
  obtain ⟨rfl, -⟩ := tag_some.1 h
  have := List.length_pos_iff.2 ht
  simp; omega

theorem prog_takeWhile1 (f : Char → Bool) : Prog (takeWhile1 f) := by
  intro i r a h
  obtain ⟨rfl, rfl, hne⟩ := takeWhile1_some.1 h
  have := List.length_pos_iff.2 hne
  have h2 : (i.takeWhile f ++ i.dropWhile f).length = i.length := by
    rw [List.takeWhile_append_dropWhile]
  rw [List.length_append] at h2
  omega

theorem prog_isNot (set : Str) : Prog (isNot set) := prog_takeWhile1 _

theorem prog_noneOf (set : Str) : Prog (noneOf set) := by
  intro i r a h
  obtain ⟨rfl, -⟩ := noneOf_some.1 h
  simp

theorem prog_recognize {p : Parser α} (hp : Prog p) : Prog (recognize p) := by
  intro i r a h
  obtain ⟨b, h, -⟩ := recognize_some.1 h
  exact hp i r b h

theorem prog_pair_left {p : Parser α} {q : Parser β} (hp : Prog p) (hq : Suff q) : Prog (pair p q) := by
  intro i r a h
  obtain ⟨r', h1, h2⟩ := pair_some.1 h
  have := hp _ _ _ h1
  have := hq.le h2
  omega

theorem prog_pair_right {p : Parser α} {q : Parser β} (hp : Suff p) (hq : Prog q) : Prog (pair p q) := by
  intro i r a h
  obtain ⟨r', h1, h2⟩ := pair_some.1 h
  have := hq _ _ _ h2
  have := hp.le h1
  omega

theorem prog_preceded_left {p : Parser α} {q : Parser β} (hp : Prog p) (hq : Suff q) :
    Prog (preceded p q) := prog_map (prog_pair_left hp hq)
theorem prog_preceded_right {p : Parser α} {q : Parser β} (hp : Suff p) (hq : Prog q) :
    Prog (preceded p q) := prog_map (prog_pair_right hp hq)
theorem prog_terminated_left {p : Parser α} {q : Parser β} (hp : Prog p) (hq : Suff q) :
    Prog (terminated p q) := prog_map (prog_pair_left hp hq)
theorem prog_terminated_right {p : Parser α} {q : Parser β} (hp : Suff p) (hq : Prog q) :
    Prog (terminated p q) := prog_map (prog_pair_right hp hq)

theorem prog_many1 {p : Parser α} (hp : Suff p) (hpp : Prog p) : Prog (many1 p) := by
  intro i r a h
  simp only [many1] at h
  split at h
  · simp at h
  · rename_i r1 a1 h1
    split at h
    · simp at h
    · rename_i r2 as h2
      simp at h
      rw [← h.1]
      have := (suff_many0 hp).le h2
      have := hpp _ _ _ h1
      omega

theorem prog_separatedList1 {s : Parser α} {p : Parser β} (hs : Suff s) (hp : Suff p) (hpp : Prog p) :
    Prog (separatedList1 s p) := by
  intro i r a h
  simp only [separatedList1] at h
  split at h
  · simp at h
  · rename_i r1 a1 h1
    split at h
    · simp at h
    · rename_i r2 as h2
      simp at h
      rw [← h.1]
      have := (suff_sepLoop hs hp _).le h2
      have := hpp _ _ _ h1
      omega

/-! ## The loops -/

/-- The budget does not matter as long as it exceeds the input length. -/
theorem many0Loop_budget {p : Parser α} (hp : Suff p) : ∀ (n m : Nat) (i : Str),
    i.length < n → i.length < m → many0Loop p n i = many0Loop p m i
  | 0, _, _, h, _ => absurd h (Nat.not_lt_zero _)
  | _ + 1, 0, _, _, h => absurd h (Nat.not_lt_zero _)
  | n + 1, m + 1, i, hn, hm => by
    simp only [many0Loop]
    split
    · rfl
    · rename_i r a h1
      have := hp.le h1
      split
      · rfl
      · rename_i hne
        rw [many0Loop_budget hp n m r (by omega) (by omega)]

/-- One round of `many0`. -/
theorem many0_unfold {p : Parser α} (hp : Suff p) (i : Str) :
    many0 p i = match p i with
      | none => some (i, [])
      | some (r, a) =>
        if r.length = i.length then none
        else match many0 p r with
          | none => none
          | some (r', as) => some (r', a :: as) := by
  rw [many0, many0Loop]
  cases h1 : p i with
  | none => rfl
  | some x =>
    obtain ⟨r, a⟩ := x
    have := hp.le h1
    simp only
    split
    · rfl
    · rename_i hne
      have e : many0 p r = many0Loop p i.length r :=
        many0Loop_budget hp _ _ r (by omega) (by omega)
      rw [e]
      cases many0Loop p i.length r <;> rfl

theorem many0_stop {p : Parser α} (hp : Suff p) {i : Str} (h : p i = none) : many0 p i = some (i, []) := by
  rw [many0_unfold hp, h]

theorem many0_step {p : Parser α} (hp : Suff p) (hpp : Prog p) {i r : Str} {a : α}
    (h : p i = some (r, a)) :
    many0 p i = match many0 p r with
      | none => none
      | some (r', as) => some (r', a :: as) := by
  rw [many0_unfold hp, h]
  have := hpp _ _ _ h
  simp only
  rw [if_neg (by omega)]

/-- `many0` of a consuming parser always succeeds, and stops where the parser fails. -/
theorem many0_total {p : Parser α} (hp : Suff p) (hpp : Prog p) (i : Str) :
    ∃ r as, many0 p i = some (r, as) ∧ p r = none := by
  generalize hn : i.length = n
  induction n using Nat.strongRecOn generalizing i with
  | ind n ih =>
    cases h : p i with
    | none => exact ⟨i, [], many0_stop hp h, h⟩
    | some x =>
      obtain ⟨r, a⟩ := x
      have hlt := hpp _ _ _ h
      obtain ⟨r', as, h1, h2⟩ := ih r.length (by omega) r rfl
      exact ⟨r', a :: as, by rw [many0_step hp hpp h, h1], h2⟩

/-- Where `many0` stops, the parser fails. -/
theorem many0_stops {p : Parser α} (hp : Suff p) {i r : Str} {as : List α}
    (h : many0 p i = some (r, as)) : p r = none := by
  generalize hn : i.length = n
  induction n using Nat.strongRecOn generalizing i r as with
  | ind n ih =>
    rw [many0_unfold hp] at h
    split at h
    · rename_i h1
      simp at h
      rw [← h.1]; exact h1
    · rename_i r1 a h1
      split at h
      · simp at h
      · rename_i hne
        split at h
        · simp at h
        · rename_i r2 as' h2
          simp at h
          have := hp.le h1
          have := ih r1.length (by omega) h2 rfl
          rw [← h.1]; exact this

theorem sepLoop_budget {s : Parser α} {p : Parser β} (hs : Suff s) (hp : Suff p) :
    ∀ (n m : Nat) (i : Str), i.length < n → i.length < m → sepLoop s p n i = sepLoop s p m i
  | 0, _, _, h, _ => absurd h (Nat.not_lt_zero _)
  | _ + 1, 0, _, _, h => absurd h (Nat.not_lt_zero _)
  | n + 1, m + 1, i, hn, hm => by
    simp only [sepLoop]
    split
    · rfl
    · rename_i r a h1
      have := hs.le h1
      split
      · rfl
      · rename_i hne
        split
        · rfl
        · rename_i r' b h2
          have := hp.le h2
          rw [sepLoop_budget hs hp n m r' (by omega) (by omega)]

theorem sepLoop_end {s : Parser α} {p : Parser β} {n : Nat} {i r : Str} {a : α}
    (h1 : s i = some (r, a)) (h2 : r.length ≠ i.length) (h3 : p r = none) :
    sepLoop s p (n + 1) i = some (i, []) := by
  simp only [sepLoop, h1, h3]
  rw [if_neg h2]

theorem sepLoop_step {s : Parser α} {p : Parser β} {n : Nat} {i r r' r'' : Str} {a : α} {b : β}
    {bs : List β} (h1 : s i = some (r, a)) (h2 : r.length ≠ i.length) (h3 : p r = some (r', b))
    (h4 : sepLoop s p n r' = some (r'', bs)) : sepLoop s p (n + 1) i = some (r'', b :: bs) := by
  simp only [sepLoop, h1, h3, h4]
  rw [if_neg h2]

/-! ## Every list of parsed values is a sequence of parses -/

/-- The values of `many0` satisfy what the parser guarantees. -/
theorem many0_forall {p : Parser α} (hp : Suff p) {P : α → Prop}
    (hP : ∀ i r a, p i = some (r, a) → P a) {i r : Str} {as : List α}
    (h : many0 p i = some (r, as)) : ∀ a ∈ as, P a := by
  generalize hn : i.length = n
  induction n using Nat.strongRecOn generalizing i r as with
  | ind n ih =>
    rw [many0_unfold hp] at h
    split at h
    · simp at h
      rw [h.2]; simp
    · rename_i r1 a h1
      split at h
      · simp at h
      · split at h
        · simp at h
        · rename_i hne _ r2 as' h2
          simp at h
          have := hp.le h1
          have := ih r1.length (by omega) h2 rfl
          rw [← h.2]
          intro b hb
          rcases List.mem_cons.1 hb with rfl | hb
          · exact hP _ _ _ h1
          · exact this b hb

theorem many1_some {p : Parser α} {i r : Str} {as : List α} :
    many1 p i = some (r, as) ↔
      ∃ r1 a as', p i = some (r1, a) ∧ many0 p r1 = some (r, as') ∧ as = a :: as' := by
  unfold many1
  cases h1 : p i with
  | none => simp
  | some x =>
    obtain ⟨r1, a⟩ := x
    simp only [Option.some.injEq, Prod.mk.injEq]
    cases h2 : many0 p r1 with
    | none =>
      simp only [reduceCtorEq, false_iff]
      rintro ⟨r1', a', as', ⟨rfl, rfl⟩, h3, -⟩
      rw [h2] at h3; cases h3
    | some y =>
      obtain ⟨r2, as2⟩ := y
      simp only [Option.some.injEq, Prod.mk.injEq]
      constructor
      · rintro ⟨rfl, rfl⟩; exact ⟨r1, a, as2, ⟨rfl, rfl⟩, h2, rfl⟩
      · rintro ⟨r1', a', as', ⟨rfl, rfl⟩, h3, rfl⟩
        rw [h2] at h3
        simp only [Option.some.injEq, Prod.mk.injEq] at h3
        exact ⟨h3.1, by rw [h3.2]⟩

theorem many1_none {p : Parser α} (hp : Suff p) (hpp : Prog p) {i : Str} :
    many1 p i = none ↔ p i = none := by
  unfold many1
  cases h1 : p i with
  | none => simp
  | some x =>
    obtain ⟨r1, a⟩ := x
    obtain ⟨r, as, h, -⟩ := many0_total hp hpp r1
    simp [h]

theorem sepLoop_forall {s : Parser α} {p : Parser β} {P : β → Prop}
    (hP : ∀ i r a, p i = some (r, a) → P a) : ∀ (n : Nat) {i r : Str} {as : List β},
    sepLoop s p n i = some (r, as) → ∀ a ∈ as, P a
  | 0, i, r, as, h => by simp [sepLoop] at h
  | n + 1, i, r, as, h => by
    simp only [sepLoop] at h
    split at h
    · simp at h; rw [h.2]; simp
    · split at h
      · simp at h
      · split at h
        · simp at h; rw [h.2]; simp
        · rename_i r' b h2
          split at h
          · simp at h
          · rename_i r'' bs h3
            simp at h
            have := sepLoop_forall hP n h3
            rw [← h.2]
            intro c hc
            rcases List.mem_cons.1 hc with rfl | hc
            · exact hP _ _ _ h2
            · exact this c hc

theorem separatedList1_forall {s : Parser α} {p : Parser β} {P : β → Prop}
    (hP : ∀ i r a, p i = some (r, a) → P a) {i r : Str} {as : List β}
    (h : separatedList1 s p i = some (r, as)) : as ≠ [] ∧ ∀ a ∈ as, P a := by
  simp only [separatedList1] at h
  split at h
  · simp at h
  · rename_i r1 b h1
    split at h
    · simp at h
    · rename_i r2 bs h2
      simp at h
      have := sepLoop_forall hP _ h2
      rw [← h.2]
      refine ⟨by simp, ?_⟩
      intro c hc
      rcases List.mem_cons.1 hc with rfl | hc
      · exact hP _ _ _ h1
      · exact this c hc

/-! ## Congruence on shorter inputs -/

theorem many0_congr {p q : Parser α} (hp : Suff p) (hq : Suff q) (i : Str)
    (h : ∀ j : Str, j.length ≤ i.length → p j = q j) : many0 p i = many0 q i := by
  generalize hn : i.length = n
  induction n using Nat.strongRecOn generalizing i with
  | ind n ih =>
    rw [many0_unfold hp, many0_unfold hq, ← h i (Nat.le_refl _)]
    cases h1 : p i with
    | none => rfl
    | some x =>
      obtain ⟨r, a⟩ := x
      have := hp.le h1
      simp only
      split
      · rfl
      · rename_i hne
        rw [ih r.length (by omega) r (fun j hj => h j (by omega)) rfl]

theorem pair_congr {p : Parser α} {q q' : Parser β} (i : Str)
    (h : ∀ r a, p i = some (r, a) → q r = q' r) : pair p q i = pair p q' i := by
  unfold pair
  cases h1 : p i with
  | none => rfl
  | some x => obtain ⟨r, a⟩ := x; simp only; rw [h r a h1]

theorem map_congr {p q : Parser α} {f : α → β} {i : Str} (h : p i = q i) : map p f i = map q f i := by
  unfold map; rw [h]

theorem alt_congr {p p' q q' : Parser α} {i : Str} (h : p i = p' i) (h' : q i = q' i) :
    alt p q i = alt p' q' i := by
  unfold alt; rw [h, h']

theorem preceded_congr {p : Parser α} {q q' : Parser β} (i : Str)
    (h : ∀ r a, p i = some (r, a) → q r = q' r) : preceded p q i = preceded p q' i :=
  map_congr (pair_congr i h)

theorem terminated_congr {p p' : Parser α} {q : Parser β} {i : Str} (h : p i = p' i) :
    terminated p q i = terminated p' q i := by
  unfold terminated map pair
  rw [h]

theorem delimited_congr {p : Parser α} {q q' : Parser β} {s : Parser γ} (i : Str)
    (h : ∀ r a, p i = some (r, a) → q r = q' r) : delimited p q s i = delimited p q' s i :=
  preceded_congr i (fun r a hr => terminated_congr (h r a hr))

theorem separatedPair_congr {p : Parser α} {s : Parser β} {q q' : Parser γ} (i : Str)
    (h : ∀ r1 a r2 b, p i = some (r1, a) → s r1 = some (r2, b) → q r2 = q' r2) :
    separatedPair p s q i = separatedPair p s q' i :=
  pair_congr i (fun r1 a h1 => preceded_congr r1 (fun r2 b h2 => h r1 a r2 b h1 h2))

end NomP
