import Verif.Spec.Random

/-! # Random ids: lemmas -/

namespace Manager

theorem alphanumeric_inj {a b : Fin 62} (h : alphanumeric a = alphanumeric b) : a = b := by
  have : ∀ a b : Fin 62, alphanumeric a = alphanumeric b → a = b := by decide +kernel
  exact this a b h

theorem alphanumeric_isAlphanum (a : Fin 62) : (alphanumeric a).isAlphanum = true := by
  have : ∀ a : Fin 62, (alphanumeric a).isAlphanum = true := by decide +kernel
  exact this a

theorem takeAlphanumeric_eq : ∀ (n : Nat) (rng : List (Fin 62)),
    takeAlphanumeric n rng = ((rng.take n).map alphanumeric, rng.drop n)
  | 0, rng => by simp [takeAlphanumeric]
  | n + 1, [] => by simp [takeAlphanumeric]
  | n + 1, r :: rng => by simp [takeAlphanumeric, takeAlphanumeric_eq n rng]

theorem getRandStr_eq (rng : List (Fin 62)) : getRandStr rng = ((rng.take 8).map alphanumeric, rng.drop 8) :=
  takeAlphanumeric_eq 8 rng

theorem randomEntropy_eq : ∀ (k : Nat) (rng : List (Fin 62)),
    randomEntropy rng k = ((rng.drop (8 * k)).take 8).map alphanumeric
  | 0, rng => by simp [randomEntropy, getRandStr_eq]
  | k + 1, rng => by
    rw [randomEntropy, randomEntropy_eq k, getRandStr_eq, List.drop_drop]
    congr 3
    omega

theorem map_alphanumeric_inj {a b : List (Fin 62)} (h : a.map alphanumeric = b.map alphanumeric) : a = b :=
  List.map_inj_right (fun _ _ => alphanumeric_inj) |>.1 h

/-! ## Sequences -/

theorem mem_sequences : ∀ (n : Nat) (l : List (Fin 62)), l ∈ sequences n ↔ l.length = n
  | 0, l => by simp [sequences]
  | n + 1, l => by
    simp only [sequences, List.mem_flatMap, List.mem_map, List.mem_finRange, true_and]
    constructor
    · rintro ⟨r, l', h, rfl⟩
      simp [(mem_sequences n l').1 h]
    · intro h
      cases l with
      | nil => simp at h
      | cons r l' => exact ⟨r, l', (mem_sequences n l').2 (by simpa using h), rfl⟩

theorem nodup_flatMap_cons {α : Type} (L : List (List α)) (hL : L.Nodup) : ∀ xs : List α, xs.Nodup →
    (xs.flatMap (fun r => L.map (r :: ·))).Nodup
  | [], _ => by simp
  | x :: xs, h => by
    rw [List.nodup_cons] at h
    rw [List.flatMap_cons, List.nodup_append]
    refine ⟨?_, nodup_flatMap_cons L hL xs h.2, ?_⟩
    · rw [List.Nodup, List.pairwise_map]
      exact hL.imp (fun hne h => hne (by simpa using h))
    · intro a ha b hb hab
      subst hab
      obtain ⟨l, -, rfl⟩ := List.mem_map.1 ha
      obtain ⟨r, hr, h2⟩ := List.mem_flatMap.1 hb
      obtain ⟨l', -, h3⟩ := List.mem_map.1 h2
      cases h3
      exact h.1 hr

theorem nodup_sequences : ∀ n : Nat, (sequences n).Nodup
  | 0 => by simp [sequences]
  | n + 1 => nodup_flatMap_cons _ (nodup_sequences n) _ (List.nodup_finRange 62)

theorem length_flatMap_cons {α : Type} (L : List (List α)) : ∀ xs : List α,
    (xs.flatMap (fun r => L.map (r :: ·))).length = xs.length * L.length
  | [] => by simp
  | x :: xs => by
    rw [List.flatMap_cons, List.length_append, length_flatMap_cons L xs, List.length_map, List.length_cons, Nat.add_mul]
    omega

theorem length_sequences : ∀ n : Nat, (sequences n).length = 62 ^ n
  | 0 => by simp [sequences]
  | n + 1 => by
    rw [sequences, length_flatMap_cons, length_sequences n, List.length_finRange, Nat.pow_succ, Nat.mul_comm]

theorem sequences_add (b : Nat) : ∀ a : Nat,
    sequences (a + b) = (sequences a).flatMap (fun u => (sequences b).map (u ++ ·))
  | 0 => by simp [sequences]
  | a + 1 => by
    rw [Nat.succ_add, sequences, sequences_add b a, sequences, List.flatMap_assoc]
    congr 1
    funext r
    rw [List.map_flatMap, List.flatMap_map]
    congr 1
    funext u
    simp [List.map_map, Function.comp_def]

/-! ## Counting -/

/-- Those of the sequence that are not among `n` different ones. -/
theorem countP_notMem (W : List (List (Fin 62))) (hW : W.Nodup) : ∀ B : List (List (Fin 62)), B.Nodup → (∀ b ∈ B, b ∈ W) →
    W.countP (fun w => decide (w ∉ B)) + B.length = W.length := by
  intro B hB hsub
  have h1 : W.countP (fun w => decide (w ∈ B)) = B.length := by
    rw [List.countP_eq_length_filter]
    apply List.Perm.length_eq
    refine (List.perm_ext_iff_of_nodup (hW.sublist List.filter_sublist) hB).2 ?_
    intro a
    simp only [List.mem_filter, decide_eq_true_eq]
    exact ⟨fun h => h.2, fun h => ⟨hsub a h, h⟩⟩
  have h2 := List.length_eq_countP_add_countP (fun w => decide (w ∈ B)) (l := W)
  have h3 : W.countP (fun w => decide (w ∉ B)) = W.countP (fun a => decide ¬ (decide (a ∈ B) = true)) := by
    apply List.countP_congr
    intro x _
    simp
  omega

/-- The blocks of eight. -/
def blocks (l : List (Fin 62)) (n : Nat) : List (List (Fin 62)) := (List.range n).map (fun k => (l.drop (8 * k)).take 8)

theorem names_eq (l : List (Fin 62)) (n : Nat) : names l n = (blocks l n).map (List.map alphanumeric) := by
  simp [names, blocks, randomEntropy_eq]

theorem nodup_map_iff {α β : Type} {f : α → β} (hf : ∀ a b, f a = f b → a = b) (l : List α) : (l.map f).Nodup ↔ l.Nodup := by
  rw [List.Nodup, List.pairwise_map]
  exact ⟨fun h => h.imp (fun hne he => hne (by rw [he])), fun h => h.imp (fun hne he => hne (hf _ _ he))⟩

theorem nodup_names (l : List (Fin 62)) (n : Nat) : (names l n).Nodup ↔ (blocks l n).Nodup := by
  rw [names_eq]
  exact nodup_map_iff (fun _ _ => map_alphanumeric_inj) _

theorem blocks_append {l : List (Fin 62)} {n : Nat} (hl : l.length = 8 * n) {w : List (Fin 62)} (hw : w.length = 8) :
    blocks (l ++ w) (n + 1) = blocks l n ++ [w] := by
  rw [blocks, List.range_succ, List.map_append]
  congr 1
  · apply List.map_congr_left
    intro k hk
    have hk := List.mem_range.1 hk
    rw [List.drop_append_of_le_length (by omega), List.take_append_of_le_length (by rw [List.length_drop]; omega)]
  · simp only [List.map_cons, List.map_nil]
    rw [← hl, List.drop_left, List.take_of_length_le (by omega)]

theorem mem_blocks {l : List (Fin 62)} {n : Nat} (hl : l.length = 8 * n) {b : List (Fin 62)} (hb : b ∈ blocks l n) :
    b ∈ sequences 8 := by
  obtain ⟨k, hk, rfl⟩ := List.mem_map.1 hb
  have hk := List.mem_range.1 hk
  rw [mem_sequences, List.length_take, List.length_drop]
  omega

theorem sum_map_ite {α : Type} (p : α → Bool) (c : Nat) : ∀ l : List α,
    (l.map (fun a => if p a then c else 0)).sum = l.countP p * c
  | [] => by simp
  | a :: l => by
    rw [List.map_cons, List.sum_cons, sum_map_ite p c l, List.countP_cons]
    split <;> simp [Nat.add_mul, Nat.add_comm]

theorem count_distinct : ∀ n : Nat,
    (sequences (8 * n)).countP (fun l => decide (blocks l n).Nodup) = falling (62 ^ 8) n
  | 0 => by decide
  | n + 1 => by
    have h8 : 8 * (n + 1) = 8 * n + 8 := by omega
    rw [h8, sequences_add, List.countP_flatMap]
    have hmap : (sequences (8 * n)).map (List.countP (fun l => decide (blocks l (n + 1)).Nodup) ∘
        fun u => (sequences 8).map (u ++ ·)) =
        (sequences (8 * n)).map (fun u => if decide (blocks u n).Nodup then 62 ^ 8 - n else 0) := by
      apply List.map_congr_left
      intro u hu
      have hu := (mem_sequences _ u).1 hu
      simp only [Function.comp_apply]
      rw [List.countP_map]
      have hcongr : (sequences 8).countP ((fun l => decide (blocks l (n + 1)).Nodup) ∘ fun x => u ++ x) =
          (sequences 8).countP (fun w => decide ((blocks u n).Nodup ∧ w ∉ blocks u n)) := by
        apply List.countP_congr
        intro w hw
        have hw := (mem_sequences _ w).1 hw
        simp only [Function.comp_apply, decide_eq_true_eq]
        rw [blocks_append hu hw, List.nodup_append]
        constructor
        · rintro ⟨h1, -, h3⟩
          exact ⟨h1, fun h => h3 w h w (by simp) rfl⟩
        · rintro ⟨h1, h2⟩
          refine ⟨h1, by simp, ?_⟩
          intro a ha b hb hab
          rw [List.mem_singleton] at hb
          subst hb; subst hab
          exact h2 ha
      rw [hcongr]
      by_cases hn : (blocks u n).Nodup
      · have hc : (sequences 8).countP (fun w => decide ((blocks u n).Nodup ∧ w ∉ blocks u n)) =
            (sequences 8).countP (fun w => decide (w ∉ blocks u n)) :=
          List.countP_congr (fun w _ => by simp [hn])
        rw [hc, if_pos (by simpa using hn)]
        have := countP_notMem (sequences 8) (nodup_sequences 8) (blocks u n) hn (fun b hb => mem_blocks hu hb)
        have hl : (blocks u n).length = n := by simp [blocks]
        rw [length_sequences, hl] at this
        exact Nat.eq_sub_of_add_eq this
      · simp [hn]
    rw [hmap, sum_map_ite, count_distinct n, falling]

theorem falling_le (m : Nat) : ∀ n, falling m n ≤ m ^ n
  | 0 => by simp [falling]
  | n + 1 => by
    rw [falling, Nat.pow_succ]
    exact Nat.mul_le_mul (falling_le m n) (Nat.sub_le _ _)

/-- The bound on the birthday problem. -/
theorem falling_bound (m : Nat) : ∀ n, 2 * m * m ^ n ≤ 2 * m * falling m n + n * (n - 1) * m ^ n
  | 0 => by simp [falling]
  | n + 1 => by
    have ih := falling_bound m n
    have hle := falling_le m n
    have h1 : m * falling m n ≤ falling m (n + 1) + n * falling m n := by
      rw [falling, Nat.mul_comm n, ← Nat.mul_add, Nat.mul_comm]
      exact Nat.mul_le_mul_left _ (by omega)
    generalize hF : falling m (n + 1) = F' at h1 ⊢
    generalize falling m n = F at *
    rw [Nat.pow_succ]
    generalize m ^ n = P at *
    have h2 : 2 * m * (m * F) ≤ 2 * m * (F' + n * F) := Nat.mul_le_mul_left _ h1
    have h3 := Nat.mul_le_mul_right m ih
    have h4 : 2 * m * n * F ≤ 2 * m * n * P := Nat.mul_le_mul_left _ hle
    have h5 : (n + 1) * (n + 1 - 1) = n * (n - 1) + 2 * n := by
      cases n with
      | zero => rfl
      | succ k => simp only [Nat.add_sub_cancel]; grind
    rw [h5]
    grind

end Manager
