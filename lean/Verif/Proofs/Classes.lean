import Verif.Model.Classes
import Verif.Spec.Classes
import Verif.Proofs.Contents
import Verif.Props.Hydration

/-! # Lemmas on class attributes -/

namespace ClassesP

open Spec Classes Manager

/-- A text without separators is its only word. -/
theorem wordOf_single {space : Char → Bool} {w : Str} (hw : w ≠ []) (hs : ∀ c ∈ w, space c = false) {x : Str} :
    WordOf space w x ↔ x = w := by
  constructor
  · rintro ⟨-, -, l, r, h, hl, hr⟩
    have h1 : l = [] := by
      cases e : l.getLast? with
      | none => simpa using e
      | some c =>
        have := hl c e
        rw [hs c (by rw [h]; simp [List.mem_of_getLast? e])] at this
        cases this
    have h2 : r = [] := by
      cases r with
      | nil => rfl
      | cons c r =>
        have := hr c rfl
        rw [hs c (by rw [h]; simp)] at this
        cases this
    subst h1; subst h2; simpa using h.symm
  · rintro rfl
    exact ⟨hw, hs, [], [], by simp, by simp, by simp⟩

theorem wordOf_nil {space : Char → Bool} {x : Str} : ¬ WordOf space [] x := by
  rintro ⟨h, -, l, r, h1, -, -⟩
  simp at h1
  exact h h1.2.1

/-- The words of a text that is divided at a separator. -/
theorem wordOf_cut {space : Char → Bool} {a b : Str} {c : Char} (hc : space c = true) {x : Str} :
    WordOf space (a ++ c :: b) x ↔ WordOf space a x ∨ WordOf space b x := by
  constructor
  · rintro ⟨h0, hs, l, r, h, hl, hr⟩
    rw [List.append_assoc, List.append_eq_append_iff] at h
    rcases h with ⟨u, h1, h2⟩ | ⟨u, h1, h2⟩
    · -- `l = a ++ u`, `c :: b = u ++ (x ++ r)`
      cases u with
      | nil =>
        cases x with
        | nil => exact absurd rfl h0
        | cons y x =>
          simp only [List.nil_append, List.cons_append, List.cons.injEq] at h2
          have := hs y (by simp)
          rw [← h2.1, hc] at this; cases this
      | cons y u =>
        simp only [List.cons_append, List.cons.injEq] at h2
        refine Or.inr ⟨h0, hs, u, r, by rw [List.append_assoc]; exact h2.2, ?_, hr⟩
        intro d hd
        refine hl d ?_
        rw [h1, List.getLast?_append, List.getLast?_cons, hd]; simp
    · -- `a = l ++ u`, `x ++ r = u ++ c :: b`
      rw [List.append_eq_append_iff] at h2
      rcases h2 with ⟨v, h3, h4⟩ | ⟨v, h3, h4⟩
      · refine Or.inl ⟨h0, hs, l, v, by rw [h1, h3, List.append_assoc], hl, ?_⟩
        intro d hd
        cases v with
        | nil => cases hd
        | cons y v => simp at hd; subst hd; exact hr y (by rw [h4]; rfl)
      · cases v with
        | nil =>
          refine Or.inl ⟨h0, hs, l, [], by rw [h1, h3]; simp, hl, by simp⟩
        | cons y v =>
          simp only [List.cons_append, List.cons.injEq] at h4
          have := hs y (by rw [h3]; simp)
          rw [← h4.1, hc] at this; cases this
  · rintro (⟨h0, hs, l, r, h, hl, hr⟩ | ⟨h0, hs, l, r, h, hl, hr⟩)
    · refine ⟨h0, hs, l, r ++ c :: b, by rw [h]; simp, hl, ?_⟩
      intro d hd
      cases r with
      | nil => simp at hd; exact hd ▸ hc
      | cons y r => exact hr d hd
    · refine ⟨h0, hs, a ++ c :: l, r, by rw [h]; simp, ?_, hr⟩
      intro d hd
      rw [List.getLast?_append, List.getLast?_cons] at hd
      cases e : l.getLast? with
      | none => rw [e] at hd; simp at hd; exact hd ▸ hc
      | some y => rw [e] at hd; simp at hd; exact hl d (by rw [e, hd])

/-- `split_whitespace` gives the words. -/
theorem mem_wordsFrom {x : Str} : ∀ (s acc : Str), (∀ c ∈ acc, Str.isWhitespace c = false) →
    (x ∈ wordsFrom acc s ↔ WordOf Str.isWhitespace (acc ++ s) x)
  | [], acc, ha => by
    unfold wordsFrom
    by_cases h : acc = []
    · subst h; simp [wordOf_nil]
    · rw [if_neg h, List.append_nil, wordOf_single h ha]; simp
  | c :: s, acc, ha => by
    unfold wordsFrom
    by_cases hc : Str.isWhitespace c = true
    · rw [if_pos hc, wordOf_cut hc, List.mem_append, mem_wordsFrom s [] (by simp)]
      by_cases h : acc = []
      · subst h; simp [wordOf_nil]
      · rw [if_neg h, wordOf_single h ha]; simp
    · rw [if_neg hc, mem_wordsFrom s (acc ++ [c]) (by
        intro d hd
        rcases List.mem_append.1 hd with h | h
        · exact ha d h
        · simp at h; subst h; simpa using hc)]
      simp

theorem mem_words {x s : Str} : x ∈ words s ↔ WordOf Str.isWhitespace s x := by
  rw [words, mem_wordsFrom s [] (by simp)]; simp

theorem mem_addClass {set : List Str} {w x : Str} : x ∈ addClass set w ↔ x ∈ set ∨ x = w := by
  unfold addClass
  split
  · exact ⟨Or.inl, fun h => h.elim id (fun h => h ▸ by assumption)⟩
  · simp

theorem mem_foldl_addClass {x : Str} : ∀ (l set : List Str), x ∈ l.foldl addClass set ↔ x ∈ set ∨ x ∈ l
  | [], set => by simp
  | w :: l, set => by
    rw [List.foldl_cons, mem_foldl_addClass l, mem_addClass, List.mem_cons, or_assoc]

theorem mem_push {set : List Str} {t x : Str} : x ∈ push set t ↔ x ∈ set ∨ WordOf Str.isWhitespace t x := by
  rw [push, mem_foldl_addClass, mem_words]

theorem mem_items {debug : Bool} {x : Str} : ∀ (items : List Item) (set : List Str),
    x ∈ items.foldl (fun set i => (i.classes debug).foldl addClass set) set ↔ x ∈ set ∨ ∃ i ∈ items, x ∈ i.classes debug
  | [], set => by simp
  | i :: items, set => by
    rw [List.foldl_cons, mem_items items, mem_foldl_addClass, or_assoc]
    simp

/-- White space of css is white space. -/
theorem cssSpace_white {c : Char} (h : cssSpace c = true) : Str.isWhitespace c = true := by
  simp only [cssSpace, decide_eq_true_eq] at h
  rcases h with rfl | rfl | rfl | rfl | rfl <;> decide

theorem wordOf_join : ∀ (l : List Str), (∀ w ∈ l, w ≠ [] ∧ ∀ c ∈ w, Str.isWhitespace c = false) → ∀ {x : Str},
    (HasClass (Str.join [' '] l) x ↔ x ∈ l)
  | [], _, x => by simp [Str.join, HasClass, wordOf_nil]
  | [w], h, x => by
    have := h w (by simp)
    rw [Str.join, HasClass, wordOf_single this.1 (fun c hc => ?_)]
    · simp
    · cases e : cssSpace c with
      | false => rfl
      | true => have h1 := cssSpace_white e; rw [this.2 c hc] at h1; cases h1
  | w :: v :: l, h, x => by
    have := h w (by simp)
    have e : Str.join [' '] (w :: v :: l) = w ++ ' ' :: Str.join [' '] (v :: l) := by simp [Str.join]
    have ih := @wordOf_join (v :: l) (fun u hu => h u (by simp [hu])) x
    unfold HasClass at ih ⊢
    rw [e, wordOf_cut (by decide), ih, wordOf_single this.1 (fun c hc => ?_)]
    · simp
    · cases e : cssSpace c with
      | false => rfl
      | true => have h1 := cssSpace_white e; rw [this.2 c hc] at h1; cases h1

/-- What the classes of an item are. -/
theorem mem_item {debug : Bool} {i : Item} {x : Str} : x ∈ i.classes debug ↔
    match i with
    | .style cls => WordOf Str.isWhitespace cls x
    | .source cls loc => WordOf Str.isWhitespace cls x ∨ debug = true ∧ WordOf Str.isWhitespace loc.text x
    | .text t => WordOf Str.isWhitespace t x := by
  cases i with
  | style cls => simp [Item.classes, ofStyle, mem_push]
  | text t => simp [Item.classes, mem_push]
  | source cls loc =>
    cases debug
    · simp [Item.classes, ofSource, mem_push]
    · simp [Item.classes, ofSource, mem_push]

theorem item_words {debug : Bool} {i : Item} {w : Str} (h : w ∈ i.classes debug) :
    w ≠ [] ∧ ∀ c ∈ w, Str.isWhitespace c = false := by
  rw [mem_item] at h
  cases i with
  | style cls => exact ⟨h.1, h.2.1⟩
  | text t => exact ⟨h.1, h.2.1⟩
  | source cls loc => rcases h with h | ⟨-, h⟩ <;> exact ⟨h.1, h.2.1⟩

/-- The classes of an attribute. -/
theorem hasClass_attribute {debug : Bool} {items : List Item} {x : Str} :
    HasClass (classAttr debug items) x ↔ ∃ i ∈ items, x ∈ i.classes debug := by
  rw [classAttr, wordOf_join _ (fun w hw => ?_), mem_items]
  · simp
  · rw [mem_items] at hw
    obtain h | ⟨i, -, h⟩ := hw
    · simp at h
    · exact item_words h

/-- A location without white space in the path is no identifier. -/
theorem location_not_ident {l : Location} (hl : NoSpace l.file) {x : Str} (hx : cssIdent x = true) :
    ¬ WordOf Str.isWhitespace l.text x := by
  have hd : ∀ n, ∀ c ∈ decimal n, Str.isWhitespace c = false := by
    intro n c hc
    have := decimal_digits n c hc
    simp only [Char.isDigit, Bool.and_eq_true, decide_eq_true_eq] at this
    have h1 : 48 ≤ c.val.toNat := UInt32.le_iff_toNat_le.1 this.1
    have h2 : c.val.toNat ≤ 57 := UInt32.le_iff_toNat_le.1 this.2
    simp only [Str.isWhitespace, Bool.or_eq_false_iff, Bool.and_eq_false_iff, decide_eq_false_iff_not, beq_eq_false_iff_ne]
    omega
  have hn : l.text ≠ [] := by simp [Location.text]
  have hs : ∀ c ∈ l.text, Str.isWhitespace c = false := by
    intro c hc
    simp only [Location.text, List.mem_append, List.mem_singleton] at hc
    rcases hc with (((h | h) | h) | h) | h
    · exact hl c h
    · subst h; decide
    · exact hd _ c h
    · subst h; decide
    · exact hd _ c h
  rw [wordOf_single hn hs]
  rintro rfl
  have := cssIdent_mem hx ':' (by simp [Location.text])
  exact absurd this (by decide)

end ClassesP
