import Verif.Spec.Html
import Verif.Model.Markup

/-!
# Lemmas about reading style elements
-/

namespace Html

open Manager

theorem after_append (p s : Str) : after p (p ++ s) = some s := by
  induction p with
  | nil => rfl
  | cons c p ih => simpa [after] using ih

/-- `</style` starts at no position of `a` before something that starts with `<`. -/
theorem startsEnd_append {a b : Str} (h : startsEnd (a) = false) (ha : a ≠ []) (hb : b.head? = some '<') :
    startsEnd (a ++ b) = false := by
  obtain ⟨b', rfl⟩ : ∃ b', b = '<' :: b' := by
    cases b with
    | nil => cases hb
    | cons c b' => simp only [List.head?_cons, Option.some.injEq] at hb; exact ⟨b', by rw [hb]⟩
  simp only [startsEnd, beq_eq_false_iff_ne, ne_eq] at h ⊢
  intro hc
  by_cases hl : 7 ≤ a.length
  · rw [List.take_append_of_le_length hl] at hc
    exact h hc
  · -- Position `a.length` holds `<`.
    have hlt : a.length < 7 := by omega
    have h1 := congrArg (fun l => l[a.length]?) hc
    have hpos : 0 < a.length := by
      cases a with
      | nil => exact absurd rfl ha
      | cons => simp
    simp only [List.getElem?_map, List.getElem?_take, hlt, if_true, List.getElem?_append_right (Nat.le_refl _),
      Nat.sub_self, List.getElem?_cons_zero, Option.map_some] at h1
    have h2 : a.length = 1 ∨ a.length = 2 ∨ a.length = 3 ∨ a.length = 4 ∨ a.length = 5 ∨ a.length = 6 := by omega
    rcases h2 with h2 | h2 | h2 | h2 | h2 | h2 <;> rw [h2] at h1 <;> exact absurd h1 (by decide)

theorem endTags_zero {c : Char} {s : Str} (h : endTags (c :: s) = 0) : startsEnd (c :: s) = false ∧ endTags s = 0 := by
  simp only [endTags] at h
  cases hs : startsEnd (c :: s) with
  | true => rw [hs] at h; simp at h
  | false => exact ⟨rfl, by omega⟩

theorem rawText_append : ∀ (t r : Str), endTags t = 0 → rawText (t ++ (c! "</style" ++ r)) = (t, c! "</style" ++ r)
  | [], r, _ => by
    rw [List.nil_append]
    show rawText ('<' :: (c! "/style" ++ r)) = _
    have : startsEnd ('<' :: (c! "/style" ++ r)) = true := by simp [startsEnd]
    simp only [rawText, this, if_true]
    rfl
  | c :: t, r, h => by
    obtain ⟨h1, h2⟩ := endTags_zero h
    have h3 : startsEnd (c :: t ++ (c! "</style" ++ r)) = false := startsEnd_append h1 (by simp) rfl
    rw [List.cons_append] at h3 ⊢
    simp only [rawText, h3, rawText_append t r h2, Bool.false_eq_true, if_false]

theorem takeWhile_quote {id r : Str} (h : '"' ∉ id) : (id ++ '"' :: r).takeWhile (· != '"') = id := by
  induction id with
  | nil => simp
  | cons c id ih =>
    simp only [List.mem_cons, not_or] at h
    have : c ≠ '"' := fun e => h.1 e.symm
    simp [this, ih h.2]

theorem dropWhile_quote {id r : Str} (h : '"' ∉ id) : (id ++ '"' :: r).dropWhile (· != '"') = '"' :: r := by
  induction id with
  | nil => simp
  | cons c id ih =>
    simp only [List.mem_cons, not_or] at h
    have : c ≠ '"' := fun e => h.1 e.symm
    simp [this, ih h.2]

theorem readStyles_markup (esc : Str → Str) : ∀ (data : List Entry) (n : Nat), data.length ≤ n →
    (∀ e ∈ data, '"' ∉ e.id ∧ endTags (esc e.text) = 0) →
    readStyles n (writeStaticMarkup esc data) = some (data.map (fun e => (e.id, esc e.text)))
  | [], n, _, _ => by cases n <;> rfl
  | e :: es, 0, h, _ => by simp at h
  | e :: es, n + 1, h, hd => by
    obtain ⟨h1, h2⟩ := hd e (by simp)
    have ih := readStyles_markup esc es n (by simpa using h) (fun e he => hd e (List.mem_cons_of_mem _ he))
    have hw : writeStaticMarkup esc (e :: es) = c! "<style data-style=\"" ++ (e.id ++ '"' :: ('>' ::
        (esc e.text ++ (c! "</style" ++ '>' :: writeStaticMarkup esc es)))) := by
      simp [writeStaticMarkup]
    have hr := rawText_append (esc e.text) ('>' :: writeStaticMarkup esc es) h2
    rw [hw]
    have ha := after_append (c! "<style data-style=\"") (e.id ++ '"' :: ('>' ::
        (esc e.text ++ (c! "</style" ++ '>' :: writeStaticMarkup esc es))))
    simp only [List.cons_append, List.nil_append] at ha hr ⊢
    rw [readStyles, ha]
    · simp only [takeWhile_quote h1, dropWhile_quote h1, after, if_true, hr, ih, Option.map_some, List.map_cons]
    · simp

theorem endTags_append : ∀ (t r : Str), r.head? = some '<' → endTags (t ++ r) = endTags t + endTags r
  | [], r, _ => by simp [endTags]
  | c :: t, r, h => by
    have ih := endTags_append t r h
    have hs : startsEnd (c :: t ++ r) = startsEnd (c :: t) := by
      cases hs : startsEnd (c :: t) with
      | false => exact startsEnd_append hs (by simp) h
      | true =>
        simp only [startsEnd, beq_iff_eq] at hs ⊢
        have hl : 7 ≤ (c :: t).length := by
          have := congrArg List.length hs
          simp only [List.length_map, List.length_take, List.length_cons, List.length_nil] at this ⊢
          omega
        rw [List.take_append_of_le_length hl]; exact hs
    rw [List.cons_append] at hs ⊢
    simp only [endTags, hs, ih]
    omega

theorem startsEnd_ne {c : Char} (h : c ≠ '<') (s : Str) : startsEnd (c :: s) = false := by
  simp only [startsEnd, List.take_succ_cons, List.map_cons, beq_eq_false_iff_ne, ne_eq, List.cons.injEq, not_and]
  intro hc
  exfalso
  apply h
  have key : ∀ n : Nat, n < 128 → (Char.ofNat n).toLower = '<' → Char.ofNat n = '<' := by decide
  have hval : c.toNat < 128 := by
    refine Classical.byContradiction (fun hn => ?_)
    have : c.toLower = c := by
      unfold Char.toLower
      split
      · rename_i hc2
        exfalso
        have h2 : c.val ≤ 90 := hc2.2
        have h3 : c.val.toNat ≤ 90 := h2
        have : c.toNat = c.val.toNat := rfl
        omega
      · rfl
    rw [this] at hc
    rw [hc] at hn
    exact hn (by decide)
  have := key c.toNat hval
  rw [Char.ofNat_toNat] at this
  exact this hc

theorem endTags_free : ∀ {s : Str} (r : Str), '<' ∉ s → endTags (s ++ r) = endTags r
  | [], r, _ => rfl
  | c :: s, r, h => by
    simp only [List.mem_cons, not_or] at h
    rw [List.cons_append, endTags, startsEnd_ne (fun e => h.1 e.symm), endTags_free r h.2]
    simp

theorem endTags_markup (esc : Str → Str) : ∀ (data : List Entry),
    (∀ e ∈ data, '<' ∉ e.id ∧ endTags (esc e.text) = 0) →
    endTags (writeStaticMarkup esc data) = data.length
  | [], _ => rfl
  | e :: es, hd => by
    obtain ⟨h1, h2⟩ := hd e (by simp)
    have ih := endTags_markup esc es (fun e he => hd e (List.mem_cons_of_mem _ he))
    have hw : writeStaticMarkup esc (e :: es) = '<' :: ((c! "style data-style=\"" ++ e.id ++ c! "\">") ++
        (esc e.text ++ ('<' :: (c! "/style>" ++ writeStaticMarkup esc es)))) := by
      simp [writeStaticMarkup]
    have hfree : '<' ∉ c! "style data-style=\"" ++ e.id ++ c! "\">" := by
      simp [h1]
    have hfree2 : '<' ∉ c! "/style>" := by decide
    rw [hw, endTags, endTags_free _ hfree, endTags_append _ _ rfl, h2, endTags, endTags_free _ hfree2, ih]
    have e1 : startsEnd ('<' :: ((c! "style data-style=\"" ++ e.id ++ c! "\">") ++
        (esc e.text ++ ('<' :: (c! "/style>" ++ writeStaticMarkup esc es))))) = false := by
      simp [startsEnd]
    have e2 : startsEnd ('<' :: (c! "/style>" ++ writeStaticMarkup esc es)) = true := by
      simp [startsEnd]
    simp only [e1, e2, List.length_cons]
    simp
    omega

end Html
