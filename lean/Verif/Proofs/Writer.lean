import Verif.Spec.Writer
import Verif.Proofs.Html

/-! # Writers that fail, and pages that end early -/

namespace Manager

variable {σ : Type}

theorem Writer.writeAll_append (w : Writer σ) : ∀ (xs ys : List Str) (st : σ), w.writeAll (xs ++ ys) st =
    if (w.writeAll xs st).2 then w.writeAll ys (w.writeAll xs st).1 else w.writeAll xs st
  | [], ys, st => by simp [writeAll]
  | x :: xs, ys, st => by
    have ih := Writer.writeAll_append w xs ys
    obtain ⟨st', b, h⟩ : ∃ st' b, w.writeStr st x = (st', b) := ⟨_, _, rfl⟩
    cases b <;> simp [writeAll, h, ih]

/-- The texts that are written for the style data. -/
def pieces (esc : Str → Str) (data : List Entry) : List Str :=
  data.flatMap fun e => [c! "<style data-style=\"", e.id, c! "\">", esc e.text, c! "</style>"]

theorem flatten_pieces (esc : Str → Str) : ∀ data, (pieces esc data).flatten = writeStaticMarkup esc data
  | [] => rfl
  | e :: es => by
    have ih := flatten_pieces esc es
    simp only [pieces] at ih
    simp [pieces, writeStaticMarkup, ih]

theorem Writer.markup_eq (w : Writer σ) (esc : Str → Str) : ∀ (data : List Entry) (st : σ),
    w.markup esc data st = w.writeAll (pieces esc data) st
  | [], st => rfl
  | e :: es, st => by
    have ih := Writer.markup_eq w esc es
    have hp : pieces esc (e :: es) = [c! "<style data-style=\"", e.id, c! "\">"] ++ ([esc e.text] ++ ([c! "</style>"] ++ pieces esc es)) := by
      simp [pieces]
    rw [hp, writeAll_append, markup]
    cases h1 : w.writeAll [c! "<style data-style=\"", e.id, c! "\">"] st with
    | mk st1 b1 =>
      cases b1
      · simp
      · simp only [if_true]
        rw [writeAll_append]
        cases h2 : w.writeAll [esc e.text] st1 with
        | mk st2 b2 =>
          cases b2
          · simp
          · simp only [if_true]
            rw [writeAll_append]
            cases h3 : w.writeAll [c! "</style>"] st2 with
            | mk st3 b3 => cases b3 <;> simp [ih]

/-- What a logged writer has been given. -/
theorem logged_spec (w : Writer σ) : ∀ (xs : List Str) (st : σ) (l : List Str),
    (w.logged.writeAll xs (st, l)).1.1 = (w.writeAll xs st).1 ∧ (w.logged.writeAll xs (st, l)).2 = (w.writeAll xs st).2 ∧
    ∃ k, k ≤ xs.length ∧ (w.logged.writeAll xs (st, l)).1.2 = l ++ xs.take k ∧
      ((w.writeAll xs st).2 = true → k = xs.length) ∧
      ((w.writeAll xs st).2 = false → ∃ pre x, xs.take k = pre ++ [x] ∧ (w.writeAll pre st).2 = true ∧
        (w.writeStr (w.writeAll pre st).1 x).2 = false)
  | [], st, l => by
    refine ⟨rfl, rfl, 0, Nat.le_refl _, by simp [Writer.writeAll], fun _ => rfl, fun h => ?_⟩
    simp [Writer.writeAll] at h
  | x :: xs, st, l => by
    cases h : w.writeStr st x with
    | mk st' b =>
      have hl : w.logged.writeStr (st, l) x = ((st', l ++ [x]), b) := by simp [Writer.logged, h]
      cases b
      · simp only [Writer.writeAll, hl, h]
        exact ⟨trivial, trivial, 1, by simp, by simp, fun e => (by cases e),
          fun _ => ⟨[], x, by simp, rfl, by simp [Writer.writeAll, h]⟩⟩
      · obtain ⟨h1, h2, k, h3, h4, h5, h6⟩ := logged_spec w xs st' (l ++ [x])
        simp only [Writer.writeAll, hl, h]
        refine ⟨h1, h2, k + 1, by simpa using h3, ?_, fun e => by simp [h5 e], fun e => ?_⟩
        · rw [h4]; simp
        · obtain ⟨pre, y, h7, h8, h9⟩ := h6 e
          refine ⟨x :: pre, y, by simp [h7], ?_, ?_⟩
          · simp only [Writer.writeAll, h]; exact h8
          · simp only [Writer.writeAll, h]; exact h9

theorem keeps_all {w : Writer σ} {content : σ → Str} (hw : w.Keeps content) : ∀ (xs : List Str) (st : σ),
    ((w.writeAll xs st).2 = true → content (w.writeAll xs st).1 = content st ++ xs.flatten) ∧
    ((w.writeAll xs st).2 = false → ∃ part, part <+: xs.flatten ∧ content (w.writeAll xs st).1 = content st ++ part)
  | [], st => by simp [Writer.writeAll]
  | x :: xs, st => by
    have hok := hw.ok st x
    have herr := hw.err st x
    cases h : w.writeStr st x with
    | mk st' b =>
      rw [h] at hok herr
      cases b
      · simp only [Writer.writeAll, h]
        refine ⟨fun e => (by cases e), fun _ => ?_⟩
        obtain ⟨part, h1, h2⟩ := herr rfl
        exact ⟨part, h1.trans (by simp), h2⟩
      · obtain ⟨h1, h2⟩ := keeps_all hw xs st'
        have h0 := hok rfl
        simp only [Writer.writeAll, h]
        refine ⟨fun e => ?_, fun e => ?_⟩
        · rw [h1 e, h0]; simp
        · obtain ⟨part, h3, h4⟩ := h2 e
          refine ⟨x ++ part, ?_, by rw [h4, h0]; simp⟩
          rw [List.flatten_cons]
          exact (List.prefix_append_right_inj x).2 h3

theorem keeps_string : stringWriter.Keeps id :=
  ⟨fun _ _ _ => rfl, fun _ _ h => by simp [stringWriter] at h⟩

theorem keeps_buffer (n : Nat) : (bufferWriter n).Keeps id := by
  refine ⟨fun st s h => ?_, fun st s h => ?_⟩
  · simp only [bufferWriter] at h ⊢
    split at h
    · rename_i hle; simp [hle]
    · cases h
  · simp only [bufferWriter] at h ⊢
    split at h
    · cases h
    · rename_i hle
      exact ⟨_, List.take_prefix (n - st.length) s, by simp [hle]⟩

theorem string_all : ∀ (xs : List Str) (st : Str), stringWriter.writeAll xs st = (st ++ xs.flatten, true)
  | [], st => by simp [Writer.writeAll]
  | x :: xs, st => by
    show stringWriter.writeAll xs (st ++ x) = _
    rw [string_all xs]; simp

theorem buffer_all (n : Nat) : ∀ (xs : List Str) (st : Str), st.length ≤ n →
    (bufferWriter n).writeAll xs st = ((st ++ xs.flatten).take n, decide (st.length + xs.flatten.length ≤ n))
  | [], st, h => by simp [Writer.writeAll, List.take_of_length_le h, h]
  | x :: xs, st, h => by
    simp only [Writer.writeAll]
    by_cases hle : st.length + x.length ≤ n
    · have : (bufferWriter n).writeStr st x = (st ++ x, true) := by simp [bufferWriter, hle]
      rw [this]
      simp only
      rw [buffer_all n xs (st ++ x) (by simpa using hle)]
      simp [Nat.add_assoc]
    · have : (bufferWriter n).writeStr st x = (st ++ x.take (n - st.length), false) := by simp [bufferWriter, hle]
      rw [this]
      simp only [List.flatten_cons, List.length_append, Prod.mk.injEq]
      refine ⟨?_, ?_⟩
      · rw [List.take_append, List.take_of_length_le h, List.take_append_of_le_length (by omega)]
      · symm; rw [decide_eq_false_iff_not]; omega

end Manager

namespace Html
open Manager

theorem rawText_concat : ∀ s : Str, (rawText s).1 ++ (rawText s).2 = s
  | [] => rfl
  | c :: s => by
    simp only [rawText]
    split
    · rfl
    · simp [rawText_concat s]

theorem after_take (p s : Str) (n : Nat) : after p ((p ++ s).take n) = if n < p.length then none else some (s.take (n - p.length)) := by
  induction p generalizing n with
  | nil => simp [after]
  | cons c p ih =>
    cases n with
    | zero => simp [after]
    | succ n => simp [after, ih]

/-- No end tag in the beginning of a text with its end tag. -/
theorem rawText_take : ∀ (t : Str) (k : Nat), endTags t = 0 → k < t.length + 8 →
    after (c! "</style>") (rawText ((t ++ c! "</style>").take k)).2 = none
  | [], k, _, hk => by
    have : k = 0 ∨ k = 1 ∨ k = 2 ∨ k = 3 ∨ k = 4 ∨ k = 5 ∨ k = 6 ∨ k = 7 := by simp at hk; omega
    rcases this with rfl | rfl | rfl | rfl | rfl | rfl | rfl | rfl <;> decide
  | c :: t, 0, _, _ => rfl
  | c :: t, k + 1, h, hk => by
    obtain ⟨h1, h2⟩ := endTags_zero h
    have ih := rawText_take t k h2 (by simp at hk; omega)
    have h3 : startsEnd (c :: t ++ c! "</style>") = false := startsEnd_append h1 (by simp) rfl
    have h4 : startsEnd (c :: (t ++ c! "</style>").take k) = false := by
      simp only [startsEnd, beq_eq_false_iff_ne, ne_eq] at h3 ⊢
      intro hc
      apply h3
      have hl : 6 ≤ ((t ++ c! "</style>").take k).length := by
        have := congrArg List.length hc
        simp only [List.length_map, List.length_take, List.length_cons, List.length_nil] at this ⊢
        omega
      rw [← hc]
      have hk6 : 6 ≤ k := by simp only [List.length_take] at hl; omega
      simp only [List.cons_append, List.take_succ_cons, List.take_take, Nat.min_eq_left hk6]
    rw [List.cons_append, List.take_succ_cons]
    simp only [rawText, h4, Bool.false_eq_true, if_false]
    exact ih

/-- The opening tag of an element that is cut. -/
theorem dropWhile_take {id r : Str} (h : '"' ∉ id) (k : Nat) :
    after (c! "\">") (((id ++ '"' :: ('>' :: r)).take k).dropWhile (· != '"')) =
      if k < id.length + 2 then none else some (r.take (k - (id.length + 2))) := by
  induction id generalizing k with
  | nil =>
    cases k with
    | zero => simp [after]
    | succ k =>
      cases k with
      | zero => simp [after]
      | succ k => simp [after]
  | cons c id ih =>
    simp only [List.mem_cons, not_or] at h
    have hc : c ≠ '"' := fun e => h.1 e.symm
    cases k with
    | zero => simp [after]
    | succ k =>
      have := ih h.2 k
      simp only [List.cons_append, List.take_succ_cons, List.length_cons]
      rw [List.dropWhile_cons]
      simp only [bne_iff_ne, ne_eq, hc, not_false_eq_true, if_true, this]
      by_cases hk : k < id.length + 2
      · rw [if_pos hk, if_pos (by omega)]
      · rw [if_neg hk, if_neg (by omega)]
        congr 2; omega

theorem takeWhile_take {id r : Str} (h : '"' ∉ id) {k : Nat} (hk : id.length < k) :
    ((id ++ '"' :: r).take k).takeWhile (· != '"') = id := by
  obtain ⟨j, rfl⟩ : ∃ j, k = id.length + (j + 1) := ⟨k - id.length - 1, by omega⟩
  rw [List.take_length_add_append, List.take_succ_cons]
  exact takeWhile_quote h

theorem readCut_markup (esc : Str → Str) : ∀ (data : List Entry) (n k : Nat), data.length ≤ n →
    (∀ e ∈ data, '"' ∉ e.id ∧ endTags (esc e.text) = 0) →
    ∃ whole rest cut, data = whole ++ rest ∧
      readCut n ((writeStaticMarkup esc data).take k) = whole.map (fun e => (e.id, esc e.text)) ++ cut ∧
      (writeStaticMarkup esc whole).length ≤ k ∧ (rest ≠ [] → k < (writeStaticMarkup esc (whole ++ rest.take 1)).length) ∧
      (cut = [] ∨ ∃ e more text, rest = e :: more ∧ cut = [(e.id, text)] ∧ text <+: esc e.text ++ c! "</style")
  | [], n, k, _, _ => by
    refine ⟨[], [], [], rfl, ?_, by simp [writeStaticMarkup], fun h => absurd rfl h, .inl rfl⟩
    cases n <;> simp [readCut, writeStaticMarkup, after]
  | e :: es, 0, k, h, _ => by simp at h
  | e :: es, n + 1, k, h, hd => by
    obtain ⟨h1, h2⟩ := hd e (by simp)
    have hw : writeStaticMarkup esc (e :: es) = c! "<style data-style=\"" ++ (e.id ++ '"' :: ('>' ::
        (esc e.text ++ c! "</style>" ++ writeStaticMarkup esc es))) := by
      simp [writeStaticMarkup]
    have hlen : (writeStaticMarkup esc [e]).length = 19 + (e.id.length + 2) + ((esc e.text).length + 8) := by
      simp [writeStaticMarkup]; omega
    by_cases hk : k < (writeStaticMarkup esc [e]).length
    · -- The element is cut.
      have fin : ∀ cut, readCut (n + 1) ((writeStaticMarkup esc (e :: es)).take k) = cut →
          (cut = [] ∨ ∃ text, cut = [(e.id, text)] ∧ text <+: esc e.text ++ c! "</style") →
          ∃ whole rest cut, e :: es = whole ++ rest ∧
          readCut (n + 1) ((writeStaticMarkup esc (e :: es)).take k) = whole.map (fun e => (e.id, esc e.text)) ++ cut ∧
          (writeStaticMarkup esc whole).length ≤ k ∧ (rest ≠ [] → k < (writeStaticMarkup esc (whole ++ rest.take 1)).length) ∧
          (cut = [] ∨ ∃ e more text, rest = e :: more ∧ cut = [(e.id, text)] ∧ text <+: esc e.text ++ c! "</style") := by
        intro cut hc h
        refine ⟨[], e :: es, cut, rfl, by simpa using hc, by simp [writeStaticMarkup], fun _ => hk, ?_⟩
        rcases h with h | ⟨text, h, h'⟩
        · exact .inl h
        · exact .inr ⟨e, es, text, rfl, h, h'⟩
      rw [hw, readCut, after_take] at fin
      rw [hw, readCut, after_take]
      by_cases hk1 : k < (c! "<style data-style=\"").length
      · simp only [hk1, if_true] at fin ⊢
        exact fin _ rfl (.inl rfl)
      · simp only [hk1, if_false, dropWhile_take h1] at fin ⊢
        by_cases hk2 : k - (c! "<style data-style=\"").length < e.id.length + 2
        · simp only [hk2, if_true] at fin ⊢
          exact fin _ rfl (.inl rfl)
        · simp only [hk2, if_false] at fin ⊢
          have hl19 : (c! "<style data-style=\"").length = 19 := rfl
          rw [hl19] at hk1 hk2 fin ⊢
          have hk3 : k - 19 - (e.id.length + 2) < (esc e.text).length + 8 := by omega
          have htk : (esc e.text ++ c! "</style>" ++ writeStaticMarkup esc es).take (k - 19 - (e.id.length + 2)) =
              (esc e.text ++ c! "</style>").take (k - 19 - (e.id.length + 2)) :=
            List.take_append_of_le_length (by simp; omega)
          rw [htk, rawText_take _ _ h2 hk3, takeWhile_take h1 (by omega), rawText_concat] at fin
          rw [htk, rawText_take _ _ h2 hk3, takeWhile_take h1 (by omega), rawText_concat]
          refine fin _ rfl (.inr ⟨_, rfl, ?_⟩)
          have : (esc e.text ++ c! "</style>").take (k - 19 - (e.id.length + 2)) =
              (esc e.text ++ c! "</style").take (k - 19 - (e.id.length + 2)) := by
            rw [show esc e.text ++ c! "</style>" = (esc e.text ++ c! "</style") ++ ['>'] by simp]
            exact List.take_append_of_le_length (by simp; omega)
          rw [this]
          exact List.take_prefix ..
    · -- The element is whole.
      obtain ⟨whole, rest, cut, i1, i2, i3, i4, i5⟩ := readCut_markup esc es n (k - (writeStaticMarkup esc [e]).length)
        (by simpa using h) (fun e he => hd e (List.mem_cons_of_mem _ he))
      have hcons : ∀ l : List Entry, (writeStaticMarkup esc (e :: l)).length =
          (writeStaticMarkup esc [e]).length + (writeStaticMarkup esc l).length := by
        intro l; simp [writeStaticMarkup]; omega
      refine ⟨e :: whole, rest, cut, by rw [i1]; rfl, ?_, by rw [hcons]; omega, fun hr => ?_, i5⟩
      · have hl19 : (c! "<style data-style=\"").length = 19 := rfl
        rw [hw, readCut, after_take, if_neg (by rw [hl19]; omega)]
        simp only
        rw [dropWhile_take h1, if_neg (by rw [hl19]; omega), takeWhile_take h1 (by rw [hl19]; omega)]
        simp only
        have hex : ∃ j, k - (c! "<style data-style=\"").length - (e.id.length + 2) = (esc e.text ++ c! "</style>").length + j ∧
            j = k - (writeStaticMarkup esc [e]).length := ⟨_, by rw [hl19, hlen]; simp; omega, rfl⟩
        obtain ⟨j, hj, hj'⟩ := hex
        rw [hj, List.take_length_add_append]
        have hr := rawText_append (esc e.text) ('>' :: (writeStaticMarkup esc es).take j) h2
        have he : esc e.text ++ c! "</style>" ++ (writeStaticMarkup esc es).take j =
            esc e.text ++ (c! "</style" ++ '>' :: (writeStaticMarkup esc es).take j) := by simp
        have ha := after_append (c! "</style>") ((writeStaticMarkup esc es).take j)
        have ha' : c! "</style>" ++ (writeStaticMarkup esc es).take j = c! "</style" ++ '>' :: (writeStaticMarkup esc es).take j := rfl
        rw [ha'] at ha
        rw [he, hr]
        simp only [ha]
        rw [hj', i2]
        rfl
      · have := i4 hr
        rw [List.cons_append, hcons]
        omega

end Html
