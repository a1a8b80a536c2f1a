import Verif.Spec.SelectDeep
import Verif.Proofs.SelectGlobal

/-!
# Reading printed selectors with brackets

Lemmas for the parts of C70 and C75 about selectors in brackets.
-/

namespace SelectP

open Spec

variable {El : Type}

/-! ## Texts next to each other -/

/-- No `:root` that begins in `a` and ends in `b`. -/
def Cut (a b : Str) : Prop :=
  ∀ u v, a ++ b = u ++ (c! ":root" ++ v) → u.length + 5 ≤ a.length ∨ a.length ≤ u.length

theorem cut_nil (b : Str) : Cut [] b := fun _ _ _ => .inr (Nat.zero_le _)

theorem cut_end (a : Str) : Cut a [] := by
  intro u v h
  have := congrArg List.length h
  simp at this
  omega

theorem cut_snoc {a b : Str} {c : Char} (h : Cut a (c :: b)) (hr : ¬ c! ":root" <+: c :: b) : Cut (a ++ [c]) b := by
  intro u v huv
  have huv' : a ++ (c :: b) = u ++ (c! ":root" ++ v) := by simpa using huv
  rcases h u v huv' with h1 | h1
  · left; simp; omega
  · rcases Nat.lt_or_ge a.length u.length with h2 | h2
    · right; simp; omega
    · exfalso
      obtain ⟨-, h4⟩ := List.append_inj huv' (by omega)
      exact hr ⟨v, h4.symm⟩

theorem cut_root {a b : Str} (h : Cut a (c! ":root" ++ b)) : Cut (a ++ c! ":root") b := by
  intro u v huv
  have huv' : a ++ (c! ":root" ++ b) = u ++ (c! ":root" ++ v) := by simpa using huv
  rcases h u v huv' with h1 | h1
  · left; simp; omega
  · simp only [List.length_append, List.length_cons, List.length_nil]
    have h2 := congrArg (fun l => l[u.length]?) huv'
    simp only [List.getElem?_append_right h1, List.getElem?_append_right (Nat.le_refl _), Nat.sub_self] at h2
    obtain ⟨k, hk⟩ : ∃ k, u.length - a.length = k := ⟨_, rfl⟩
    rw [hk] at h2
    match k, h2 with
    | 0, _ => left; omega
    | 1, h2 => simp at h2
    | 2, h2 => simp at h2
    | 3, h2 => simp at h2
    | 4, h2 => simp at h2
    | k + 5, _ => right; omega

theorem cut_tail {c : Char} {a b : Str} (h : Cut (c :: a) b) : Cut a b := by
  intro u v huv
  rcases h (c :: u) v (by rw [List.cons_append, huv]; rfl) with h1 | h1
  · left; simp at h1; omega
  · right; simpa using h1

theorem cut_drop {x a b : Str} (h : Cut (x ++ a) b) : Cut a b := by
  induction x with
  | nil => exact h
  | cons c x ih => exact ih (cut_tail h)

theorem expand_append (cur : Str) : ∀ (n : Nat) (a b : Str), a.length ≤ n → Cut a b →
    expand cur (a ++ b) = expand cur a ++ expand cur b := by
  intro n
  induction n with
  | zero =>
    intro a b ha _
    have : a = [] := List.length_eq_zero_iff.1 (by omega)
    subst this; simp [expand]
  | succ n ih =>
    intro a b ha hc
    match a with
    | [] => simp [expand]
    | c :: a =>
      have hl : a.length ≤ n := by simpa using ha
      by_cases hamp : c = '&'
      · subst hamp
        rw [List.cons_append, expand, expand, ih a b hl (cut_tail hc), List.append_assoc]
      by_cases hroot : c! ":root" <+: c :: a
      · obtain ⟨t, ht⟩ := hroot
        rw [← ht] at hc ⊢
        rw [List.append_assoc, expand_root, expand_root, ih t b ?_ (cut_drop hc), List.append_assoc]
        have := congrArg List.length ht
        simp at this; omega
      · have hroot' : ¬ c! ":root" <+: c :: (a ++ b) := by
          rintro ⟨v, hv⟩
          rcases hc [] v (by simpa using hv.symm) with h1 | h1
          · refine hroot ?_
            refine List.prefix_of_prefix_length_le (l₃ := c :: (a ++ b)) ⟨v, hv⟩ ⟨b, by simp⟩ ?_
            simpa using h1
          · simp at h1
        rw [List.cons_append, expand_cons hamp hroot', expand_cons hamp hroot, ih a b hl (cut_tail hc)]
        rfl

theorem expand_plain {cur : Str} : ∀ {s : Str}, '&' ∉ s → ¬ c! ":root" <:+: s → expand cur s = s
  | [], _, _ => rfl
  | c :: s, h1, h2 => by
    rw [expand_cons (fun h => h1 (by simp [h])) (fun h => h2 h.isInfix),
      expand_plain (fun h => h1 (by simp [h])) (fun h => h2 (h.trans ⟨[c], [], by simp⟩))]

theorem expand_amp (cur : Str) : expand cur ['&'] = cur := by simp [expand]

theorem expand_colon {cur acc : Str} (hcur : cur.head? = some '.') : expand cur acc = [':'] ↔ acc = [':'] := by
  constructor
  · intro h
    cases cur with
    | nil => cases hcur
    | cons d cur =>
      have hd : d = '.' := by simpa using hcur
      subst hd
      cases acc with
      | nil => cases h
      | cons c s =>
        by_cases hamp : c = '&'
        · subst hamp; rw [expand] at h; simp at h
        by_cases hroot : c! ":root" <+: c :: s
        · obtain ⟨t, ht⟩ := hroot
          rw [← ht, expand_root] at h; simp at h
        · rw [expand_cons hamp hroot] at h
          simp only [List.cons.injEq] at h
          obtain ⟨rfl, h⟩ := h
          cases s with
          | nil => rfl
          | cons e s =>
            exfalso
            by_cases hamp : e = '&'
            · subst hamp; rw [expand] at h; simp at h
            by_cases hroot : c! ":root" <+: e :: s
            · obtain ⟨t, ht⟩ := hroot
              rw [← ht, expand_root] at h; simp at h
            · rw [expand_cons hamp hroot] at h; simp at h
  · rintro rfl; simp [expand]

theorem expand_eq_nil {cur acc : Str} (hcur : cur.head? = some '.') : expand cur acc = [] ↔ acc = [] := by
  constructor
  · intro h
    cases cur with
    | nil => cases hcur
    | cons d cur =>
      cases acc with
      | nil => rfl
      | cons c s =>
        by_cases hamp : c = '&'
        · subst hamp; rw [expand] at h; simp at h
        by_cases hroot : c! ":root" <+: c :: s
        · obtain ⟨t, ht⟩ := hroot
          rw [← ht, expand_root] at h; simp at h
        · rw [expand_cons hamp hroot] at h; simp at h
  · rintro rfl; rfl

/-! ## Pieces -/

/-- The current element replaced by `cur` everywhere in simple selectors. -/
def grow (cur : Str) : SelPiece → SelPiece
  | .simple x => .simple (expand cur x)
  | p => p

/-- What simple selectors with selectors in brackets look like. -/
def Calls (inner : Str → Bool) : Prop :=
  ∀ x, inner x = true → ∃ f arg, x = f ++ '(' :: arg ∧ '(' ∉ f ∧ '&' ∉ f ∧ ¬ c! ":root" <:+: f

theorem okIn_tail {inner : Str → Bool} {p : SelPiece} {ps : List SelPiece} (h : currentOkIn inner (p :: ps) = true) :
    currentOkIn inner ps = true := by
  cases p <;> simp_all [currentOkIn]

theorem okIn_flush {inner : Str → Bool} {acc : Str} {ps : List SelPiece} (h : currentOkIn inner (flush acc ps) = true) :
    currentOkIn inner ps = true := by
  unfold flush at h
  split at h
  · exact h
  · exact okIn_tail h

theorem okIn_simple {inner : Str → Bool} {x : Str} {ps : List SelPiece} (h : currentOkIn inner (.simple x :: ps) = true) :
    isCurrent x = true ∨ ('&' ∉ x ∧ ¬ c! ":root" <:+: x) ∨ inner x = true := by
  simp only [currentOkIn, Bool.and_eq_true, Bool.or_eq_true, decide_eq_true_eq] at h
  rcases h.1.1 with (h | h) | h
  · exact .inl h
  · exact .inr (.inl h)
  · exact .inr (.inr h)

theorem okIn_pre {inner : Str → Bool} {pre ps : List SelPiece} (h : pre = [] ∨ pre = [.space] ∨ ∃ k, pre = [.mark k])
    (hok : currentOkIn inner (pre ++ ps) = true) : currentOkIn inner ps = true := by
  rcases h with rfl | rfl | ⟨k, rfl⟩
  · exact hok
  · exact okIn_tail hok
  · exact okIn_tail hok

theorem grow_flush {cur acc : Str} (hcur : cur.head? = some '.') (ps : List SelPiece) :
    (flush acc ps).map (grow cur) = flush (expand cur acc) (ps.map (grow cur)) := by
  unfold flush
  by_cases h : acc = []
  · rw [if_pos h, if_pos ((expand_eq_nil hcur).2 h)]
  · rw [if_neg h, if_neg (fun h' => h ((expand_eq_nil hcur).1 h'))]
    rfl

theorem grow_pre {cur : Str} {pre : List SelPiece} (h : pre = [] ∨ pre = [.space] ∨ ∃ k, pre = [.mark k]) :
    pre.map (grow cur) = pre := by
  rcases h with rfl | rfl | ⟨k, rfl⟩ <;> rfl

/-- `:root` at the front of the name of a simple selector is not allowed, unless it is all. -/
theorem root_front {inner : Str → Bool} (hin : Calls inner) {p x : Str} {r : List SelPiece} (hp : '(' ∉ p)
    (h : currentOkIn inner (.simple (p ++ (c! ":root" ++ x)) :: r) = true) : p = [] ∧ x = [] := by
  rcases okIn_simple h with h | ⟨-, h⟩ | h
  · rcases isCurrent_iff.1 h with h | h
    · have := congrArg List.length h
      simp at this
      omega
    · have := congrArg List.length h
      simp at this
      exact ⟨List.length_eq_zero_iff.1 (by omega), List.length_eq_zero_iff.1 (by omega)⟩
  · exact absurd ⟨p, x, by simp⟩ h
  · exfalso
    obtain ⟨f, arg, h1, h2, -, h3⟩ := hin _ h
    have h4 : p ++ c! ":root" ++ x = f ++ '(' :: arg := by rw [← h1]; simp
    rcases List.append_eq_append_iff.1 h4 with ⟨a, h5, -⟩ | ⟨a, h5, h6⟩
    · exact h3 ⟨p, a, by rw [h5]⟩
    · cases a with
      | nil =>
        rw [List.append_nil] at h5
        exact h3 ⟨p, [], by rw [← h5]; simp⟩
      | cons d a =>
        have hd : d = '(' := by
          have := congrArg List.head? h6
          simp at this
          exact this.symm
        subst hd
        have : '(' ∈ p ++ c! ":root" := by rw [h5]; simp
        rcases List.mem_append.1 this with h7 | h7
        · exact hp h7
        · revert h7; decide

/-- Going over text that only continues. -/
theorem pieces_over {q q' : At} {t : Str} : ∀ (x acc : Str), (∀ c ∈ x, Letter c ∧ q'.next c = some q') →
    pieces acc q' (x ++ t) = pieces (acc ++ x) q' t
  | [], acc, _ => by simp
  | c :: x, acc, h => by
    rw [List.cons_append, pieces_letter (h c (by simp)).1, (h c (by simp)).2, Option.bind_some,
      pieces_over (q := q) x _ (fun d hd => h d (by simp [hd]))]
    simp

/-- `:root` or a class inside of brackets. -/
theorem pieces_word_in {q : At} (hq : q ≠ .out 0) (hquote : BrowserP.QuoteOk q) {d : Char} {x : Str}
    (hd : BrowserP.Dull d) (hx : ∀ c ∈ x, Letter c) (acc t : Str) :
    pieces acc q (d :: x ++ t) = (q.next '&').bind (fun q' => pieces (acc ++ d :: x) q' t) := by
  rw [List.cons_append, in_cases hq, BrowserP.dull_next hquote hd (show BrowserP.Dull '&' by decide)]
  cases hn : q.next '&' with
  | none => rfl
  | some q' =>
    rw [Option.bind_some, Option.bind_some, pieces_over (q := q) x (acc ++ [d]) (fun c hc =>
      ⟨hx c hc, BrowserP.dull_stays hquote (show BrowserP.Dull '&' by decide) (hx c hc).2.2.2.2.2 hn⟩)]
    simp

theorem letter_root : ∀ c ∈ c! "root", Letter c := by unfold Letter; decide

theorem letter_class {cls : Str} (h : CleanClass cls) : ∀ c ∈ cls, Letter c := fun c hc => letter_ident (h.2 c hc).1

/-- What a character outside of strings and brackets does. -/
theorem out_cases_quote (c : Char) (hc : c ≠ '&') :
    (∃ pre acc1 q1, (pre = [] ∨ pre = [.space] ∨ ∃ k, pre = [.mark k]) ∧ ((acc1 = [] ∧ q1 = At.out 0) ∨ acc1 = [c]) ∧
      BrowserP.QuoteOk q1 ∧
      ∀ acc s, ¬ (c = ':' ∧ acc = [':']) →
        pieces acc (.out 0) (c :: s) = (pieces acc1 q1 s).map (fun ps => flush acc (pre ++ ps))) ∨
    (opensSimple c = false ∧ ∃ o : Option At, (∀ q ∈ o, BrowserP.QuoteOk q) ∧
      ∀ acc s, pieces acc (.out 0) (c :: s) = o.bind (fun q' => pieces (acc ++ [c]) q' s)) := by
  by_cases hcomma : c = ','
  · subst hcomma
    exact .inr ⟨rfl, none, by simp, fun acc s => by simp [pieces, cssSpace]⟩
  by_cases hs : cssSpace c = true
  · exact .inl ⟨[.space], [], .out 0, .inr (.inl rfl), .inl ⟨rfl, rfl⟩, trivial, fun acc s _ => by simp [pieces, hs]⟩
  cases hk : combOf c with
  | some k =>
    exact .inl ⟨[.mark k], [], .out 0, .inr (.inr ⟨k, rfl⟩), .inl ⟨rfl, rfl⟩, trivial,
      fun acc s _ => by simp [pieces, hs, hcomma, hc, hk]⟩
  | none =>
    have hq : ∀ q' ∈ (At.out 0).next c, BrowserP.QuoteOk q' := fun q' h =>
      BrowserP.quoteOk_next (q := .out 0) trivial (by simpa using h)
    by_cases ho : opensSimple c = true
    · cases hn : (At.out 0).next c with
      | none =>
        exfalso
        simp only [opensSimple, decide_eq_true_eq] at ho
        rcases ho with rfl | rfl | rfl | rfl | rfl <;> revert hn <;> decide
      | some q' =>
        refine .inl ⟨[], [c], q', .inl rfl, .inr rfl, hq q' (by simp [hn]), fun acc s h => ?_⟩
        simp only [pieces, hs, hcomma, hc, hk, hn, ho]
        simp only [and_false, Bool.false_eq_true, if_false, ite_self, true_and, if_pos h, List.nil_append]
    · refine .inr ⟨by simpa using ho, (At.out 0).next c, hq, fun acc s => ?_⟩
      simp only [pieces, hs, hcomma, hc, hk, ho]
      cases (At.out 0).next c <;> simp

/-- Replacing the current element in the text replaces it in the pieces, in brackets too. -/
theorem pieces_grow {cls : Str} (hcls : CleanClass cls) {inner : Str → Bool} (hin : Calls inner) :
    ∀ (n : Nat) (s : Str), s.length ≤ n →
    (∀ acc q ps, pieces acc q s = some ps → currentOkIn inner ps = true → isCurrent acc = false → Cut acc s →
      BrowserP.QuoteOk q → (q ≠ .out 0 → acc ≠ []) →
      pieces (expand ('.' :: cls) acc) q (expand ('.' :: cls) s) = some (ps.map (grow ('.' :: cls)))) ∧
    (∀ ps, pieces [] (.out 0) s = some ps → currentOkIn inner (.simple ['&'] :: ps) = true →
      pieces ('.' :: cls) (.out 0) (expand ('.' :: cls) s) = some (.simple ('.' :: cls) :: ps.map (grow ('.' :: cls)))) ∧
    (∀ ps, pieces (c! ":root") (.out 0) s = some ps → currentOkIn inner ps = true →
      pieces ('.' :: cls) (.out 0) (expand ('.' :: cls) s) = some (ps.map (grow ('.' :: cls)))) := by
  have hdot : ('.' :: cls : Str).head? = some '.' := rfl
  have hgroot : expand ('.' :: cls) (c! ":root") = '.' :: cls := by
    rw [show c! ":root" = c! ":root" ++ [] from rfl, expand_root]
    simp [expand]
  intro n
  induction n with
  | zero =>
    intro s hs
    have : s = [] := List.length_eq_zero_iff.1 (by omega)
    subst this
    refine ⟨?_, ?_, ?_⟩
    · intro acc q ps h hok hcur hcut hquote _
      simp only [pieces] at h
      split at h
      · rename_i hq
        cases h
        rw [grow_flush hdot, expand, pieces, if_pos hq]; rfl
      · cases h
    · intro ps h hok
      simp only [pieces, if_pos, flush] at h
      cases h
      simp [expand, pieces, flush]
    · intro ps h hok
      simp only [pieces, if_true, Option.some.injEq] at h
      subst h
      rw [grow_flush hdot, hgroot]
      simp [expand, pieces]
  | succ n ih =>
    intro s hs
    match s with
    | [] => exact ih [] (by simp)
    | c :: s =>
      have hlen : s.length ≤ n := by simpa using hs
      by_cases hamp : c = '&'
      · subst hamp
        have hout : ∀ acc, pieces acc (.out 0) ('&' :: s) =
            (pieces [] (.out 0) s).map (fun ps => flush acc (.simple ['&'] :: ps)) := by
          intro acc; simp [pieces, cssSpace]
        have hexp : expand ('.' :: cls) ('&' :: s) = '.' :: cls ++ expand ('.' :: cls) s := by rw [expand]
        have hg : grow ('.' :: cls) (.simple ['&']) = .simple ('.' :: cls) := by
          rw [grow, expand_amp]
        have hnr : ¬ c! ":root" <+: '&' :: s := by
          rintro ⟨t, ht⟩
          simp at ht
        refine ⟨?_, ?_, ?_⟩
        · intro acc q ps h hok hcur hcut hquote hne
          by_cases hq : q = .out 0
          · subst hq
            rw [hout] at h
            obtain ⟨ps', h1, rfl⟩ := Option.map_eq_some_iff.1 h
            rw [hexp, pieces_cls hcls, (ih s hlen).2.1 ps' h1 (okIn_flush hok), grow_flush hdot, List.map_cons, hg]
            rfl
          · rw [in_cases hq] at h
            obtain ⟨q', h1, h2⟩ := Option.bind_eq_some_iff.1 h
            have hcut' := cut_snoc hcut hnr
            have h3 := (ih s hlen).1 (acc ++ ['&']) q' ps h2 hok (by
              rw [← Bool.not_eq_true, isCurrent_iff]
              rintro (h' | h')
              · exact hne hq (by simpa using h')
              · have : '&' ∈ c! ":root" := by rw [← h']; simp
                revert this; decide) hcut' (BrowserP.quoteOk_next hquote h1) (by simp)
            have e1 : expand ('.' :: cls) (acc ++ ['&']) = expand ('.' :: cls) acc ++ ('.' :: cls) := by
              rw [expand_append _ _ acc ['&'] (Nat.le_refl _) ?_, expand_amp]
              intro u v huv
              by_cases h9 : u.length + 5 ≤ acc.length
              · exact .inl h9
              · right
                have h5 := hcut u (v ++ s) (by
                  have := congrArg (· ++ s) huv
                  simpa using this)
                omega
            rw [hexp, pieces_word_in hq hquote (by decide) (letter_class hcls), h1, Option.bind_some, ← e1]
            exact h3
        · intro ps h hok
          rw [hout] at h
          obtain ⟨ps', h1, rfl⟩ := Option.map_eq_some_iff.1 h
          rw [hexp, pieces_cls hcls, (ih s hlen).2.1 ps' h1 (okIn_tail hok)]
          simp [flush, hg]
        · intro ps h hok
          rw [hout] at h
          obtain ⟨ps', h1, rfl⟩ := Option.map_eq_some_iff.1 h
          rw [hexp, pieces_cls hcls, (ih s hlen).2.1 ps' h1 (okIn_flush hok), grow_flush hdot, hgroot, List.map_cons, hg]
          rfl
      by_cases hroot : c! ":root" <+: c :: s
      · obtain ⟨t, ht⟩ := hroot
        rw [← ht]
        have htl : t.length ≤ n := by
          have := congrArg List.length ht
          simp at this
          omega
        refine ⟨?_, ?_, ?_⟩
        · intro acc q ps h hok hcur hcut hquote hne
          by_cases hq : q = .out 0
          · subst hq
            by_cases hcol : acc = [':']
            · exfalso
              subst hcol
              have e : pieces [':'] (.out 0) (c! ":root" ++ t) = pieces (c! "::root") (.out 0) t := by
                have : pieces [':'] (.out 0) (':' :: (c! "root" ++ t)) = pieces (c! "::") (.out 0) (c! "root" ++ t) := by
                  simp only [pieces]
                  simp [cssSpace, combOf, At.next, opensSimple]
                show pieces [':'] (.out 0) (':' :: (c! "root" ++ t)) = _
                rw [this, pieces_letters (c! "root") _ letter_root]
                rfl
              rw [e] at h
              obtain ⟨x, r, rfl⟩ := pieces_prefix _ _ _ _ h (by simp)
              have := (root_front hin (p := [':']) (x := x) (r := r) (by decide) hok).1
              simp at this
            · rw [pieces_root_out acc t hcol] at h
              obtain ⟨ps', h1, rfl⟩ := Option.map_eq_some_iff.1 h
              rw [expand_root, pieces_cls hcls, (ih t htl).2.2 ps' h1 (okIn_flush hok), grow_flush hdot]
              rfl
          · have h0 : pieces acc q (':' :: c! "root" ++ t) = some ps := h
            rw [pieces_word_in hq hquote (by decide) letter_root] at h0
            obtain ⟨q', h1, h2⟩ := Option.bind_eq_some_iff.1 h0
            have hcut' := cut_root hcut
            have h3 := (ih t htl).1 (acc ++ c! ":root") q' ps h2 hok (by
              rw [← Bool.not_eq_true, isCurrent_iff]
              rintro (h' | h')
              · have := congrArg List.length h'
                simp at this
              · exact hne hq (by simpa using h')) hcut' (BrowserP.quoteOk_next hquote h1) (by simp)
            have e1 : expand ('.' :: cls) (acc ++ c! ":root") = expand ('.' :: cls) acc ++ ('.' :: cls) := by
              rw [expand_append _ _ acc (c! ":root") (Nat.le_refl _) ?_, hgroot]
              intro u v huv
              have h5 := hcut u (v ++ t) (by
                have := congrArg (· ++ t) huv
                simpa using this)
              exact h5
            rw [expand_root, pieces_word_in hq hquote (by decide) (letter_class hcls), h1, Option.bind_some, ← e1]
            exact h3
        · intro ps h hok
          rw [pieces_root_out [] t (by simp)] at h
          obtain ⟨ps', h1, rfl⟩ := Option.map_eq_some_iff.1 h
          rw [expand_root, pieces_cls hcls, (ih t htl).2.2 ps' h1 (okIn_flush (okIn_tail hok))]
          rfl
        · intro ps h hok
          rw [pieces_root_out (c! ":root") t (by simp)] at h
          obtain ⟨ps', h1, rfl⟩ := Option.map_eq_some_iff.1 h
          rw [expand_root, pieces_cls hcls, (ih t htl).2.2 ps' h1 (okIn_flush hok), grow_flush hdot, hgroot]
          rfl
      · rw [expand_cons hamp hroot]
        have hA := (ih s hlen).1
        have hsing : expand ('.' :: cls) [c] = [c] := by
          rw [expand_cons hamp]
          · rfl
          · intro h'
            have := h'.length_le
            simp at this
        have hcur1 : isCurrent [c] = false := by
          rw [← Bool.not_eq_true, isCurrent_iff]
          rintro (h' | h')
          · simp at h'; exact hamp h'
          · simp at h'
        have hone : Cut [c] s := by
          have := cut_snoc (cut_nil (c :: s)) hroot
          simpa using this
        -- appending
        have happ : ∀ acc (o : Option At) ps, o.bind (fun q' => pieces (acc ++ [c]) q' s) = some ps →
            (∀ q' ∈ o, BrowserP.QuoteOk q') → currentOkIn inner ps = true → isCurrent acc = false → Cut acc (c :: s) →
            o.bind (fun q' => pieces (expand ('.' :: cls) acc ++ [c]) q' (expand ('.' :: cls) s)) =
              some (ps.map (grow ('.' :: cls))) := by
          intro acc q ps h hquote hok hcur hcut
          obtain ⟨q', h1, h2⟩ := Option.bind_eq_some_iff.1 h
          rw [h1, Option.bind_some]
          have hcut' := cut_snoc hcut hroot
          have h3 := hA (acc ++ [c]) q' ps h2 hok (by
            rw [← Bool.not_eq_true, isCurrent_iff]
            rintro (h' | h')
            · have : acc = [] := by
                have := congrArg List.length h'
                simp at this
                exact this
              subst this
              simp at h'; exact hamp h'
            · have h4 := hcut [] s (by
                have := congrArg (· ++ s) h'
                simpa using this)
              have h5 := congrArg List.length h'
              simp only [List.length_append, List.length_cons, List.length_nil] at h5 h4
              omega) hcut' (hquote q' h1) (by simp)
          have e1 : expand ('.' :: cls) (acc ++ [c]) = expand ('.' :: cls) acc ++ [c] := by
            rw [expand_append _ _ acc [c] (Nat.le_refl _) ?_, hsing]
            intro u v huv
            have h5 := hcut u (v ++ s) (by
              have := congrArg (· ++ s) huv
              simpa using this)
            exact h5
          rw [← e1]; exact h3
        rcases out_cases_quote c hamp with ⟨pre, acc1, q1, hpre, hacc1, hq1, hstep⟩ | ⟨hno, o, hquo, hstep⟩
        · have h1a : isCurrent acc1 = false := by
            rcases hacc1 with ⟨rfl, -⟩ | rfl
            · rfl
            · exact hcur1
          have h1b : Cut acc1 s := by
            rcases hacc1 with ⟨rfl, -⟩ | rfl
            · exact cut_nil s
            · exact hone
          have h1c : q1 ≠ .out 0 → acc1 ≠ [] := by
            rcases hacc1 with ⟨rfl, rfl⟩ | rfl
            · intro h; exact absurd rfl h
            · simp
          have h1d : expand ('.' :: cls) acc1 = acc1 := by
            rcases hacc1 with ⟨rfl, -⟩ | rfl
            · rfl
            · exact hsing
          have hcont : ∀ ps, pieces acc1 q1 s = some ps → currentOkIn inner ps = true →
              pieces acc1 q1 (expand ('.' :: cls) s) = some (ps.map (grow ('.' :: cls))) := by
            intro ps h1 h2
            have := hA acc1 q1 ps h1 h2 h1a h1b hq1 h1c
            rwa [h1d] at this
          refine ⟨?_, ?_, ?_⟩
          · intro acc q ps h hok hcur hcut hquote hne
            by_cases hq : q = .out 0
            · subst hq
              by_cases hcol : c = ':' ∧ acc = [':']
              · obtain ⟨rfl, rfl⟩ := hcol
                have e : ∀ t, pieces [':'] (.out 0) (':' :: t) =
                    ((At.out 0).next ':').bind (fun q' => pieces ([':'] ++ [':']) q' t) := by
                  intro t
                  simp only [pieces]
                  simp [cssSpace, combOf, At.next, opensSimple]
                have h3 := happ [':'] _ ps (by rw [← e]; exact h)
                  (fun q' h' => BrowserP.quoteOk_next (q := .out 0) (c := ':') trivial (by simpa using h')) hok hcur hcut
                rw [hsing] at h3 ⊢
                rw [e]; exact h3
              · rw [hstep acc _ hcol] at h
                rw [hstep _ _ (by rw [expand_colon hdot]; exact hcol)]
                obtain ⟨ps', h1, rfl⟩ := Option.map_eq_some_iff.1 h
                rw [hcont ps' h1 (okIn_pre hpre (okIn_flush hok)), Option.map_some, grow_flush hdot, List.map_append,
                  grow_pre hpre]
            · rw [in_cases hq] at h ⊢
              exact happ _ _ _ h (fun q' h' => BrowserP.quoteOk_next hquote (by simpa using h')) hok hcur hcut
          · intro ps h hok
            rw [hstep [] _ (by simp)] at h
            obtain ⟨ps', h1, rfl⟩ := Option.map_eq_some_iff.1 h
            rw [hstep ('.' :: cls) _ (by simp), hcont ps' h1 (okIn_pre hpre (okIn_flush (okIn_tail hok))), Option.map_some]
            simp [flush, grow_pre hpre]
          · intro ps h hok
            rw [hstep (c! ":root") _ (by simp)] at h
            obtain ⟨ps', h1, rfl⟩ := Option.map_eq_some_iff.1 h
            rw [hstep ('.' :: cls) _ (by simp), hcont ps' h1 (okIn_pre hpre (okIn_flush hok)), Option.map_some,
              grow_flush hdot, hgroot, List.map_append, grow_pre hpre]
        · refine ⟨?_, ?_, ?_⟩
          · intro acc q ps h hok hcur hcut hquote hne
            by_cases hq : q = .out 0
            · subst hq
              rw [hstep] at h ⊢
              exact happ _ _ _ h hquo hok hcur hcut
            · rw [in_cases hq] at h ⊢
              exact happ _ _ _ h (fun q' h' => BrowserP.quoteOk_next hquote (by simpa using h')) hok hcur hcut
          · intro ps h hok
            exfalso
            rw [hstep] at h
            obtain ⟨q', -, h⟩ := Option.bind_eq_some_iff.1 h
            obtain ⟨x, r, rfl⟩ := pieces_prefix _ _ _ _ h (by simp)
            simp [currentOkIn, hno, hamp] at hok
          · intro ps h hok
            exfalso
            rw [hstep] at h
            obtain ⟨q', -, h⟩ := Option.bind_eq_some_iff.1 h
            obtain ⟨x, r, rfl⟩ := pieces_prefix _ _ _ _ h (by simp)
            have := (root_front hin (p := []) (x := c :: x) (r := r) (by simp) (by simpa using hok)).2
            simp at this

/-! ## Lists -/

theorem list_over {q' : At} {t : Str} : ∀ (x acc : Str), (∀ c ∈ x, c ≠ ',' ∧ q'.next c = some q') →
    selectorList acc q' (x ++ t) = selectorList (acc ++ x) q' t
  | [], acc, _ => by simp
  | c :: x, acc, h => by
    rw [List.cons_append, selectorList, if_neg (fun h' => (h c (by simp)).1 h'.2), (h c (by simp)).2]
    dsimp only
    rw [list_over x _ (fun d hd => h d (by simp [hd]))]
    simp

/-- `:root` or a class in a list. -/
theorem list_word {q : At} (hquote : BrowserP.QuoteOk q) {d : Char} {x : Str}
    (hd : BrowserP.Dull d) (hd' : d ≠ ',') (hx : ∀ c ∈ x, Letter c) (acc t : Str) :
    selectorList acc q (d :: x ++ t) =
      match q.next '&' with
      | some q' => selectorList (acc ++ d :: x) q' t
      | none => [acc ++ (d :: x ++ t)] := by
  rw [List.cons_append, selectorList, if_neg (fun h => hd' h.2),
    BrowserP.dull_next hquote hd (show BrowserP.Dull '&' by decide)]
  cases hn : q.next '&' with
  | none => rfl
  | some q' =>
    dsimp only
    rw [list_over x (acc ++ [d]) (fun c hc =>
      ⟨(hx c hc).2.1, BrowserP.dull_stays hquote (show BrowserP.Dull '&' by decide) (hx c hc).2.2.2.2.2 hn⟩)]
    simp

theorem cut_left {acc x s : Str} (h : Cut acc (x ++ s)) : Cut acc x := by
  intro u v huv
  exact h u (v ++ s) (by
    have := congrArg (· ++ s) huv
    simpa using this)

theorem list_grow {cls : Str} (hcls : CleanClass cls) : ∀ (n : Nat) (s : Str), s.length ≤ n →
    ∀ acc q, Cut acc s → BrowserP.QuoteOk q →
      selectorList (expand ('.' :: cls) acc) q (expand ('.' :: cls) s) =
        (selectorList acc q s).map (expand ('.' :: cls)) := by
  have hgroot : expand ('.' :: cls) (c! ":root") = '.' :: cls := by
    rw [show c! ":root" = c! ":root" ++ [] from rfl, expand_root]
    simp [expand]
  intro n
  induction n with
  | zero =>
    intro s hs acc q _ _
    have : s = [] := List.length_eq_zero_iff.1 (by omega)
    subst this
    simp [expand, selectorList]
  | succ n ih =>
    intro s hs acc q hcut hquote
    match s with
    | [] => exact ih [] (by simp) acc q hcut hquote
    | c :: s =>
      have hlen : s.length ≤ n := by simpa using hs
      by_cases hamp : c = '&'
      · subst hamp
        have hnr : ¬ c! ":root" <+: '&' :: s := by
          rintro ⟨t, ht⟩
          simp at ht
        have e1 : expand ('.' :: cls) (acc ++ ['&']) = expand ('.' :: cls) acc ++ ('.' :: cls) := by
          rw [expand_append _ _ acc ['&'] (Nat.le_refl _) (cut_left (s := s) hcut), expand_amp]
        have e2 : expand ('.' :: cls) (acc ++ '&' :: s) =
            expand ('.' :: cls) acc ++ ('.' :: cls ++ expand ('.' :: cls) s) := by
          rw [expand_append _ _ acc _ (Nat.le_refl _) hcut, expand]
        rw [expand, list_word hquote (by decide) (by decide) (letter_class hcls), selectorList, if_neg (by simp)]
        cases hn : q.next '&' with
        | none => simp only [List.map_cons, List.map_nil, e2]
        | some q' =>
          dsimp only
          rw [← e1]
          exact ih s hlen _ _ (cut_snoc hcut hnr) (BrowserP.quoteOk_next hquote hn)
      by_cases hroot : c! ":root" <+: c :: s
      · obtain ⟨t, ht⟩ := hroot
        rw [← ht] at hcut ⊢
        have htl : t.length ≤ n := by
          have := congrArg List.length ht
          simp at this
          omega
        have e1 : expand ('.' :: cls) (acc ++ c! ":root") = expand ('.' :: cls) acc ++ ('.' :: cls) := by
          rw [expand_append _ _ acc (c! ":root") (Nat.le_refl _) (cut_left (s := t) hcut), hgroot]
        have e2 : expand ('.' :: cls) (acc ++ (c! ":root" ++ t)) =
            expand ('.' :: cls) acc ++ ('.' :: cls ++ expand ('.' :: cls) t) := by
          rw [expand_append _ _ acc _ (Nat.le_refl _) hcut, expand_root]
        have h0 := list_word hquote (d := ':') (x := c! "root") (by decide) (by decide) letter_root acc t
        have h1 : selectorList acc q (c! ":root" ++ t) = _ := h0
        rw [expand_root, list_word hquote (by decide) (by decide) (letter_class hcls), h1]
        cases hn : q.next '&' with
        | none =>
          simp only [List.map_cons, List.map_nil]
          rw [← e2]
        | some q' =>
          dsimp only
          rw [← e1]
          exact ih t htl _ _ (cut_root hcut) (BrowserP.quoteOk_next hquote hn)
      · have hsing : expand ('.' :: cls) [c] = [c] := by
          rw [expand_cons hamp]
          · rfl
          · intro h'
            have := h'.length_le
            simp at this
        have e1 : expand ('.' :: cls) (acc ++ [c]) = expand ('.' :: cls) acc ++ [c] := by
          rw [expand_append _ _ acc [c] (Nat.le_refl _) (cut_left (s := s) hcut), hsing]
        have e2 : expand ('.' :: cls) (acc ++ c :: s) =
            expand ('.' :: cls) acc ++ (c :: expand ('.' :: cls) s) := by
          rw [expand_append _ _ acc _ (Nat.le_refl _) hcut, expand_cons hamp hroot]
        rw [expand_cons hamp hroot, selectorList, selectorList]
        by_cases hcomma : q = .out 0 ∧ c = ','
        · rw [if_pos hcomma, if_pos hcomma, List.map_cons, ← ih s hlen [] q (cut_nil s) hquote]
          rfl
        · rw [if_neg hcomma, if_neg hcomma]
          cases hn : q.next c with
          | none => simp only [List.map_cons, List.map_nil, e2]
          | some q' =>
            dsimp only
            rw [← e1]
            exact ih s hlen _ _ (cut_snoc hcut hroot) (BrowserP.quoteOk_next hquote hn)

/-- The items of a list are parts of it. -/
theorem list_infix : ∀ (s acc : Str) (q : At), ∀ x ∈ selectorList acc q s, x <:+: acc ++ s := by
  intro s
  induction s with
  | nil => intro acc q x hx; simp [selectorList] at hx; subst hx; simp
  | cons c s ih =>
    intro acc q x hx
    rw [selectorList] at hx
    split at hx
    · rcases List.mem_cons.1 hx with rfl | hx
      · exact ⟨[], c :: s, by simp⟩
      · exact (ih [] q x hx).trans ⟨acc ++ [c], [], by simp⟩
    · split at hx
      · have := ih _ _ x hx
        simpa using this
      · have : x = acc ++ c :: s := by simpa using hx
        rw [this]; exact List.infix_refl _

/-! ## Calls -/

theorem asCall_eq {x f arg : Str} (h : asCall x = some (f, arg)) : x = f ++ '(' :: (arg ++ [')']) ∧ '(' ∉ f := by
  unfold asCall at h
  have h0 := List.takeWhile_append_dropWhile (p := fun c => c != '(') (l := x)
  cases hd : x.dropWhile (fun c => c != '(') with
  | nil => rw [hd] at h; cases h
  | cons c r =>
    rw [hd] at h h0
    dsimp only at h
    split at h
    · rename_i hl
      simp only [Option.some.injEq, Prod.mk.injEq] at h
      obtain ⟨h1, h2⟩ := h
      have hc : c = '(' := by
        have := List.head_dropWhile_not (l := x) (fun c => c != '(') (by rw [hd]; simp)
        simp only [hd, List.head_cons] at this
        simpa using this
      have hr : r = arg ++ [')'] := by
        rw [← h2]
        obtain ⟨ys, hy⟩ := List.getLast?_eq_some_iff.1 hl
        rw [hy]; simp
      refine ⟨?_, ?_⟩
      · rw [← hr, ← h1]
        subst hc
        exact h0.symm
      · rw [← h1]
        intro hm
        have := List.all_eq_true.1 (List.all_takeWhile (l := x) (p := fun c => c != '(')) _ hm
        simp at this
    · cases h

theorem asCall_mk {f arg : Str} (h : '(' ∉ f) : asCall (f ++ '(' :: (arg ++ [')'])) = some (f, arg) := by
  have h1 : ∀ (f : Str), '(' ∉ f → ∀ r, (f ++ '(' :: r).dropWhile (fun c => c != '(') = '(' :: r ∧
      (f ++ '(' :: r).takeWhile (fun c => c != '(') = f := by
    intro f
    induction f with
    | nil => intro _ r; simp
    | cons c f ih =>
      intro hf r
      have hc : c ≠ '(' := fun h' => hf (by simp [h'])
      have := ih (fun h' => hf (by simp [h'])) r
      simp [hc, this.1, this.2]
  unfold asCall
  rw [(h1 f h _).1, (h1 f h _).2]
  simp

theorem asCall_none {x : Str} (h : '(' ∉ x) : asCall x = none := by
  cases hc : asCall x with
  | none => rfl
  | some p =>
    obtain ⟨f, arg⟩ := p
    obtain ⟨h1, -⟩ := asCall_eq hc
    exact absurd (by rw [h1]; simp) h

theorem cut_mark {a b : Str} {c : Char} (hc : c ∉ c! ":root") : Cut (a ++ [c]) b := by
  intro u v huv
  by_cases h1 : u.length + 5 ≤ (a ++ [c]).length
  · exact .inl h1
  by_cases h2 : (a ++ [c]).length ≤ u.length
  · exact .inr h2
  exfalso
  simp only [List.length_append, List.length_cons, List.length_nil] at h1 h2
  have h3 := congrArg (fun l => l[a.length]?) huv
  have e1 : ((a ++ [c]) ++ b)[a.length]? = some c := by simp
  have e2 : (u ++ (c! ":root" ++ v))[a.length]? = (c! ":root")[a.length - u.length]? := by
    rw [List.getElem?_append_right (by omega), List.getElem?_append_left (by simp; omega)]
  rw [e1, e2] at h3
  exact hc (List.mem_of_getElem? h3.symm)

theorem expand_call {cur f arg : Str} (h1 : '&' ∉ f) (h2 : ¬ c! ":root" <:+: f) :
    expand cur (f ++ '(' :: (arg ++ [')'])) = f ++ '(' :: (expand cur arg ++ [')']) := by
  have e : f ++ '(' :: (arg ++ [')']) = (f ++ ['(']) ++ (arg ++ [')']) := by simp
  have h3 : '&' ∉ f ++ ['('] := by simp [h1]
  have h4 : ¬ c! ":root" <:+: f ++ ['('] := by
    rintro ⟨u, v, huv⟩
    have h5 := cut_mark (a := f) (b := []) (c := '(') (by decide)
    rcases List.eq_nil_or_concat v with rfl | ⟨v, d, rfl⟩
    · have := congrArg List.getLast? huv
      simp at this
    · rw [List.concat_eq_append, ← List.append_assoc] at huv
      exact h2 ⟨u, v, (List.append_inj' huv rfl).1⟩
  rw [e, expand_append _ _ _ _ (Nat.le_refl _) (cut_mark (by decide)), expand_plain h3 h4]
  have h5 : Cut arg [')'] := by
    intro u v huv
    by_cases h6 : u.length + 5 ≤ arg.length
    · exact .inl h6
    · right
      rcases List.eq_nil_or_concat v with rfl | ⟨v, d, rfl⟩
      · have := congrArg List.getLast? huv
        simp at this
      · have := congrArg List.length huv
        simp at this
        omega
  rw [expand_append _ _ arg _ (Nat.le_refl _) h5, expand_plain (s := [')']) (by decide) (by decide)]
  simp

/-! ## Steps -/

/-- The same for steps. -/
def growStep (cur : Str) : Step → Step
  | .simple x => .simple (expand cur x)
  | p => p

theorem steps_grow (cur : Str) : ∀ (ps : List SelPiece) (g : Gap),
    steps g (ps.map (grow cur)) = (steps g ps).map (List.map (growStep cur)) := by
  intro ps
  induction ps with
  | nil => intro g; cases g <;> rfl
  | cons p ps ih =>
    intro g
    cases p with
    | simple x =>
      rw [List.map_cons, show grow cur (.simple x) = .simple (expand cur x) from rfl]
      cases g <;> simp only [steps, ih] <;> cases steps .nothing ps <;> rfl
    | space =>
      rw [List.map_cons, show grow cur .space = .space from rfl]
      cases g <;> simp only [steps, ih]
    | mark k =>
      rw [List.map_cons, show grow cur (.mark k) = .mark k from rfl]
      cases g <;> simp only [steps, ih, Option.map_none]

/-- Steps are about simple selectors that were read. -/
theorem steps_mem : ∀ (ps : List SelPiece) (g : Gap) (r : List Step), steps g ps = some r →
    ∀ x, .simple x ∈ r → .simple x ∈ ps := by
  intro ps
  induction ps with
  | nil =>
    intro g r h x hx
    cases g <;> simp [steps] at h <;> subst h <;> cases hx
  | cons p ps ih =>
    intro g r h x hx
    cases p with
    | simple y =>
      have : ∃ r', steps .nothing ps = some r' ∧ (.simple x = Step.simple y ∨ .simple x ∈ r') := by
        cases g <;> simp only [steps] at h <;> obtain ⟨r', h1, rfl⟩ := Option.map_eq_some_iff.1 h <;>
          refine ⟨r', h1, ?_⟩ <;> simpa using hx
      obtain ⟨r', h1, h2 | h2⟩ := this
      · cases h2; simp
      · exact List.mem_cons_of_mem _ (ih _ _ h1 x h2)
    | space =>
      have : ∃ g', steps g' ps = some r := by
        cases g <;> simp only [steps] at h <;> exact ⟨_, h⟩
      obtain ⟨g', h'⟩ := this
      exact List.mem_cons_of_mem _ (ih _ _ h' x hx)
    | mark k =>
      have : ∃ g', steps g' ps = some r := by
        cases g <;> simp only [steps] at h
        · exact ⟨_, h⟩
        · exact ⟨_, h⟩
        · exact ⟨_, h⟩
        · cases h
      obtain ⟨g', h'⟩ := this
      exact List.mem_cons_of_mem _ (ih _ _ h' x hx)

/-- Documents with the same elements. -/
theorem below_same {D E : Doc El} (h : D.parent = E.parent) (a e : El) : D.Below a e ↔ E.Below a e := by
  constructor
  · intro h'
    induction h' with
    | child h1 => exact .child (by rw [← h]; exact h1)
    | deeper _ h1 ih => exact .deeper ih (by rw [← h]; exact h1)
  · intro h'
    induction h' with
    | child h1 => exact .child (by rw [h]; exact h1)
    | deeper _ h1 ih => exact .deeper ih (by rw [h]; exact h1)

theorem after_same {D E : Doc El} (h : D.previous = E.previous) (a e : El) : D.After a e ↔ E.After a e := by
  constructor
  · intro h'
    induction h' with
    | next h1 => exact .next (by rw [← h]; exact h1)
    | later _ h1 ih => exact .later ih (by rw [← h]; exact h1)
  · intro h'
    induction h' with
    | next h1 => exact .next (by rw [h]; exact h1)
    | later _ h1 ih => exact .later ih (by rw [h]; exact h1)

theorem rel_same {D E : Doc El} (h1 : D.parent = E.parent) (h2 : D.previous = E.previous) (k : Comb) (a e : El) :
    D.rel k a e ↔ E.rel k a e := by
  cases k with
  | below => exact below_same h1 a e
  | child => simp only [Doc.rel, h1]
  | next => simp only [Doc.rel, h2]
  | after => exact after_same h2 a e

/-- Steps in two documents. -/
theorem reach_same {D E : Doc El} (h1 : D.parent = E.parent) (h2 : D.previous = E.previous) (g : Step → Step)
    (gx : Str → Str) (hg : ∀ x, g (.simple x) = .simple (gx x)) (hk : ∀ k, g (.comb k) = .comb k) :
    ∀ (r : List Step) (P Q : El → Prop), (∀ x, .simple x ∈ r → ∀ e, D.meets e (gx x) ↔ E.meets e x) →
    (∀ e, P e ↔ Q e) → ∀ e, D.reach (r.map g) P e ↔ E.reach r Q e := by
  intro r
  induction r with
  | nil => intro P Q _ hP e; exact hP e
  | cons a r ih =>
    intro P Q hm hP e
    have hm' : ∀ x, .simple x ∈ r → ∀ e, D.meets e (gx x) ↔ E.meets e x :=
      fun x hx => hm x (List.mem_cons_of_mem _ hx)
    cases a with
    | simple x =>
      rw [List.map_cons, hg]
      simp only [Doc.reach]
      refine ih _ _ hm' (fun e => ?_) e
      rw [hP, hm x (by simp)]
    | comb k =>
      rw [List.map_cons, hk]
      simp only [Doc.reach]
      refine ih _ _ hm' (fun e => ?_) e
      simp only [hP, rel_same h1 h2]

/-- Selectors in two documents. -/
theorem matches_same {D E : Doc El} (h1 : D.parent = E.parent) (h2 : D.previous = E.previous) (g : Step → Step)
    (gx : Str → Str) (hg : ∀ x, g (.simple x) = .simple (gx x)) (hk : ∀ k, g (.comb k) = .comb k) {s s' : Str}
    (hread : readSelector s' = (readSelector s).map (List.map g))
    (hm : ∀ r, readSelector s = some r → ∀ x, .simple x ∈ r → ∀ e, D.meets e (gx x) ↔ E.meets e x) (e : El) :
    D.Matches s' e ↔ E.Matches s e := by
  unfold Doc.Matches
  rw [hread]
  constructor
  · rintro ⟨first, r, h3, h4⟩
    obtain ⟨r0, h5, h6⟩ := Option.map_eq_some_iff.1 h3
    rw [← h6, reach_same h1 h2 g gx hg hk r0 _ (fun _ => True) (hm r0 h5) (fun _ => Iff.rfl)] at h4
    cases r0 with
    | nil => cases h6
    | cons a r0 =>
      cases a with
      | simple x => exact ⟨x, r0, h5, h4⟩
      | comb k => rw [List.map_cons, hk] at h6; cases h6
  · rintro ⟨first, r, h3, h4⟩
    refine ⟨gx first, r.map g, by rw [h3, Option.map_some, List.map_cons, hg], ?_⟩
    have := reach_same h1 h2 g gx hg hk (.simple first :: r) (fun _ => True) (fun _ => True) (hm _ h3)
      (fun _ => Iff.rfl) e
    rw [List.map_cons, hg] at this
    exact this.2 h4

/-- Relative selectors in two documents. -/
theorem relative_same {D E : Doc El} (h1 : D.parent = E.parent) (h2 : D.previous = E.previous) (g : Step → Step)
    (gx : Str → Str) (hg : ∀ x, g (.simple x) = .simple (gx x)) (hk : ∀ k, g (.comb k) = .comb k) {s s' : Str}
    (hread : readSelector s' = (readSelector s).map (List.map g))
    (hm : ∀ r, readSelector s = some r → ∀ x, .simple x ∈ r → ∀ e, D.meets e (gx x) ↔ E.meets e x) (a e : El) :
    D.MatchesRelative a s' e ↔ E.MatchesRelative a s e := by
  unfold Doc.MatchesRelative
  rw [hread]
  cases hr : readSelector s with
  | none => simp
  | some r =>
    have key := fun l hl => reach_same h1 h2 g gx hg hk l (fun x => x = a) (fun x => x = a) hl (fun _ => Iff.rfl) e
    simp only [Option.map_some, Option.some.injEq, exists_eq_left', ne_eq, List.map_eq_nil_iff]
    refine and_congr_right fun _ => ?_
    cases r with
    | nil => exact Iff.rfl
    | cons p r =>
      cases p with
      | simple x =>
        have := key (.comb .below :: .simple x :: r) (fun y hy => hm _ hr y (by simpa using hy))
        rw [List.map_cons, hk] at this
        simpa only [List.map_cons, hg] using this
      | comb k =>
        have := key (.comb k :: r) (hm _ hr)
        simpa only [List.map_cons, hk] using this

/-- Selectors in brackets in two documents. -/
theorem holds_same (F : Funcs El) (f : Str) {D E : Doc El} (h1 : D.parent = E.parent) (h2 : D.previous = E.previous)
    (g : Step → Step) (gx : Str → Str) (hg : ∀ x, g (.simple x) = .simple (gx x)) (hk : ∀ k, g (.comb k) = .comb k)
    (gs : Str → Str) (l : List Str) (hread : ∀ s ∈ l, readSelector (gs s) = (readSelector s).map (List.map g))
    (hm : ∀ s ∈ l, ∀ r, readSelector s = some r → ∀ x, .simple x ∈ r → ∀ e, D.meets e (gx x) ↔ E.meets e x) (e : El) :
    F.holds f (fun x => ∃ s ∈ l.map gs, D.Matches s x) (fun a x => ∃ s ∈ l.map gs, D.MatchesRelative a s x) e ↔
      F.holds f (fun x => ∃ s ∈ l, E.Matches s x) (fun a x => ∃ s ∈ l, E.MatchesRelative a s x) e := by
  have hx : ∀ P : Str → Prop, (∃ s ∈ l.map gs, P s) ↔ ∃ s ∈ l, P (gs s) := by
    intro P
    constructor
    · rintro ⟨s, h1, h2⟩
      obtain ⟨t, h3, rfl⟩ := List.mem_map.1 h1
      exact ⟨t, h3, h2⟩
    · rintro ⟨t, h1, h2⟩
      exact ⟨_, List.mem_map_of_mem h1, h2⟩
  have e1 : (fun x => ∃ s ∈ l.map gs, D.Matches s x) = fun x => ∃ s ∈ l, E.Matches s x := by
    funext x
    rw [hx]
    exact propext (exists_congr fun s => and_congr_right fun hs => matches_same h1 h2 g gx hg hk (hread s hs) (hm s hs) x)
  have e2 : (fun a x => ∃ s ∈ l.map gs, D.MatchesRelative a s x) = fun a x => ∃ s ∈ l, E.MatchesRelative a s x := by
    funext a x
    rw [hx]
    exact propext (exists_congr fun s => and_congr_right fun hs => relative_same h1 h2 g gx hg hk (hread s hs) (hm s hs) a x)
  rw [e1, e2]

/-! ## Depth -/

theorem deep_parent (F : Funcs El) (D : Doc El) (n : Nat) : (D.deep F n).parent = D.parent := by
  cases n <;> rfl

theorem deep_previous (F : Funcs El) (D : Doc El) (n : Nat) : (D.deep F n).previous = D.previous := by
  cases n <;> rfl

theorem deep_meets_none (F : Funcs El) (D : Doc El) (n : Nat) {x : Str} (h : asCall x = none) (e : El) :
    (D.deep F n).meets e x ↔ D.meets e x := by
  cases n with
  | zero => exact Iff.rfl
  | succ n => simp only [Doc.deep, h]

theorem read_mem {s : Str} {r : List Step} (h : readSelector s = some r) {x : Str} (hx : .simple x ∈ r) :
    ∃ ps, pieces [] (.out 0) s = some ps ∧ .simple x ∈ ps := by
  obtain ⟨ps, h1, h2⟩ := Option.bind_eq_some_iff.1 h
  exact ⟨ps, h1, steps_mem ps _ r h2 x hx⟩

theorem call_infix {x f arg : Str} (h : asCall x = some (f, arg)) {s : Str} (hs : s ∈ selectorList [] (.out 0) arg) :
    s <:+: x := by
  obtain ⟨h1, -⟩ := asCall_eq h
  have := list_infix _ _ _ s hs
  rw [List.nil_append] at this
  exact this.trans ⟨f ++ ['('], [')'], by rw [h1]; simp⟩

/-- Texts that two documents agree on. -/
theorem deep_same (F : Funcs El) {D E : Doc El} (h1 : D.parent = E.parent) (h2 : D.previous = E.previous) (M : Str → Prop)
    (hM : ∀ x y, M y → x <:+: y → M x) (hDE : ∀ x, M x → ∀ e, D.meets e x ↔ E.meets e x) : ∀ (n : Nat) (x : Str), M x →
    ∀ e, (D.deep F n).meets e x ↔ (E.deep F n).meets e x := by
  intro n
  induction n with
  | zero => exact hDE
  | succ n ih =>
    intro x hx e
    cases hc : asCall x with
    | none => rw [deep_meets_none F D _ hc, deep_meets_none F E _ hc]; exact hDE x hx e
    | some p =>
      obtain ⟨f, arg⟩ := p
      simp only [Doc.deep, hc]
      split
      · have key := holds_same F f (D := D.deep F n) (E := E.deep F n) (by rw [deep_parent, deep_parent, h1])
          (by rw [deep_previous, deep_previous, h2]) id id (fun _ => rfl) (fun _ => rfl) id (selectorList [] (.out 0) arg)
          (by simp) (fun s hs r hr y hy e => ?_) e
        · rwa [List.map_id] at key
        obtain ⟨ps, h3, h4⟩ := read_mem hr hy
        have h5 := pieces_infix _ _ _ _ h3 y h4
        rw [List.nil_append] at h5
        exact ih y (hM y x hx (h5.trans (call_infix hc hs))) e
      · exact hDE x hx e

theorem innerOk_calls (takes : Str → Bool) : ∀ n, Calls (innerOk takes n)
  | 0 => by intro x h; cases h
  | n + 1 => by
    intro x h
    simp only [innerOk] at h
    split at h
    · rename_i f arg hc
      simp only [Bool.and_eq_true, decide_eq_true_eq] at h
      obtain ⟨h1, h2⟩ := asCall_eq hc
      exact ⟨f, arg ++ [')'], h1, h2, h.1.2.1, h.1.2.2⟩
    · cases h

theorem okIn_mem {inner : Str → Bool} : ∀ {ps : List SelPiece}, currentOkIn inner ps = true → ∀ x, .simple x ∈ ps →
    isCurrent x = true ∨ ('&' ∉ x ∧ ¬ c! ":root" <:+: x) ∨ inner x = true
  | [], _, x, hx => by cases hx
  | p :: ps, h, x, hx => by
    rcases List.mem_cons.1 hx with h1 | h1
    · subst h1; exact okIn_simple h
    · exact okIn_mem (okIn_tail h) x h1

theorem read_grow {cls : Str} (hcls : CleanClass cls) {inner : Str → Bool} (hin : Calls inner) {s : Str}
    {ps : List SelPiece} (hps : pieces [] (.out 0) s = some ps) (hok : currentOkIn inner ps = true) :
    pieces [] (.out 0) (expand ('.' :: cls) s) = some (ps.map (grow ('.' :: cls))) ∧
    readSelector (expand ('.' :: cls) s) = (readSelector s).map (List.map (growStep ('.' :: cls))) := by
  have h1 := (pieces_grow hcls hin s.length s (Nat.le_refl _)).1 [] (.out 0) ps hps hok rfl (cut_nil s) trivial (by simp)
  have h1 : pieces [] (.out 0) (expand ('.' :: cls) s) = some (ps.map (grow ('.' :: cls))) := h1
  refine ⟨h1, ?_⟩
  rw [readSelector, readSelector, h1, hps]
  exact steps_grow _ _ _

theorem class_no_call {cls : Str} (hcls : CleanClass cls) : asCall ('.' :: cls) = none := by
  refine asCall_none ?_
  intro h
  rcases List.mem_cons.1 h with h | h
  · cases h
  · have := (hcls.2 _ h).1
    revert this; decide

/-- Simple selectors, before and after the current element is replaced. -/
theorem meets_grow (F : Funcs El) (D : Doc El) {cls : Str} (hcls : CleanClass cls) : ∀ (n : Nat) (x : Str),
    (isCurrent x = true ∨ ('&' ∉ x ∧ ¬ c! ":root" <:+: x) ∨ innerOk F.takes n x = true) → ∀ e,
    (D.deep F n).meets e (expand ('.' :: cls) x) ↔ ((D.withCurrent cls).deep F n).meets e x := by
  intro n
  induction n with
  | zero =>
    intro x hx e
    rcases hx with hx | ⟨h1, h2⟩ | hx
    · have : expand ('.' :: cls) x = '.' :: cls := by
        rcases isCurrent_iff.1 hx with rfl | rfl
        · exact expand_amp _
        · rw [show c! ":root" = c! ":root" ++ [] from rfl, expand_root]
          simp [expand]
      simp [Doc.deep, Doc.withCurrent, this, hx]
    · have hc : ¬ isCurrent x = true := by
        rw [isCurrent_iff]
        rintro (rfl | rfl)
        · exact h1 (by simp)
        · exact h2 (List.infix_refl _)
      simp [Doc.deep, Doc.withCurrent, expand_plain h1 h2, hc]
    · cases hx
  | succ n ih =>
    intro x hx e
    rcases hx with hx | ⟨h1, h2⟩ | hx
    · have h3 : expand ('.' :: cls) x = '.' :: cls := by
        rcases isCurrent_iff.1 hx with rfl | rfl
        · exact expand_amp _
        · rw [show c! ":root" = c! ":root" ++ [] from rfl, expand_root]
          simp [expand]
      have h4 : asCall x = none := by rcases isCurrent_iff.1 hx with rfl | rfl <;> decide
      rw [h3, deep_meets_none F _ _ (class_no_call hcls), deep_meets_none F _ _ h4]
      simp [Doc.withCurrent, hx]
    · rw [expand_plain h1 h2]
      refine deep_same F (D := D) (E := D.withCurrent cls) rfl rfl (fun x => '&' ∉ x ∧ ¬ c! ":root" <:+: x) ?_ ?_ _ x ⟨h1, h2⟩ e
      · rintro x y ⟨h3, h4⟩ h5
        exact ⟨fun h => h3 (h5.subset h), fun h => h4 (h.trans h5)⟩
      · rintro x ⟨h3, h4⟩ e
        have hc : ¬ isCurrent x = true := by
          rw [isCurrent_iff]
          rintro (rfl | rfl)
          · exact h3 (by simp)
          · exact h4 (List.infix_refl _)
        simp [Doc.withCurrent, hc]
    · simp only [innerOk] at hx
      split at hx
      · rename_i f arg hc
        simp only [Bool.and_eq_true, decide_eq_true_eq, List.all_eq_true] at hx
        obtain ⟨⟨h1, h2, h3⟩, h4⟩ := hx
        obtain ⟨h5, h6⟩ := asCall_eq hc
        have h7 : asCall (expand ('.' :: cls) x) = some (f, expand ('.' :: cls) arg) := by
          rw [h5, expand_call h2 h3]
          exact asCall_mk h6
        simp only [Doc.deep, h7, hc, h1, if_true]
        have h8 := list_grow hcls arg.length arg (Nat.le_refl _) [] (.out 0) (cut_nil _) trivial
        have h8 : selectorList [] (.out 0) (expand ('.' :: cls) arg) = _ := h8
        rw [h8]
        have h9 : ∀ s ∈ selectorList [] (.out 0) arg, ∃ ps, pieces [] (.out 0) s = some ps ∧
            currentOkIn (innerOk F.takes n) ps = true := by
          intro s hs
          have h9 := h4 s hs
          cases hps : pieces [] (.out 0) s with
          | none => rw [hps] at h9; cases h9
          | some ps => rw [hps] at h9; exact ⟨ps, rfl, h9⟩
        refine holds_same F f (by rw [deep_parent, deep_parent]; rfl) (by rw [deep_previous, deep_previous]; rfl)
          (growStep ('.' :: cls)) (expand ('.' :: cls)) (fun _ => rfl) (fun _ => rfl) _ _ (fun s hs => ?_)
          (fun s hs r hr y hy e => ?_) e
        · obtain ⟨ps, hps, h9⟩ := h9 s hs
          exact (read_grow hcls (innerOk_calls F.takes n) hps h9).2
        · obtain ⟨ps, hps, h9⟩ := h9 s hs
          obtain ⟨ps', h10, h11⟩ := read_mem hr hy
          rw [hps] at h10
          cases h10
          exact ih y (okIn_mem h9 y h11) e
      · cases hx

/-- What a printed selector matches. -/
theorem means_deep (F : Funcs El) (n : Nat) {cls s : Str} (hcls : CleanClass cls) (hs : NestedSelector F.takes n s)
    (D : Doc El) (e : El) : (D.deep F n).Matches (scopeSelector (some cls) s) e ↔ D.MeansDeep F n cls s e := by
  obtain ⟨hne, hw, hok⟩ := hs
  cases hps : pieces [] (.out 0) s with
  | none => rw [hps] at hok; cases hok
  | some ps =>
    rw [hps] at hok
    have hok : currentOkIn (innerOk F.takes n) ps = true := hok
    unfold Doc.MeansDeep
    by_cases hm : ('&' ∈ s ∨ c! ":root" <:+: s)
    · rw [if_pos hm]
      have : scopeSelector (some cls) s = expand ('.' :: cls) s := by
        unfold scopeSelector; dsimp only; rw [if_pos hm]
      rw [this]
      refine matches_same (by rw [deep_parent, deep_parent]; rfl) (by rw [deep_previous, deep_previous]; rfl)
        (growStep ('.' :: cls)) (expand ('.' :: cls)) (fun _ => rfl) (fun _ => rfl)
        (read_grow hcls (innerOk_calls F.takes n) hps hok).2 (fun r hr y hy e => ?_) e
      obtain ⟨ps', h10, h11⟩ := read_mem hr hy
      rw [hps] at h10
      cases h10
      exact meets_grow F D hcls n y (okIn_mem hok y h11) e
    · rw [if_neg hm]
      have hcur : ∀ x, .simple x ∈ ps → ¬ isCurrent x = true := by
        intro x hx h
        have := pieces_infix _ _ _ _ hps x hx
        rw [List.nil_append] at this
        rcases isCurrent_iff.1 h with rfl | rfl
        · exact hm (.inl (this.subset (by simp)))
        · exact hm (.inr this)
      have hplain : SelectorOk s := by
        refine ⟨ps, hps, ?_⟩
        have hinf : ∀ x, .simple x ∈ ps → x <:+: s := by
          intro x hx
          have := pieces_infix _ _ _ _ hps x hx
          rwa [List.nil_append] at this
        rename_i hok0
        clear hok hok0 hps
        induction ps with
        | nil => rfl
        | cons p ps ih =>
          have ih' := ih (fun x hx => hcur x (List.mem_cons_of_mem _ hx)) (fun x hx => hinf x (List.mem_cons_of_mem _ hx))
          cases p with
          | simple x =>
            have h1 := hinf x (by simp)
            have h2 : x ≠ ['&'] := by
              rintro rfl
              exact hm (.inl (h1.subset (by simp)))
            simp only [currentOk, Bool.and_eq_true, Bool.or_eq_true, decide_eq_true_eq]
            refine ⟨⟨.inr ⟨fun h => hm (.inl (h1.subset h)), fun h => hm (.inr (h.trans h1))⟩, .inl ?_⟩, ih'⟩
            simpa using h2
          | space => exact ih'
          | mark k => exact ih'
      have h1 := means hcls hplain hne (fun c hc => (hw c hc).1) (D.deep F n) e
      have h2 : ¬ mentionsCurrent s = true := by
        rw [mentions_iff hps]
        rintro ⟨x, hx, hx'⟩
        exact hcur x hx hx'
      rw [h1]
      unfold Doc.Means
      rw [if_neg h2]
      simp only [deep_meets_none F D n (class_no_call hcls)]

theorem printed_deep (takes : Str → Bool) (n : Nat) {cls s : Str} (hcls : CleanClass cls) (hs : NestedSelector takes n s) :
    ∃ ps, pieces [] (.out 0) (scopeSelector (some cls) s) = some ps := by
  obtain ⟨-, -, hok⟩ := hs
  cases hps : pieces [] (.out 0) s with
  | none => rw [hps] at hok; cases hok
  | some ps =>
    rw [hps] at hok
    have hok : currentOkIn (innerOk takes n) ps = true := hok
    unfold scopeSelector
    dsimp only
    split
    · exact ⟨_, (read_grow hcls (innerOk_calls takes n) hps hok).1⟩
    · split
      · rename_i hcol
        cases s with
        | nil => cases hcol
        | cons c s =>
          have : c = ':' := by simpa using hcol
          subst this
          have e : ∀ acc, acc ≠ [':'] → pieces acc (.out 0) (':' :: s) = (pieces [':'] (.out 0) s).map (flush acc) := by
            intro acc ha
            simp only [pieces]
            simp [cssSpace, combOf, At.next, opensSimple, ha]
          rw [e _ (by simp)] at hps
          obtain ⟨ps', h1, -⟩ := Option.map_eq_some_iff.1 hps
          rw [pieces_cls hcls, e _ (by simp), h1]
          exact ⟨_, rfl⟩
      · rw [pieces_cls hcls]
        have : pieces ('.' :: cls) (.out 0) (' ' :: s) =
            (pieces [] (.out 0) s).map (fun ps => flush ('.' :: cls) (.space :: ps)) := by
          simp [pieces, cssSpace]
        rw [this, hps]
        exact ⟨_, rfl⟩

/-! ## Global styles -/

theorem expandAmp_append (cur : Str) : ∀ (a b : Str), expandAmp cur (a ++ b) = expandAmp cur a ++ expandAmp cur b
  | [], b => rfl
  | c :: a, b => by
    by_cases hc : c = '&'
    · subst hc
      rw [List.cons_append, expandAmp, expandAmp, expandAmp_append cur a b, List.append_assoc]
    · rw [List.cons_append, expandAmp_cons hc, expandAmp_cons hc, expandAmp_append cur a b]
      rfl

theorem expandAmp_plain {cur : Str} : ∀ {s : Str}, '&' ∉ s → expandAmp cur s = s
  | [], _ => rfl
  | c :: s, h1 => by
    rw [expandAmp_cons (fun h => h1 (by simp [h])), expandAmp_plain (fun h => h1 (by simp [h]))]

theorem expandAmp_eq_nil {acc : Str} : expandAmp (c! ":root") acc = [] ↔ acc = [] := by
  cases acc with
  | nil => simp [expandAmp]
  | cons c s =>
    by_cases hamp : c = '&'
    · subst hamp; rw [expandAmp]; simp
    · rw [expandAmp_cons hamp]; simp

theorem expandAmp_colon {acc : Str} : expandAmp (c! ":root") acc = [':'] ↔ acc = [':'] := by
  cases acc with
  | nil => simp [expandAmp]
  | cons c s =>
    by_cases hamp : c = '&'
    · subst hamp; rw [expandAmp]; simp
    · rw [expandAmp_cons hamp]
      simp only [List.cons.injEq]
      rw [expandAmp_eq_nil]

/-- `&` replaced by `:root` everywhere in simple selectors. -/
def growAmp : SelPiece → SelPiece
  | .simple x => .simple (expandAmp (c! ":root") x)
  | p => p

/-- What simple selectors with selectors in brackets look like. -/
def CallsAmp (inner : Str → Bool) : Prop := ∀ x, inner x = true → ∃ f arg, x = f ++ '(' :: arg

theorem ampIn_tail {inner : Str → Bool} {p : SelPiece} {ps : List SelPiece} (h : ampOkIn inner (p :: ps) = true) :
    ampOkIn inner ps = true := by
  cases p <;> simp_all [ampOkIn]

theorem ampIn_flush {inner : Str → Bool} {acc : Str} {ps : List SelPiece} (h : ampOkIn inner (flush acc ps) = true) :
    ampOkIn inner ps = true := by
  unfold flush at h
  split at h
  · exact h
  · exact ampIn_tail h

theorem ampIn_simple {inner : Str → Bool} {x : Str} {ps : List SelPiece} (h : ampOkIn inner (.simple x :: ps) = true) :
    x = ['&'] ∨ ('&' ∉ x ∧ x ≠ [':']) ∨ inner x = true := by
  simp only [ampOkIn, Bool.and_eq_true, Bool.or_eq_true, decide_eq_true_eq] at h
  rcases h.1.1 with (h | h) | h
  · exact .inl (by simpa using h)
  · exact .inr (.inl (by simpa using h))
  · exact .inr (.inr h)

theorem ampIn_pre {inner : Str → Bool} {pre ps : List SelPiece} (h : pre = [] ∨ pre = [.space] ∨ ∃ k, pre = [.mark k])
    (hok : ampOkIn inner (pre ++ ps) = true) : ampOkIn inner ps = true := by
  rcases h with rfl | rfl | ⟨k, rfl⟩
  · exact hok
  · exact ampIn_tail hok
  · exact ampIn_tail hok

theorem growAmp_flush {acc : Str} (ps : List SelPiece) :
    (flush acc ps).map growAmp = flush (expandAmp (c! ":root") acc) (ps.map growAmp) := by
  unfold flush
  by_cases h : acc = []
  · rw [if_pos h, if_pos (expandAmp_eq_nil.2 h)]
  · rw [if_neg h, if_neg (fun h' => h (expandAmp_eq_nil.1 h'))]
    rfl

theorem growAmp_pre {pre : List SelPiece} (h : pre = [] ∨ pre = [.space] ∨ ∃ k, pre = [.mark k]) :
    pre.map growAmp = pre := by
  rcases h with rfl | rfl | ⟨k, rfl⟩ <;> rfl

/-- Replacing `&` in the text replaces it in the pieces, in brackets too. -/
theorem pieces_growAmp {inner : Str → Bool} (hin : CallsAmp inner) : ∀ (s : Str),
    (∀ acc q ps, pieces acc q s = some ps → ampOkIn inner ps = true → BrowserP.QuoteOk q → (q ≠ .out 0 → acc ≠ []) →
      pieces (expandAmp (c! ":root") acc) q (expandAmp (c! ":root") s) = some (ps.map growAmp)) ∧
    (∀ ps, pieces [] (.out 0) s = some ps → ampOkIn inner (.simple ['&'] :: ps) = true →
      pieces (c! ":root") (.out 0) (expandAmp (c! ":root") s) = some (.simple (c! ":root") :: ps.map growAmp)) := by
  intro s
  induction s with
  | nil =>
    refine ⟨?_, ?_⟩
    · intro acc q ps h hok hquote _
      simp only [pieces] at h
      split at h
      · rename_i hq
        cases h
        rw [growAmp_flush, expandAmp, pieces, if_pos hq]
        rfl
      · cases h
    · intro ps h hok
      simp only [pieces, if_pos, flush] at h
      cases h
      simp [expandAmp, pieces, flush]
  | cons c s ih =>
    by_cases hamp : c = '&'
    · subst hamp
      have hout : ∀ acc, pieces acc (.out 0) ('&' :: s) =
          (pieces [] (.out 0) s).map (fun ps => flush acc (.simple ['&'] :: ps)) := by
        intro acc; simp [pieces, cssSpace]
      have hexp : expandAmp (c! ":root") ('&' :: s) = c! ":root" ++ expandAmp (c! ":root") s := by rw [expandAmp]
      have hg : growAmp (.simple ['&']) = .simple (c! ":root") := by simp [growAmp, expandAmp]
      refine ⟨?_, ?_⟩
      · intro acc q ps h hok hquote hne
        by_cases hq : q = .out 0
        · subst hq
          rw [hout] at h
          obtain ⟨ps', h1, rfl⟩ := Option.map_eq_some_iff.1 h
          have hcol : acc ≠ [':'] := by
            rintro rfl
            rcases ampIn_simple hok with h | h | h
            · simp at h
            · exact h.2 rfl
            · obtain ⟨f, arg, h⟩ := hin _ h
              have : '(' ∈ [':'] := by rw [h]; simp
              simp at this
          rw [hexp, pieces_root_out _ _ (fun h => hcol (expandAmp_colon.1 h)), ih.2 ps' h1 (ampIn_flush hok), growAmp_flush,
            List.map_cons, hg]
          rfl
        · rw [in_cases hq] at h
          obtain ⟨q', h1, h2⟩ := Option.bind_eq_some_iff.1 h
          have h3 := ih.1 (acc ++ ['&']) q' ps h2 hok (BrowserP.quoteOk_next hquote h1) (by simp)
          rw [expandAmp_append, show expandAmp (c! ":root") ['&'] = c! ":root" by simp [expandAmp]] at h3
          have h4 := pieces_word_in hq hquote (d := ':') (x := c! "root") (by decide) letter_root
            (expandAmp (c! ":root") acc) (expandAmp (c! ":root") s)
          rw [h1, Option.bind_some, h3] at h4
          rw [hexp]
          exact h4
      · intro ps h hok
        rw [hout] at h
        obtain ⟨ps', h1, rfl⟩ := Option.map_eq_some_iff.1 h
        rw [hexp, pieces_root_out _ _ (by simp), ih.2 ps' h1 (ampIn_tail hok)]
        simp [flush, hg]
    · rw [expandAmp_cons hamp]
      have hsing : expandAmp (c! ":root") [c] = [c] := by rw [expandAmp_cons hamp]; rfl
      have happ : ∀ acc (o : Option At) ps, o.bind (fun q' => pieces (acc ++ [c]) q' s) = some ps →
          (∀ q' ∈ o, BrowserP.QuoteOk q') → ampOkIn inner ps = true →
          o.bind (fun q' => pieces (expandAmp (c! ":root") acc ++ [c]) q' (expandAmp (c! ":root") s)) =
            some (ps.map growAmp) := by
        intro acc q ps h hquote hok
        obtain ⟨q', h1, h2⟩ := Option.bind_eq_some_iff.1 h
        rw [h1, Option.bind_some]
        have h3 := ih.1 _ _ _ h2 hok (hquote q' h1) (by simp)
        rwa [expandAmp_append, hsing] at h3
      rcases out_cases_quote c hamp with ⟨pre, acc1, q1, hpre, hacc1, hq1, hstep⟩ | ⟨hno, o, hquo, hstep⟩
      · have h1c : q1 ≠ .out 0 → acc1 ≠ [] := by
          rcases hacc1 with ⟨rfl, rfl⟩ | rfl
          · intro h; exact absurd rfl h
          · simp
        have hcont : ∀ ps, pieces acc1 q1 s = some ps → ampOkIn inner ps = true →
            pieces acc1 q1 (expandAmp (c! ":root") s) = some (ps.map growAmp) := by
          intro ps h1 h2
          have := ih.1 acc1 q1 ps h1 h2 hq1 h1c
          rcases hacc1 with ⟨rfl, -⟩ | rfl
          · exact this
          · rwa [hsing] at this
        refine ⟨?_, ?_⟩
        · intro acc q ps h hok hquote hne
          by_cases hq : q = .out 0
          · subst hq
            by_cases hcol : c = ':' ∧ acc = [':']
            · obtain ⟨rfl, rfl⟩ := hcol
              have e : ∀ t, pieces [':'] (.out 0) (':' :: t) =
                  ((At.out 0).next ':').bind (fun q' => pieces ([':'] ++ [':']) q' t) := by
                intro t
                simp only [pieces]
                simp [cssSpace, combOf, At.next, opensSimple]
              have h3 := happ [':'] _ ps (by rw [← e]; exact h)
                (fun q' h' => BrowserP.quoteOk_next (q := .out 0) (c := ':') trivial (by simpa using h')) hok
              rw [hsing] at h3 ⊢
              rw [e]; exact h3
            · rw [hstep acc _ hcol] at h
              rw [hstep _ _ (by rw [expandAmp_colon]; exact hcol)]
              obtain ⟨ps', h1, rfl⟩ := Option.map_eq_some_iff.1 h
              rw [hcont ps' h1 (ampIn_pre hpre (ampIn_flush hok)), Option.map_some, growAmp_flush, List.map_append,
                growAmp_pre hpre]
          · rw [in_cases hq] at h ⊢
            exact happ _ _ _ h (fun q' h' => BrowserP.quoteOk_next hquote (by simpa using h')) hok
        · intro ps h hok
          rw [hstep [] _ (by simp)] at h
          obtain ⟨ps', h1, rfl⟩ := Option.map_eq_some_iff.1 h
          rw [hstep (c! ":root") _ (by simp), hcont ps' h1 (ampIn_pre hpre (ampIn_flush (ampIn_tail hok))), Option.map_some]
          simp [flush, growAmp_pre hpre]
      · refine ⟨?_, ?_⟩
        · intro acc q ps h hok hquote hne
          by_cases hq : q = .out 0
          · subst hq
            rw [hstep] at h ⊢
            exact happ _ _ _ h hquo hok
          · rw [in_cases hq] at h ⊢
            exact happ _ _ _ h (fun q' h' => BrowserP.quoteOk_next hquote (by simpa using h')) hok
        · intro ps h hok
          exfalso
          rw [hstep] at h
          obtain ⟨q', -, h⟩ := Option.bind_eq_some_iff.1 h
          obtain ⟨x, r, rfl⟩ := pieces_prefix _ _ _ _ h (by simp)
          simp [ampOkIn, hno, hamp] at hok

theorem list_growAmp : ∀ (s : Str) (acc : Str) (q : At), BrowserP.QuoteOk q →
    selectorList (expandAmp (c! ":root") acc) q (expandAmp (c! ":root") s) =
      (selectorList acc q s).map (expandAmp (c! ":root")) := by
  intro s
  induction s with
  | nil => intro acc q _; simp [expandAmp, selectorList]
  | cons c s ih =>
    intro acc q hquote
    by_cases hamp : c = '&'
    · subst hamp
      have e1 : expandAmp (c! ":root") (acc ++ ['&']) = expandAmp (c! ":root") acc ++ c! ":root" := by
        rw [expandAmp_append]; simp [expandAmp]
      have e2 : expandAmp (c! ":root") (acc ++ '&' :: s) =
          expandAmp (c! ":root") acc ++ (c! ":root" ++ expandAmp (c! ":root") s) := by
        rw [expandAmp_append, expandAmp]
      have h0 := list_word hquote (d := ':') (x := c! "root") (by decide) (by decide) letter_root
        (expandAmp (c! ":root") acc) (expandAmp (c! ":root") s)
      have h0 : selectorList (expandAmp (c! ":root") acc) q (c! ":root" ++ expandAmp (c! ":root") s) = _ := h0
      rw [expandAmp, h0, selectorList, if_neg (by simp)]
      cases hn : q.next '&' with
      | none =>
        simp only [List.map_cons, List.map_nil]
        rw [e2]
      | some q' =>
        dsimp only
        rw [← ih _ _ (BrowserP.quoteOk_next hquote hn), e1]
    · have e1 : expandAmp (c! ":root") (acc ++ [c]) = expandAmp (c! ":root") acc ++ [c] := by
        rw [expandAmp_append, expandAmp_cons hamp]; rfl
      have e2 : expandAmp (c! ":root") (acc ++ c :: s) =
          expandAmp (c! ":root") acc ++ (c :: expandAmp (c! ":root") s) := by
        rw [expandAmp_append, expandAmp_cons hamp]
      rw [expandAmp_cons hamp, selectorList, selectorList]
      by_cases hcomma : q = .out 0 ∧ c = ','
      · rw [if_pos hcomma, if_pos hcomma, List.map_cons, ← ih [] q hquote]
        rfl
      · rw [if_neg hcomma, if_neg hcomma]
        cases hn : q.next c with
        | none => simp only [List.map_cons, List.map_nil, e2]
        | some q' =>
          dsimp only
          rw [← e1]
          exact ih _ _ (BrowserP.quoteOk_next hquote hn)

/-- The same for steps. -/
def growAmpStep : Step → Step
  | .simple x => .simple (expandAmp (c! ":root") x)
  | p => p

theorem steps_growAmp : ∀ (ps : List SelPiece) (g : Gap),
    steps g (ps.map growAmp) = (steps g ps).map (List.map growAmpStep) := by
  intro ps
  induction ps with
  | nil => intro g; cases g <;> rfl
  | cons p ps ih =>
    intro g
    cases p with
    | simple x =>
      rw [List.map_cons, show growAmp (.simple x) = .simple (expandAmp (c! ":root") x) from rfl]
      cases g <;> simp only [steps, ih] <;> cases steps .nothing ps <;> rfl
    | space =>
      rw [List.map_cons, show growAmp .space = .space from rfl]
      cases g <;> simp only [steps, ih]
    | mark k =>
      rw [List.map_cons, show growAmp (.mark k) = .mark k from rfl]
      cases g <;> simp only [steps, ih, Option.map_none]

theorem innerAmpOk_calls (takes : Str → Bool) : ∀ n, CallsAmp (innerAmpOk takes n)
  | 0 => by intro x h; cases h
  | n + 1 => by
    intro x h
    simp only [innerAmpOk] at h
    split at h
    · rename_i f arg hc
      exact ⟨f, arg ++ [')'], (asCall_eq hc).1⟩
    · cases h

theorem ampIn_mem {inner : Str → Bool} : ∀ {ps : List SelPiece}, ampOkIn inner ps = true → ∀ x, .simple x ∈ ps →
    x = ['&'] ∨ '&' ∉ x ∨ inner x = true
  | [], _, x, hx => by cases hx
  | p :: ps, h, x, hx => by
    rcases List.mem_cons.1 hx with h1 | h1
    · subst h1
      rcases ampIn_simple h with h | h | h
      · exact .inl h
      · exact .inr (.inl h.1)
      · exact .inr (.inr h)
    · exact ampIn_mem (ampIn_tail h) x h1

theorem read_growAmp {inner : Str → Bool} (hin : CallsAmp inner) {s : Str}
    {ps : List SelPiece} (hps : pieces [] (.out 0) s = some ps) (hok : ampOkIn inner ps = true) :
    pieces [] (.out 0) (expandAmp (c! ":root") s) = some (ps.map growAmp) ∧
    readSelector (expandAmp (c! ":root") s) = (readSelector s).map (List.map growAmpStep) := by
  have h1 := (pieces_growAmp hin s).1 [] (.out 0) ps hps hok trivial (by simp)
  have h1 : pieces [] (.out 0) (expandAmp (c! ":root") s) = some (ps.map growAmp) := h1
  refine ⟨h1, ?_⟩
  rw [readSelector, readSelector, h1, hps]
  exact steps_growAmp _ _

theorem meets_growAmp (F : Funcs El) (D : Doc El) : ∀ (n : Nat) (x : Str),
    (x = ['&'] ∨ '&' ∉ x ∨ innerAmpOk F.takes n x = true) → ∀ e,
    (D.deep F n).meets e (expandAmp (c! ":root") x) ↔ (D.withRoot.deep F n).meets e x := by
  have hamp : ∀ n e, (D.deep F n).meets e (expandAmp (c! ":root") ['&']) ↔ (D.withRoot.deep F n).meets e ['&'] := by
    intro n e
    have h3 : expandAmp (c! ":root") ['&'] = c! ":root" := by simp [expandAmp]
    rw [h3, deep_meets_none F _ _ (by decide), deep_meets_none F _ _ (by decide)]
    simp [Doc.withRoot]
  have hplain : ∀ n x, '&' ∉ x → ∀ e, (D.deep F n).meets e (expandAmp (c! ":root") x) ↔ (D.withRoot.deep F n).meets e x := by
    intro n x h1 e
    rw [expandAmp_plain h1]
    refine deep_same F (D := D) (E := D.withRoot) rfl rfl (fun x => '&' ∉ x) ?_ ?_ _ x h1 e
    · intro x y h3 h5 h
      exact h3 (h5.subset h)
    · intro x h3 e
      have hc : x ≠ ['&'] := by rintro rfl; simp at h3
      simp [Doc.withRoot, hc]
  intro n
  induction n with
  | zero =>
    rintro x (rfl | h1 | hx) e
    · exact hamp 0 e
    · exact hplain 0 x h1 e
    · cases hx
  | succ n ih =>
    rintro x (rfl | h1 | hx) e
    · exact hamp _ e
    · exact hplain _ x h1 e
    · simp only [innerAmpOk] at hx
      split at hx
      · rename_i f arg hc
        simp only [Bool.and_eq_true, decide_eq_true_eq, List.all_eq_true] at hx
        obtain ⟨⟨h1, h2⟩, h4⟩ := hx
        obtain ⟨h5, h6⟩ := asCall_eq hc
        have h7 : asCall (expandAmp (c! ":root") x) = some (f, expandAmp (c! ":root") arg) := by
          rw [h5, expandAmp_append, expandAmp_plain h2, expandAmp_cons (by decide), expandAmp_append,
            expandAmp_plain (s := [')']) (by decide)]
          exact asCall_mk h6
        simp only [Doc.deep, h7, hc, h1, if_true]
        have h8 := list_growAmp arg [] (.out 0) trivial
        have h8 : selectorList [] (.out 0) (expandAmp (c! ":root") arg) = _ := h8
        rw [h8]
        have h9 : ∀ s ∈ selectorList [] (.out 0) arg, ∃ ps, pieces [] (.out 0) s = some ps ∧
            ampOkIn (innerAmpOk F.takes n) ps = true := by
          intro s hs
          have h9 := h4 s hs
          cases hps : pieces [] (.out 0) s with
          | none => rw [hps] at h9; cases h9
          | some ps => rw [hps] at h9; exact ⟨ps, rfl, h9⟩
        refine holds_same F f (by rw [deep_parent, deep_parent]; rfl) (by rw [deep_previous, deep_previous]; rfl)
          growAmpStep (expandAmp (c! ":root")) (fun _ => rfl) (fun _ => rfl) _ _ (fun s hs => ?_)
          (fun s hs r hr y hy e => ?_) e
        · obtain ⟨ps, hps, h9⟩ := h9 s hs
          exact (read_growAmp (innerAmpOk_calls F.takes n) hps h9).2
        · obtain ⟨ps, hps, h9⟩ := h9 s hs
          obtain ⟨ps', h10, h11⟩ := read_mem hr hy
          rw [hps] at h10
          cases h10
          exact ih y (ampIn_mem h9 y h11) e
      · cases hx

/-- What a printed selector of a global style matches. -/
theorem means_deep_global (F : Funcs El) (n : Nat) {s : Str} (hs : NestedGlobalSelector F.takes n s)
    (D : Doc El) (e : El) :
    (∃ ps, pieces [] (.out 0) (scopeSelector none s) = some ps) ∧
    ((D.deep F n).Matches (scopeSelector none s) e ↔ (D.withRoot.deep F n).Matches s e) := by
  obtain ⟨hne, hw, hok⟩ := hs
  cases hps : pieces [] (.out 0) s with
  | none => rw [hps] at hok; cases hok
  | some ps =>
    rw [hps] at hok
    have hok : ampOkIn (innerAmpOk F.takes n) ps = true := hok
    obtain ⟨h1, h2⟩ := read_growAmp (innerAmpOk_calls F.takes n) hps hok
    refine ⟨⟨_, h1⟩, ?_⟩
    refine matches_same (by rw [deep_parent, deep_parent]; rfl) (by rw [deep_previous, deep_previous]; rfl)
      growAmpStep (expandAmp (c! ":root")) (fun _ => rfl) (fun _ => rfl) h2 (fun r hr y hy e => ?_) e
    obtain ⟨ps', h10, h11⟩ := read_mem hr hy
    rw [hps] at h10
    cases h10
    exact meets_growAmp F D n y (ampIn_mem hok y h11) e

/-! ## Lists of printed selectors -/

/-- Which elements a printed list matches. -/
theorem list_matches (D : Doc El) (e : El) (w : Str → Str) (M : Str → Prop) (sels : List Selector)
    (hp : ∀ s ∈ sels, ∃ ps, pieces [] (.out 0) (w s.flatten) = some ps)
    (hm : ∀ s ∈ sels, D.Matches (w s.flatten) e ↔ M s.flatten) (hne : sels ≠ []) :
    (∃ s ∈ selectorList [] (.out 0) (Str.join (c! ", ") (sels.map (fun s => w s.flatten))), D.Matches s e) ↔
      ∃ s ∈ sels, M s.flatten := by
  cases sels with
  | nil => exact absurd rfl hne
  | cons s l =>
    rw [list_join _ (by
      intro t ht
      obtain ⟨s, hs', rfl⟩ := List.mem_map.1 ht
      exact hp s hs') (by simp)]
    simp only [List.map_cons, List.nil_append, List.mem_cons, List.mem_map, exists_eq_or_imp]
    constructor
    · rintro (h | ⟨t, ⟨u, ⟨s', h1, rfl⟩, rfl⟩, h2⟩)
      · exact .inl ((hm s (by simp)).1 h)
      · rw [matches_space] at h2
        exact .inr ⟨s', h1, (hm s' (by simp [h1])).1 h2⟩
    · rintro (h | ⟨s', h1, h2⟩)
      · exact .inl ((hm s (by simp)).2 h)
      · exact .inr ⟨_, ⟨_, ⟨s', h1, rfl⟩, rfl⟩, (matches_space _ _ _).2 ((hm s' (by simp [h1])).2 h2)⟩

/-! ## The depth does not matter -/

/-- A depth that is at least the length of the text is as good as any other. -/
theorem deep_stable (F : Funcs El) (D : Doc El) : ∀ (n m : Nat) (x : Str), x.length ≤ n → x.length ≤ m → ∀ e,
    (D.deep F n).meets e x ↔ (D.deep F m).meets e x := by
  intro n
  induction n with
  | zero =>
    intro m x h1 h2 e
    have : x = [] := List.length_eq_zero_iff.1 (by omega)
    subst this
    rw [deep_meets_none F D _ (by rfl), deep_meets_none F D _ (by rfl)]
  | succ n ih =>
    intro m x h1 h2 e
    cases hc : asCall x with
    | none => rw [deep_meets_none F D _ hc, deep_meets_none F D _ hc]
    | some p =>
      obtain ⟨f, arg⟩ := p
      have h3 := (asCall_eq hc).1
      have hl : arg.length + 2 ≤ x.length := by
        rw [h3]; simp
      cases m with
      | zero => omega
      | succ m =>
        simp only [Doc.deep, hc]
        split
        · have key := holds_same F f (D := D.deep F n) (E := D.deep F m) (by rw [deep_parent, deep_parent])
            (by rw [deep_previous, deep_previous]) id id (fun _ => rfl) (fun _ => rfl) id (selectorList [] (.out 0) arg)
            (by simp) (fun s hs r hr y hy e => ?_) e
          · rwa [List.map_id] at key
          obtain ⟨ps, h4, h5⟩ := read_mem hr hy
          have h6 := (pieces_infix _ _ _ _ h4 y h5).length_le
          have h7 := (list_infix _ _ _ s hs).length_le
          rw [List.nil_append] at h6 h7
          exact ih m y (by omega) (by omega) e
        · rfl

end SelectP
