import Verif.Spec.Macro
import Verif.Proofs.Nom

/-! # Splitting of texts into fragments -/

namespace Literal
open Spec Nom NomP

/-- The head of a text is not in a class. -/
def Stop (f : Char → Bool) (r : Str) : Prop := ∀ c s, r = c :: s → f c = false

theorem span_stop (f : Char → Bool) : ∀ (x r : Str), (∀ c ∈ x, f c = true) → Stop f r →
    (x ++ r).takeWhile f = x ∧ (x ++ r).dropWhile f = r
  | [], r, _, hr => by
    cases r with
    | nil => simp
    | cons c s => simp [hr c s rfl]
  | c :: x, r, hx, hr => by
    have h := span_stop f x r (fun d hd => hx d (by simp [hd])) hr
    have hc : f c = true := hx c (by simp)
    simp [hc, h.1, h.2]

theorem stop_dropWhile (f : Char → Bool) : ∀ i : Str, Stop f (i.dropWhile f)
  | [] => by intro c s h; simp at h
  | a :: i => by
    intro c s h
    cases ha : f a with
    | true => rw [List.dropWhile_cons_of_pos ha] at h; exact stop_dropWhile f i c s h
    | false =>
      rw [List.dropWhile_cons_of_neg (by simp [ha])] at h
      cases h; exact ha

theorem mem_takeWhile (f : Char → Bool) : ∀ (i : Str), ∀ c ∈ i.takeWhile f, f c = true
  | [], c, h => by simp at h
  | a :: i, c, h => by
    cases ha : f a with
    | true =>
      rw [List.takeWhile_cons_of_pos ha] at h
      rcases List.mem_cons.1 h with h | h
      · subst h; exact ha
      · exact mem_takeWhile f i c h
    | false => rw [List.takeWhile_cons_of_neg (by simp [ha])] at h; cases h

theorem takeWhile1_span {f : Char → Bool} {x r : Str} (hx : x ≠ []) (h : ∀ c ∈ x, f c = true)
    (hr : Stop f r) : takeWhile1 f (x ++ r) = some (r, x) := by
  have hs := span_stop f x r h hr
  unfold takeWhile1
  rw [hs.1, hs.2]
  cases x with
  | nil => exact absurd rfl hx
  | cons => rfl

theorem takeWhile1_spec {f : Char → Bool} {i r t : Str} (h : takeWhile1 f i = some (r, t)) :
    i = t ++ r ∧ t ≠ [] ∧ (∀ c ∈ t, f c = true) ∧ Stop f r := by
  unfold takeWhile1 at h
  split at h
  · simp at h
  · rename_i t' ht
    simp only [Option.some.injEq, Prod.mk.injEq] at h
    obtain ⟨h1, h2⟩ := h
    subst h1; subst h2
    refine ⟨(List.takeWhile_append_dropWhile).symm, ht, mem_takeWhile f i, stop_dropWhile f i⟩

theorem take_front (a r : Str) : (a ++ r).take ((a ++ r).length - r.length) = a := by
  rw [show (a ++ r).length - r.length = a.length by simp]
  exact List.take_left

/-! ## Names -/

/-- Characters of names after the first. -/
def nameChar (c : Char) : Bool := isAlnum c || c == '_'

/-- A piece of a name after its first letters. -/
abbrev namePiece : Parser Str := alt alphanumeric1 (tag (c! "_"))

theorem suff_namePiece : Suff namePiece := suff_alt (suff_takeWhile1 _) (suff_tag _)
theorem prog_namePiece : Prog namePiece := prog_alt (prog_takeWhile1 _) (prog_tag (by simp))

theorem namePiece_spec {i r a : Str} (h : namePiece i = some (r, a)) :
    i = a ++ r ∧ ∀ c ∈ a, nameChar c = true := by
  rcases alt_some.1 h with h | ⟨_, h⟩
  · obtain ⟨h1, _, h2, _⟩ := takeWhile1_spec h
    exact ⟨h1, fun c hc => by simp [nameChar, h2 c hc]⟩
  · obtain ⟨h1, h2⟩ := tag_some.1 h
    subst h2
    exact ⟨h1, fun c hc => by simp at hc; subst hc; decide⟩

theorem namePiece_stop {i : Str} (h : namePiece i = none) : Stop nameChar i := by
  intro c s hi
  subst hi
  obtain ⟨h1, h2⟩ := alt_none.1 h
  have ha : isAlnum c = false := by
    cases hc : isAlnum c with
    | false => rfl
    | true => simp [alphanumeric1, takeWhile1, List.takeWhile, hc] at h1
  have hu : c ≠ '_' := by
    intro hc; subst hc; simp [tag] at h2
  simp [nameChar, ha, hu]

theorem many_name : ∀ (n : Nat) (i : Str), i.length ≤ n → ∃ as,
    many0 namePiece i = some (i.dropWhile nameChar, as) := by
  intro n
  induction n with
  | zero =>
    intro i hi
    have : i = [] := by cases i with | nil => rfl | cons => simp at hi
    subst this
    exact ⟨[], many0_stop suff_namePiece (by decide)⟩
  | succ n ih =>
    intro i hi
    cases hp : namePiece i with
    | none =>
      refine ⟨[], ?_⟩
      rw [many0_stop suff_namePiece hp]
      have hs := namePiece_stop hp
      cases i with
      | nil => rfl
      | cons c s => rw [List.dropWhile_cons_of_neg (by simp [hs c s rfl])]
    | some x =>
      obtain ⟨r, a⟩ := x
      obtain ⟨h1, h2⟩ := namePiece_spec hp
      have hl := prog_namePiece i r a hp
      obtain ⟨as, has⟩ := ih r (by omega)
      refine ⟨a :: as, ?_⟩
      rw [many0_step suff_namePiece prog_namePiece hp, has]
      subst h1
      simp only
      congr 2
      exact (List.dropWhile_append_of_pos h2).symm

theorem argName_span {n r : Str} (hn : ArgName n) (hr : Stop nameChar r) : argName (n ++ r) = some (r, n) := by
  cases n with
  | nil => exact absurd hn (by simp [ArgName])
  | cons c s =>
    obtain ⟨hc, hs⟩ := hn
    have hx : ∃ x y, c :: s = x ++ y ∧ x ≠ [] ∧ (∀ d ∈ x, isAlpha d = true) ∧ Stop isAlpha (y ++ r) ∧
        ∀ d ∈ y, nameChar d = true := by
      refine ⟨(c :: s).takeWhile isAlpha, (c :: s).dropWhile isAlpha,
        (List.takeWhile_append_dropWhile).symm, ?_, mem_takeWhile _ _, ?_, ?_⟩
      · rw [List.takeWhile_cons_of_pos hc]; simp
      · intro d t hd
        cases hy : (c :: s).dropWhile isAlpha with
        | nil =>
          rw [hy] at hd
          have := hr d t (by simpa using hd)
          simp only [nameChar, isAlnum, Bool.or_eq_false_iff] at this
          exact this.1.1
        | cons e u =>
          have := stop_dropWhile isAlpha (c :: s) e u hy
          rw [hy] at hd
          cases hd; exact this
      · intro d hd
        have hm : d ∈ c :: s := (List.dropWhile_sublist _).mem hd
        rcases List.mem_cons.1 hm with rfl | hm
        · simp [nameChar, isAlnum, hc]
        · rcases hs d hm with h | h
          · simp [nameChar, h]
          · simp [nameChar, h]
    obtain ⟨x, y, hxy, hx0, hxa, hst, hy⟩ := hx
    rw [hxy, List.append_assoc]
    obtain ⟨as, has⟩ := many_name (y ++ r).length (y ++ r) (Nat.le_refl _)
    rw [(span_stop nameChar y r hy hr).2] at has
    unfold argName
    refine recognize_some.2 ?_
    refine ⟨as, ?_, ?_⟩
    · refine preceded_some.2 ⟨y ++ r, x, takeWhile1_span hx0 hxa hst, has⟩
    · rw [← List.append_assoc, take_front]

theorem argName_spec {i r n : Str} (h : argName i = some (r, n)) : i = n ++ r ∧ ArgName n ∧ Stop nameChar r := by
  unfold argName at h
  obtain ⟨as, h1, h2⟩ := recognize_some.1 h
  obtain ⟨r1, x, hx, hm⟩ := preceded_some.1 h1
  obtain ⟨e1, hx0, hxa, _⟩ := takeWhile1_spec hx
  obtain ⟨as', has⟩ := many_name r1.length r1 (Nat.le_refl _)
  rw [has] at hm
  simp only [Option.some.injEq, Prod.mk.injEq] at hm
  obtain ⟨hr, _⟩ := hm
  have e2 : r1 = r1.takeWhile nameChar ++ r := by rw [← hr]; exact (List.takeWhile_append_dropWhile).symm
  have e3 : i = (x ++ r1.takeWhile nameChar) ++ r := by rw [List.append_assoc, ← e2, e1]
  have hn : n = x ++ r1.takeWhile nameChar := by
    rw [h2, e3, take_front]
  refine ⟨by rw [hn]; exact e3, ?_, by rw [← hr]; exact stop_dropWhile _ _⟩
  rw [hn]
  cases x with
  | nil => exact absurd rfl hx0
  | cons c s =>
    refine ⟨hxa c (by simp), ?_⟩
    intro d hd
    rcases List.mem_append.1 hd with hd | hd
    · left; simp [isAlnum, hxa d (by simp [hd])]
    · have := mem_takeWhile nameChar r1 d hd
      simp only [nameChar, Bool.or_eq_true, beq_iff_eq] at this
      exact this

/-! ## Blanks -/

/-- Spaces characters. -/
def blank (c : Char) : Bool := (c! " \t\r\n").elem c

theorem sp_opt (i : Str) : ∃ o, opt sp i = some (i.dropWhile blank, o) := by
  cases i with
  | nil => exact ⟨none, rfl⟩
  | cons c s => exact ⟨_, rfl⟩

theorem trimmed_some {α : Type} {p : Parser α} {i r : Str} {a : α} :
    trimmed p i = some (r, a) ↔ ∃ r1, p (i.dropWhile blank) = some (r1, a) ∧ r = r1.dropWhile blank := by
  unfold trimmed
  obtain ⟨o, ho⟩ := sp_opt i
  constructor
  · intro h
    obtain ⟨r1, _, r2, _, h1, h2, h3⟩ := delimited_some.1 h
    rw [ho] at h1; cases h1
    obtain ⟨o2, ho2⟩ := sp_opt r2
    rw [ho2] at h3
    cases h3
    exact ⟨r2, h2, rfl⟩
  · rintro ⟨r1, h1, rfl⟩
    obtain ⟨o2, ho2⟩ := sp_opt r1
    exact delimited_some.2 ⟨_, o, r1, o2, ho, h1, ho2⟩

theorem blank_iff {s : Str} : Spaces s ↔ ∀ c ∈ s, blank c = true := by
  simp [Spaces, blank]

theorem alpha_not_blank {c : Char} (h : isAlpha c = true) : blank c = false := by
  cases hb : blank c with
  | false => rfl
  | true =>
    simp only [blank, List.elem_eq_mem, decide_eq_true_eq] at hb
    simp at hb
    rcases hb with rfl | rfl | rfl | rfl <;> exact absurd h (by decide)

theorem blank_not_name {c : Char} (h : blank c = true) : nameChar c = false := by
  simp only [blank, List.elem_eq_mem, decide_eq_true_eq] at h
  simp at h
  rcases h with rfl | rfl | rfl | rfl <;> decide

/-! ## One fragment -/

/-- The text after a run does not continue the run. -/
def After : Piece → Str → Prop
  | .run _, r => Stop (fun c => !(c! "${").elem c) r
  | _, _ => True

theorem fragment_piece {p : Piece} (hp : p.Ok) {r : Str} (hr : After p r) :
    fragment (p.text ++ r) = .ok r p.frag := by
  cases p with
  | escape => simp [fragment, Piece.text, Piece.frag, tag]
  | run s =>
    obtain ⟨h0, h1, h2⟩ := hp
    have hall : ∀ c ∈ s, (!(c! "${").elem c) = true := by
      intro c hc
      simp only [Bool.not_eq_true', List.elem_eq_mem, decide_eq_false_iff_not]
      simp only [List.mem_cons, List.not_mem_nil, or_false, not_or]
      exact ⟨fun e => h1 (e ▸ hc), fun e => h2 (e ▸ hc)⟩
    have ht : tag (c! "$${") (s ++ r) = none := by
      refine tag_none.2 ?_
      intro hpre
      cases s with
      | nil => exact h0 rfl
      | cons c s' =>
        simp only [List.cons_append, List.cons_prefix_cons] at hpre
        exact h1 (by rw [hpre.1]; simp)
    have hl : isNot (c! "${") (s ++ r) = some (r, s) := takeWhile1_span h0 hall hr
    have hne : (s ++ r).isEmpty = false := by cases s with | nil => exact absurd rfl h0 | cons => rfl
    simp only [fragment, Piece.text, ht, literal, hne, hl, Piece.frag]
    rfl
  | hole b n a =>
    obtain ⟨hb, hn, ha⟩ := hp
    rw [blank_iff] at hb ha
    have hi : (Piece.hole b n a).text ++ r = '$' :: '{' :: (b ++ (n ++ (a ++ ('}' :: r)))) := by
      simp [Piece.text]
    rw [hi]
    have h1 : (b ++ (n ++ (a ++ ('}' :: r)))).dropWhile blank = n ++ (a ++ ('}' :: r)) := by
      refine (span_stop blank b _ hb ?_).2
      intro c s hc
      cases n with
      | nil => exact absurd hn (by simp [ArgName])
      | cons d t =>
        simp only [List.cons_append, List.cons.injEq] at hc
        rw [← hc.1]; exact alpha_not_blank hn.1
    have h2 : (a ++ ('}' :: r)).dropWhile blank = '}' :: r := by
      refine (span_stop blank a _ ha ?_).2
      intro c s hc; cases hc; decide
    have h3 : argName (n ++ (a ++ ('}' :: r))) = some (a ++ ('}' :: r), n) := by
      refine argName_span hn ?_
      intro c s hc
      cases a with
      | nil => cases hc; decide
      | cons d t =>
        simp only [List.cons_append, List.cons.injEq] at hc
        rw [← hc.1]; exact blank_not_name (ha d (by simp))
    have h4 : trimmed argName (b ++ (n ++ (a ++ ('}' :: r)))) = some ('}' :: r, n) :=
      trimmed_some.2 ⟨_, by rw [h1]; exact h3, h2.symm⟩
    simp [fragment, literal, interpolation, tag, isNot, takeWhile1, List.takeWhile, h4, Piece.frag]

theorem fragment_spec {i r : Str} {f : Fragment} (h : fragment i = .ok r f) :
    ∃ p : Piece, p.Ok ∧ i = p.text ++ r ∧ f = p.frag ∧ After p r := by
  unfold fragment at h
  split at h
  · rename_i r1 x ht
    simp only [IRes.ok.injEq] at h
    obtain ⟨rfl, rfl⟩ := h
    exact ⟨.escape, trivial, (tag_some.1 ht).1, rfl, trivial⟩
  · rename_i ht
    split at h
    · rename_i r1 f1 hl
      simp only [IRes.ok.injEq] at h
      obtain ⟨rfl, rfl⟩ := h
      unfold literal at hl
      split at hl
      · cases hl
      · split at hl
        · cases hl
        · rename_i r2 m hn
          simp only [IRes.ok.injEq] at hl
          obtain ⟨rfl, rfl⟩ := hl
          obtain ⟨h1, h2, h3, h4⟩ := takeWhile1_spec hn
          refine ⟨.run m, ⟨h2, ?_, ?_⟩, h1, rfl, h4⟩
          · intro hm; exact absurd (h3 _ hm) (by decide)
          · intro hm; exact absurd (h3 _ hm) (by decide)
    · cases h
    · unfold interpolation at h
      split at h
      · cases h
      · split at h
        · cases h
        · rename_i r1 x ht1
          split at h
          · cases h
          · rename_i r2 n hn
            split at h
            · cases h
            · rename_i r3 y ht2
              simp only [IRes.ok.injEq] at h
              obtain ⟨rfl, rfl⟩ := h
              obtain ⟨r4, h4, h5⟩ := trimmed_some.1 hn
              obtain ⟨h6, h7, _⟩ := argName_spec h4
              have e1 := (tag_some.1 ht1).1
              have e2 := (tag_some.1 ht2).1
              refine ⟨.hole (r1.takeWhile blank) n (r4.takeWhile blank), ⟨?_, h7, ?_⟩, ?_, rfl, trivial⟩
              · rw [blank_iff]; exact mem_takeWhile _ _
              · rw [blank_iff]; exact mem_takeWhile _ _
              · have a1 : r1 = r1.takeWhile blank ++ r1.dropWhile blank := (List.takeWhile_append_dropWhile).symm
                have a2 : r4 = r4.takeWhile blank ++ r4.dropWhile blank := (List.takeWhile_append_dropWhile).symm
                rw [e1]
                conv => lhs; rw [a1, h6, a2, ← h5, e2]
                simp [Piece.text]

theorem Piece.text_ne {p : Piece} (hp : p.Ok) : p.text ≠ [] := by
  cases p with
  | run s => exact hp.1
  | escape => simp [Piece.text]
  | hole => simp [Piece.text]

/-! ## All fragments -/

theorem noTwoRuns_tail {p : Piece} {ps : List Piece} (h : NoTwoRuns (p :: ps)) : NoTwoRuns ps := by
  cases p with
  | run s =>
    cases ps with
    | nil => trivial
    | cons q qs =>
      cases q with
      | run t => exact absurd h (by simp [NoTwoRuns])
      | escape => exact h
      | hole => exact h
  | escape => exact h
  | hole => exact h

theorem after_of_noTwoRuns {p : Piece} {ps : List Piece} (h : NoTwoRuns (p :: ps)) :
    After p (ps.flatMap Piece.text) := by
  cases p with
  | run s =>
    intro c t hc
    cases ps with
    | nil => simp at hc
    | cons q qs =>
      cases q with
      | run t => exact absurd h (by simp [NoTwoRuns])
      | escape => simp [Piece.text] at hc; rw [← hc.1]; decide
      | hole => simp [Piece.text] at hc; rw [← hc.1]; decide
  | escape => trivial
  | hole => trivial

theorem loop_pieces : ∀ (ps : List Piece) (n : Nat), (∀ p ∈ ps, p.Ok) → NoTwoRuns ps →
    (ps.flatMap Piece.text).length < n →
    fragmentsLoop n (ps.flatMap Piece.text) = .ok [] (ps.map Piece.frag)
  | _, 0, _, _, h => by omega
  | [], n + 1, _, _, _ => by
    have : fragment [] = .error := by decide
    simp [fragmentsLoop, this]
  | p :: ps, n + 1, hok, hr, hl => by
    have hp := hok p (by simp)
    have hpos : 0 < p.text.length := List.length_pos_iff.2 (Piece.text_ne hp)
    simp only [List.flatMap_cons, List.length_append] at hl ⊢
    simp only [fragmentsLoop, fragment_piece hp (after_of_noTwoRuns hr)]
    rw [if_neg (by simp only [List.length_append]; omega),
      loop_pieces ps n (fun q hq => hok q (by simp [hq])) (noTwoRuns_tail hr) (by omega)]
    rfl

theorem loop_spec : ∀ (n : Nat) (i : Str) (fs : List Fragment), fragmentsLoop n i = .ok [] fs →
    ∃ ps : List Piece, Pieces i ps ∧ NoTwoRuns ps ∧ fs = ps.map Piece.frag
  | 0, i, fs, h => by simp [fragmentsLoop] at h
  | n + 1, i, fs, h => by
    simp only [fragmentsLoop] at h
    split at h
    · simp only [IRes.ok.injEq] at h
      obtain ⟨rfl, rfl⟩ := h
      exact ⟨[], ⟨by simp, rfl⟩, trivial, rfl⟩
    · cases h
    · rename_i r f hf
      split at h
      · cases h
      · split at h
        · rename_i r' fs' hl
          simp only [IRes.ok.injEq] at h
          obtain ⟨rfl, rfl⟩ := h
          obtain ⟨ps, ⟨h1, h2⟩, h3, h4⟩ := loop_spec n r fs' hl
          obtain ⟨p, hp, e, hfr, ha⟩ := fragment_spec hf
          refine ⟨p :: ps, ⟨?_, by rw [e, h2]; simp⟩, ?_, by simp [hfr, h4]⟩
          · intro q hq
            rcases List.mem_cons.1 hq with rfl | hq
            · exact hp
            · exact h1 q hq
          · cases p with
            | escape => exact h3
            | hole => exact h3
            | run s =>
              cases ps with
              | nil => trivial
              | cons q qs =>
                cases q with
                | escape => exact h3
                | hole => exact h3
                | run t =>
                  obtain ⟨t0, t1, t2⟩ := h1 (.run t) (by simp)
                  cases t with
                  | nil => exact absurd rfl t0
                  | cons c t' =>
                    have := ha c (t' ++ qs.flatMap Piece.text) (by rw [h2]; simp [Piece.text])
                    simp only [Bool.not_eq_false', List.elem_eq_mem, decide_eq_true_eq, List.mem_cons,
                      List.not_mem_nil, or_false] at this
                    rcases this with rfl | rfl
                    · exact absurd (by simp) t1
                    · exact absurd (by simp) t2
        · cases h
        · cases h

theorem parseFragments_iff {s : Str} {fs : List Fragment} :
    parseFragments s = some fs ↔ ∃ ps : List Piece, Pieces s ps ∧ NoTwoRuns ps ∧ fs = ps.map Piece.frag := by
  constructor
  · intro h
    unfold parseFragments at h
    split at h
    · rename_i fs' hl
      cases h
      exact loop_spec _ _ _ hl
    · cases h
  · rintro ⟨ps, ⟨h1, rfl⟩, h2, rfl⟩
    unfold parseFragments
    rw [loop_pieces ps _ h1 h2 (by omega)]

/-! ## Values -/

/-- The text of fragments once the arguments have values. -/
def fragsValue (σ : Str → Option Str) : List Fragment → Option Str
  | [] => some []
  | .literal s :: fs => (fragsValue σ fs).map (s ++ ·)
  | .interpolation n :: fs => (σ n).bind (fun v => (fragsValue σ fs).map (v ++ ·))

/-- Neighbouring runs put together. -/
def merge : List Piece → List Piece
  | [] => []
  | .run a :: ps =>
    match merge ps with
    | .run b :: qs => .run (a ++ b) :: qs
    | qs => .run a :: qs
  | p :: ps => p :: merge ps

theorem merge_noTwoRuns : ∀ ps : List Piece, NoTwoRuns (merge ps)
  | [] => trivial
  | .run a :: ps => by
    have ih := merge_noTwoRuns ps
    simp only [merge]
    split
    · rename_i b qs h
      rw [h] at ih
      cases qs with
      | nil => trivial
      | cons q qs => cases q <;> simp_all [NoTwoRuns]
    · rename_i h
      cases hm : merge ps with
      | nil => trivial
      | cons q qs =>
        cases q with
        | run b => exact absurd hm (h b qs)
        | escape => rw [hm] at ih; exact ih
        | hole => rw [hm] at ih; exact ih
  | .escape :: ps => merge_noTwoRuns ps
  | .hole _ _ _ :: ps => merge_noTwoRuns ps

theorem merge_pieces : ∀ (ps : List Piece) (s : Str), Pieces s ps → Pieces s (merge ps)
  | [], s, h => h
  | p :: ps, s, ⟨h1, h2⟩ => by
    obtain ⟨i1, i2⟩ := merge_pieces ps (ps.flatMap Piece.text) ⟨fun q hq => h1 q (by simp [hq]), rfl⟩
    have hp := h1 p (by simp)
    have gen : Pieces s (p :: merge ps) := by
      refine ⟨?_, by rw [h2]; simp [i2]⟩
      intro q hq
      rcases List.mem_cons.1 hq with rfl | hq
      · exact hp
      · exact i1 q hq
    cases p with
    | escape => exact gen
    | hole => exact gen
    | run a =>
      simp only [merge]
      split
      · rename_i b qs hm
        rw [hm] at i1 i2
        refine ⟨?_, ?_⟩
        · intro q hq
          rcases List.mem_cons.1 hq with rfl | hq
          · have hb := i1 (.run b) (by simp)
            refine ⟨by simp [hp.1], ?_, ?_⟩
            · simp only [List.mem_append, not_or]; exact ⟨hp.2.1, hb.2.1⟩
            · simp only [List.mem_append, not_or]; exact ⟨hp.2.2, hb.2.2⟩
          · exact i1 q (by simp [hq])
        · rw [h2]; simp only [List.flatMap_cons, i2, Piece.text, List.append_assoc]
      · exact gen

theorem merge_value (σ : Str → Option Str) : ∀ ps : List Piece,
    fragsValue σ ((merge ps).map Piece.frag) = fragsValue σ (ps.map Piece.frag)
  | [] => rfl
  | .run a :: ps => by
    have ih := merge_value σ ps
    simp only [merge]
    split
    · rename_i b qs hm
      rw [hm] at ih
      simp only [List.map_cons, Piece.frag, fragsValue] at ih ⊢
      rw [← ih]
      cases fragsValue σ (qs.map Piece.frag) <;> simp
    · simp only [List.map_cons, Piece.frag, fragsValue, ih]
  | .escape :: ps => by simp only [merge, List.map_cons, Piece.frag, fragsValue, merge_value σ ps]
  | .hole _ _ _ :: ps => by simp only [merge, List.map_cons, Piece.frag, fragsValue, merge_value σ ps]

theorem merge_hole {b n a : Str} : ∀ {ps : List Piece}, .hole b n a ∈ ps → .hole b n a ∈ merge ps
  | .run s :: ps, h => by
    have ih := merge_hole (b := b) (n := n) (a := a) (ps := ps) (by simpa using h)
    simp only [merge]
    split
    · rename_i c qs hm; rw [hm] at ih; simpa using ih
    · exact List.mem_cons_of_mem _ ih
  | .escape :: ps, h => List.mem_cons_of_mem _ (merge_hole (by simpa using h))
  | .hole b' n' a' :: ps, h => by
    rcases List.mem_cons.1 h with h | h
    · simp [merge, h]
    · exact List.mem_cons_of_mem _ (merge_hole h)

theorem parse_merge {s : Str} {ps : List Piece} (h : Pieces s ps) :
    parseFragments s = some ((merge ps).map Piece.frag) :=
  parseFragments_iff.2 ⟨merge ps, merge_pieces ps s h, merge_noTwoRuns ps, rfl⟩

theorem fragsValue_pieces (σ : Str → Option Str) (t : Str) : ∀ ps : List Piece,
    fragsValue σ (ps.map Piece.frag) = some t ↔
      ∃ ts : List Str, ps.map (Piece.value σ) = ts.map some ∧ t = ts.flatten := by
  intro ps
  induction ps generalizing t with
  | nil =>
    simp only [List.map_nil, fragsValue, Option.some.injEq]
    constructor
    · rintro rfl; exact ⟨[], rfl, rfl⟩
    · rintro ⟨ts, h, rfl⟩
      cases ts with
      | nil => rfl
      | cons => simp at h
  | cons p ps ih =>
    have key : ∀ (o : Option Str), o = Piece.value σ p →
        ((o.bind (fun v => (fragsValue σ (ps.map Piece.frag)).map (v ++ ·)) = some t) ↔
        ∃ ts : List Str, (p :: ps).map (Piece.value σ) = ts.map some ∧ t = ts.flatten) := by
      intro o ho
      constructor
      · intro h
        cases o with
        | none => simp at h
        | some v =>
          simp only [Option.bind_some, Option.map_eq_some_iff] at h
          obtain ⟨u, hu, rfl⟩ := h
          obtain ⟨ts, h1, rfl⟩ := (ih u).1 hu
          exact ⟨v :: ts, by simp [← ho, h1], rfl⟩
      · rintro ⟨ts, h, rfl⟩
        cases ts with
        | nil => simp at h
        | cons v ts =>
          simp only [List.map_cons, List.cons.injEq] at h
          rw [ho, h.1]
          simp only [Option.bind_some, Option.map_eq_some_iff]
          exact ⟨ts.flatten, (ih _).2 ⟨ts, h.2, rfl⟩, rfl⟩
    cases p with
    | run s => simpa [Piece.frag, fragsValue] using key (some s) rfl
    | escape => simpa [Piece.frag, fragsValue] using key (some (c! "${")) rfl
    | hole b n a => simpa [Piece.frag, fragsValue] using key (σ n) rfl

theorem replaced_iff {σ : Str → Option Str} {s t : Str} :
    Replaced σ s t ↔ ∃ fs, parseFragments s = some fs ∧ fragsValue σ fs = some t := by
  constructor
  · rintro ⟨ps, hp, h⟩
    refine ⟨_, parse_merge hp, ?_⟩
    rw [merge_value]
    exact (fragsValue_pieces σ t ps).2 h
  · rintro ⟨fs, h1, h2⟩
    obtain ⟨ps, hp, _, rfl⟩ := parseFragments_iff.1 h1
    exact ⟨ps, hp, (fragsValue_pieces σ t ps).1 h2⟩

theorem mentions_iff {s n : Str} :
    Mentions s n ↔ ∃ fs, parseFragments s = some fs ∧ .interpolation n ∈ fs := by
  constructor
  · rintro ⟨ps, b, a, hp, h⟩
    exact ⟨_, parse_merge hp, List.mem_map.2 ⟨_, merge_hole h, rfl⟩⟩
  · rintro ⟨fs, h1, h2⟩
    obtain ⟨ps, hp, _, rfl⟩ := parseFragments_iff.1 h1
    obtain ⟨p, hm, he⟩ := List.mem_map.1 h2
    cases p with
    | run => simp [Piece.frag] at he
    | escape => simp [Piece.frag] at he
    | hole b n' a =>
      simp only [Piece.frag, Fragment.interpolation.injEq] at he
      subst he
      exact ⟨ps, b, a, hp, hm⟩

theorem replaced_unique {σ : Str → Option Str} {s t t' : Str} (h : Replaced σ s t) (h' : Replaced σ s t') :
    t = t' := by
  obtain ⟨fs, h1, h2⟩ := replaced_iff.1 h
  obtain ⟨fs', h1', h2'⟩ := replaced_iff.1 h'
  rw [h1] at h1'; cases h1'
  rw [h2] at h2'; cases h2'; rfl

theorem Pieces.append {a b : Str} {ps qs : List Piece} (h : Pieces a ps) (h' : Pieces b qs) :
    Pieces (a ++ b) (ps ++ qs) := by
  refine ⟨?_, by rw [h.2, h'.2]; simp⟩
  intro p hp
  rcases List.mem_append.1 hp with hp | hp
  · exact h.1 p hp
  · exact h'.1 p hp

theorem Replaced.append {σ : Str → Option Str} {a b c d : Str} (h : Replaced σ a b) (h' : Replaced σ c d) :
    Replaced σ (a ++ c) (b ++ d) := by
  obtain ⟨ps, hp, ts, h1, rfl⟩ := h
  obtain ⟨qs, hq, us, h2, rfl⟩ := h'
  exact ⟨ps ++ qs, Pieces.append hp hq, ts ++ us, by simp [h1, h2], by simp⟩

theorem Replaced.nil (σ : Str → Option Str) : Replaced σ [] [] := ⟨[], ⟨by simp, rfl⟩, [], rfl, rfl⟩

end Literal
