import Verif.Proofs.Shape

/-! # Reading lists of declarations -/

namespace DeclsP
open Nom NomP Css ParserP LexP ShapeP Spec

theorem prog_nil {α : Type} {p : Parser α} (h : Prog p) : p [] = none := by
  cases hp : p [] with
  | none => rfl
  | some x => exact absurd (h _ _ _ (show _ = some (x.1, x.2) from hp)) (by simp)

/-! ## Trimming trailing blanks -/

theorem ascii_ws {c : Char} (h : c ∈ (c! " \t\r\n")) : Str.isWhitespace c = true := by
  simp only [List.mem_cons, List.not_mem_nil, or_false] at h
  rcases h with rfl | rfl | rfl | rfl <;> decide

theorem trimEnd_ws {w : Str} (h : ∀ c ∈ w, Str.isWhitespace c = true) : Str.trimEnd w = [] := by
  induction w with
  | nil => rfl
  | cons c w ih =>
    simp [Str.trimEnd, ih (fun d hd => h d (by simp [hd])), h c (by simp)]

theorem trimEnd_append {s w : Str} (h : ∀ c ∈ w, Str.isWhitespace c = true) :
    Str.trimEnd (s ++ w) = Str.trimEnd s := by
  induction s with
  | nil => rw [List.nil_append, trimEnd_ws h]; rfl
  | cons c s ih => simp only [List.cons_append, Str.trimEnd, ih]

theorem trim_head {s : Str} (h : Str.trim s = s) : ∀ c ∈ s.head?, Str.isWhitespace c = false := by
  intro c hc
  cases s with
  | nil => simp at hc
  | cons d t =>
    simp only [List.head?_cons, Option.mem_def, Option.some.injEq] at hc
    subst hc
    cases hw : Str.isWhitespace d with
    | false => rfl
    | true =>
      exfalso
      have h1 : (Str.trim (d :: t)).length ≤ t.length := by
        unfold Str.trim
        refine Nat.le_trans (trimEnd_prefix _).length_le ?_
        unfold Str.trimStart
        rw [List.dropWhile_cons, hw]
        exact (List.dropWhile_suffix Str.isWhitespace).length_le
      rw [h] at h1
      simp at h1
      omega

theorem trimStart_of_head {s : Str} (h : ∀ c ∈ s.head?, Str.isWhitespace c = false) :
    Str.trimStart s = s := by
  cases s with
  | nil => rfl
  | cons c t => unfold Str.trimStart; rw [List.dropWhile_cons, h c (by simp)]; simp

theorem trim_append {s w : Str} (hs : Str.trim s = s) (hne : s ≠ [])
    (h : ∀ c ∈ w, Str.isWhitespace c = true) : Str.trim (s ++ w) = s := by
  have hh := trim_head hs
  have h1 : Str.trimStart (s ++ w) = s ++ w := by
    apply trimStart_of_head
    cases s with
    | nil => exact absurd rfl hne
    | cons c t => simpa using hh
  unfold Str.trim
  rw [h1, trimEnd_append h]
  unfold Str.trim at hs
  rw [trimStart_of_head hh] at hs
  exact hs

/-! ## One declaration -/

theorem endsPlain_of_last {v : Str} (hne : v ≠ []) (ht : Str.trim v = v) (hq : v.getLast? ≠ some '"') :
    EndsPlain v := by
  obtain ⟨a, c, rfl⟩ : ∃ a c, v = a ++ [c] := ⟨v.dropLast, v.getLast hne, (List.dropLast_concat_getLast hne).symm⟩
  refine ⟨a, c, [], rfl, ?_, ?_, by simp⟩
  · intro hc
    have hw : ∀ d ∈ [c], Str.isWhitespace d = true := by
      intro d hd; simp only [List.mem_singleton] at hd; subst hd; exact ascii_ws hc
    have h1 : (Str.trim (a ++ [c])).length ≤ a.length := by
      rw [Text.trim_append_ws _ hw]
      unfold Str.trim
      refine Nat.le_trans (trimEnd_prefix _).length_le ?_
      unfold Str.trimStart
      exact (List.dropWhile_suffix _).length_le
    rw [ht] at h1
    simp at h1
    omega
  · rintro rfl
    simp at hq

/-- A declaration is read up to the text that ends its value. -/
theorem decl_read {d : DeclSrc} (h : d.Ok) {r : Str} (hr : EndsValue r) :
    styleAttribute (d.bare ++ r) = some (r, (d.key, [d.value])) := by
  obtain ⟨h1, h2, h3, h4, h5, h6, h7, h8, h9, h10⟩ := h
  have hl : NoLead d.value := by
    intro c hc hmem
    have := trim_head h8 c hc
    rw [ascii_ws hmem] at this
    cases this
  have hq : EndsPlain d.value ∨ ∀ c ∈ d.after, c ∈ (c! " \t\r\n") := by
    by_cases hlast : d.value.getLast? = some '"'
    · exact Or.inr (h10 hlast)
    · exact Or.inl (endsPlain_of_last h7 h8 hlast)
  have := styleAttribute_read (w1 := d.before) (k := d.key) (w2 := d.afterKey) (w3 := d.beforeValue)
    (v := d.value) (a := d.after) (r := r) h1 h2 h4 h5 h6 h7 hl h9 hq hr
  rw [h3, h8] at this
  unfold DeclSrc.bare
  simp only [List.append_assoc, List.cons_append, List.nil_append] at this ⊢
  exact this

/-! ## Lists of declarations -/

/-- Texts that end a list of declarations: nothing, a closing brace, or an at-rule. -/
def EndsDecls (r : Str) : Prop := r = [] ∨ ∃ t, r = '}' :: t ∨ r = '@' :: t

theorem ident_fail {c : Char} (h : isIdentChar c = false) (i : Str) : ident (c :: i) = none := by
  refine recognize_none.2 ?_
  cases hx : preceded _ _ (c :: i) with
  | none => rfl
  | some x =>
    obtain ⟨r, a, h1, -⟩ := preceded_some.1 (show _ = some (x.1, x.2) from hx)
    have h2 : identFirst (c :: i) = none := by
      simp only [isIdentChar, Bool.or_eq_false_iff, beq_eq_false_iff_ne] at h
      obtain ⟨⟨⟨⟨h1, h2⟩, h3⟩, h4⟩, h5⟩ := h
      exact alt_none.2 ⟨tag_fail h3 _, alt_none.2 ⟨tag_fail h4 _, alt_none.2
        ⟨takeWhile1_fail h1 _, takeWhile1_fail h5 _⟩⟩⟩
    unfold identFirst at h2
    rw [h2] at h1
    cases h1

/-- No declaration starts where the next non-blank character is not one of an identifier. -/
theorem styleAttribute_fail {i : Str} (h : NoIdent (spRest i)) : styleAttribute i = none := by
  refine trimmed_none.2 ?_
  cases hs : spRest i with
  | nil => rfl
  | cons c t =>
    have hc : isIdentChar c = false := h c (by rw [hs]; simp)
    cases hx : nonEmpty _ (c :: t) with
    | none => rfl
    | some x =>
      obtain ⟨-, h1⟩ := nonEmpty_some.1 (show _ = some (x.1, x.2) from hx)
      obtain ⟨a, h2, -⟩ := map_some.1 h1
      obtain ⟨r1, r2, b, h3, -⟩ := separatedPair_some.1 h2
      obtain ⟨r3, h4, -⟩ := trimmed_some.1 h3
      have : spRest (c :: t) = c :: t := by rw [← hs, spRest_idem]
      rw [this, ident_fail hc] at h4
      cases h4

theorem attributes_fail {i : Str} (d : Bool) (h : NoIdent (spRest i)) : attributes d i = none := by
  refine trimmed_none.2 ?_
  cases hx : nonEmpty _ (spRest i) with
  | none => rfl
  | some x =>
    obtain ⟨-, h1⟩ := nonEmpty_some.1 (show _ = some (x.1, x.2) from hx)
    obtain ⟨r, b, h2, -⟩ := terminated_some.1 h1
    simp only [separatedList1] at h2
    rw [styleAttribute_fail (by rw [spRest_idem]; exact h)] at h2
    cases h2

theorem endsDecls_noIdent {r : Str} (h : EndsDecls r) : NoIdent r := by
  intro c hc
  rcases h with rfl | ⟨t, rfl | rfl⟩
  · simp at hc
  · simp only [List.head?_cons, Option.mem_def, Option.some.injEq] at hc
    subst hc; decide
  · simp only [List.head?_cons, Option.mem_def, Option.some.injEq] at hc
    subst hc; decide

theorem endsDecls_sp {r : Str} (h : EndsDecls r) : spRest r = r := by
  rcases h with rfl | ⟨t, rfl | rfl⟩
  · exact spRest_nil
  · exact spRest_nonblank (by simp) (by simp) t
  · exact spRest_nonblank (by simp) (by simp) t

/-- What stands between a declaration and the text `e` that ends the list. -/
def tailText (e : Str) : List DeclSrc → Str
  | [] => e
  | d :: ds => ';' :: (d.bare ++ tailText e ds)

/-- The loop over declarations stops at `e`: no semicolon, or no declaration after it. -/
def StopsList (e : Str) : Prop :=
  EndsValue e ∧ (tag (c! ";") e = none ∨ ∃ w, e = ';' :: w ∧ styleAttribute w = none)

theorem endsValue_tail {e : Str} (h : EndsValue e) (ds : List DeclSrc) : EndsValue (tailText e ds) := by
  cases ds with
  | nil => exact h
  | cons d ds => exact Or.inr ⟨_, Or.inl rfl⟩

theorem tailText_length (e : Str) (ds : List DeclSrc) : ds.length ≤ (tailText e ds).length := by
  induction ds with
  | nil => simp
  | cons d ds ih => simp [tailText]; omega

theorem sepLoop_read {ds : List DeclSrc} (h : ∀ d ∈ ds, d.Ok) {e : Str} (he : StopsList e) :
    ∀ n, ds.length < n → sepLoop (tag (c! ";")) styleAttribute n (tailText e ds) =
      some (e, ds.map (fun d => (d.key, [d.value]))) := by
  induction ds with
  | nil =>
    intro n hn
    cases n with
    | zero => simp at hn
    | succ n =>
      rcases he.2 with h0 | ⟨w, rfl, hw⟩
      · show sepLoop _ _ (n + 1) e = _
        rw [sepLoop, h0]; rfl
      · exact sepLoop_end (tag_append (c! ";") w) (by simp [tailText]) hw
  | cons d ds ih =>
    intro n hn
    cases n with
    | zero => simp at hn
    | succ n =>
      exact sepLoop_step (tag_append (c! ";") _) (by simp [tailText])
        (decl_read (h d (by simp)) (endsValue_tail he.1 ds))
        (ih (fun x hx => h x (by simp [hx])) n (by simpa using hn))

/-- A non-empty list of declarations with semicolons between them, followed by `e`. -/
theorem list_read {d : DeclSrc} {ds : List DeclSrc} (h : ∀ x ∈ d :: ds, x.Ok) {e : Str}
    (he : StopsList e) (i : Str) (hi : spRest i = spRest (d.bare ++ tailText e ds)) :
    separatedList1 (tag (c! ";")) styleAttribute i =
      some (e, (d :: ds).map (fun d => (d.key, [d.value]))) := by
  have hread : styleAttribute i = some (tailText e ds, (d.key, [d.value])) := by
    rw [← decl_read (h d (by simp)) (endsValue_tail he.1 ds)]
    exact trimmed_eq_of_spRest hi
  simp only [separatedList1]
  rw [hread]
  simp only
  rw [sepLoop_read (fun x hx => h x (by simp [hx])) he _ (Nat.lt_succ_of_le (tailText_length e ds))]
  rfl

theorem attributes_of_list {i e r : Str} {dangling : Bool} {l : List (Str × List Str)}
    (h : separatedList1 (tag (c! ";")) styleAttribute (spRest i) = some (e, l)) (hsp : spRest e = e)
    {o : Option Str} (hf : finalSemicolon dangling e = some (r, o)) :
    attributes dangling i = some (spRest r, l) := by
  refine trimmed_some.2 ⟨r, nonEmpty_some.2 ⟨?_, terminated_some.2 ⟨e, o, h, ?_⟩⟩, rfl⟩
  · intro hnil
    rw [hnil] at h
    have : styleAttribute [] = none := prog_nil prog_styleAttribute
    simp [separatedList1, this] at h
  · obtain ⟨u, hu⟩ := sp_total e
    rw [hsp] at hu
    exact preceded_some.2 ⟨e, some u, opt_some.2 (Or.inr ⟨u, hu, rfl⟩), hf⟩

theorem declsText_tail (d : DeclSrc) (ds : List DeclSrc) (w : Str) :
    ((d :: ds).map DeclSrc.text).flatten ++ w = d.bare ++ tailText (';' :: w) ds := by
  induction ds generalizing d with
  | nil => simp [DeclSrc.text, tailText]
  | cons d' ds ih =>
    rw [List.map_cons, List.flatten_cons, List.append_assoc, ih d']
    simp [DeclSrc.text, tailText]

/-- A non-empty list of declarations, each ended by a semicolon, before a text that is not
read as a declaration. -/
theorem attributes_before (dangling : Bool) {ds : List DeclSrc} (hne : ds ≠ []) (h : ∀ d ∈ ds, d.Ok)
    {w : Str} (hw : styleAttribute w = none) (i : Str)
    (hi : spRest i = spRest ((ds.map DeclSrc.text).flatten ++ w)) :
    attributes dangling i = some (spRest w, ds.map (fun d => (d.key, [d.value]))) := by
  cases ds with
  | nil => exact absurd rfl hne
  | cons d ds =>
    rw [declsText_tail] at hi
    have hs : StopsList (';' :: w) := ⟨Or.inr ⟨w, Or.inl rfl⟩, Or.inr ⟨w, rfl, hw⟩⟩
    have htag : tag (c! ";") (';' :: w) = some (w, c! ";") := tag_append (c! ";") _
    refine attributes_of_list (o := some (c! ";")) (list_read h hs (spRest i) (by rw [spRest_idem, hi]))
      (spRest_nonblank (by simp) (by simp) _) ?_
    unfold finalSemicolon
    split
    · exact map_some.2 ⟨_, htag, rfl⟩
    · exact opt_some.2 (Or.inr ⟨_, htag, rfl⟩)

/-- A non-empty list of declarations, each ended by a semicolon. -/
theorem attributes_read (dangling : Bool) {ds : List DeclSrc} (hne : ds ≠ []) (h : ∀ d ∈ ds, d.Ok)
    {w r : Str} (hw : Blank w) (hr : EndsDecls r) :
    attributes dangling ((ds.map DeclSrc.text).flatten ++ (w ++ r)) =
      some (r, ds.map (fun d => (d.key, [d.value]))) := by
  have hsp : spRest (w ++ r) = r := by rw [spRest_blank hw, endsDecls_sp hr]
  have := attributes_before dangling hne h (w := w ++ r)
    (styleAttribute_fail (by rw [hsp]; exact endsDecls_noIdent hr)) _ rfl
  rw [hsp] at this
  exact this

theorem declsText_last {ds : List DeclSrc} {d : DeclSrc} (h : ∀ x ∈ ds, x.Ok) (hd : d.Ok) (e : Str) :
    ∃ x xs, x :: xs = ds ++ [d] ∧ (∀ y ∈ x :: xs, y.Ok) ∧
      (ds.map DeclSrc.text).flatten ++ (d.bare ++ e) = x.bare ++ tailText e xs := by
  have key : ∀ (x : DeclSrc) (xs : List DeclSrc), x :: xs = ds ++ [d] →
      (ds.map DeclSrc.text).flatten ++ (d.bare ++ e) = x.bare ++ tailText e xs := by
    intro x xs e
    clear h hd
    induction ds generalizing x xs with
    | nil =>
      simp only [List.nil_append, List.cons.injEq] at e
      obtain ⟨rfl, rfl⟩ := e
      rfl
    | cons y ys ih =>
      simp only [List.cons_append, List.cons.injEq] at e
      obtain ⟨rfl, rfl⟩ := e
      obtain ⟨z, zs, e'⟩ : ∃ z zs, z :: zs = ys ++ [d] := by
        cases ys with
        | nil => exact ⟨d, [], rfl⟩
        | cons z zs => exact ⟨z, zs ++ [d], rfl⟩
      rw [← e', List.map_cons, List.flatten_cons, List.append_assoc, ih z zs e']
      simp [tailText, DeclSrc.text]
  obtain ⟨x, xs, e'⟩ : ∃ x xs, x :: xs = ds ++ [d] := by
    cases ds with
    | nil => exact ⟨d, [], rfl⟩
    | cons x xs => exact ⟨x, xs ++ [d], rfl⟩
  refine ⟨x, xs, e', ?_, key x xs e'⟩
  rw [e']
  intro y hy
  rcases List.mem_append.1 hy with hy | hy
  · exact h y hy
  · simp only [List.mem_singleton] at hy
    subst hy; exact hd

/-- The last declaration before a closing brace may stand without a semicolon. -/
theorem attributes_last {ds : List DeclSrc} {d : DeclSrc} (h : ∀ x ∈ ds, x.Ok) (hd : d.Ok) (r : Str)
    (i : Str) (hi : spRest i = spRest ((ds.map DeclSrc.text).flatten ++ (d.bare ++ '}' :: r))) :
    attributes false i = some ('}' :: r, (ds ++ [d]).map (fun d => (d.key, [d.value]))) := by
  have htag : tag (c! ";") ('}' :: r) = none := tag_fail (by decide) r
  have hs : StopsList ('}' :: r) := ⟨Or.inr ⟨r, Or.inr (Or.inl rfl)⟩, Or.inl htag⟩
  have hsp : spRest ('}' :: r) = '}' :: r := spRest_nonblank (by simp) (by simp) r
  have hf : finalSemicolon false ('}' :: r) = some ('}' :: r, none) :=
    opt_some.2 (Or.inl ⟨htag, rfl, rfl⟩)
  obtain ⟨x, xs, e, hall, key⟩ := declsText_last h hd ('}' :: r)
  rw [key] at hi
  have := attributes_of_list (list_read hall hs (spRest i) (by rw [spRest_idem, hi])) hsp hf
  rw [hsp, e] at this
  exact this

/-- Declarations outside of blocks need their semicolons: before an opening brace there are
none. -/
theorem attributes_open {ds : List DeclSrc} {d : DeclSrc} (h : ∀ x ∈ ds, x.Ok) (hd : d.Ok) (r : Str)
    (i : Str) (hi : spRest i = spRest ((ds.map DeclSrc.text).flatten ++ (d.bare ++ '{' :: r))) :
    attributes true i = none := by
  have htag : tag (c! ";") ('{' :: r) = none := tag_fail (by decide) r
  have hs : StopsList ('{' :: r) := ⟨Or.inr ⟨r, Or.inr (Or.inr rfl)⟩, Or.inl htag⟩
  have hsp : spRest ('{' :: r) = '{' :: r := spRest_nonblank (by simp) (by simp) r
  obtain ⟨x, xs, e, hall, key⟩ := declsText_last h hd ('{' :: r)
  rw [key] at hi
  have hl := list_read hall hs (spRest i) (by rw [spRest_idem, hi])
  refine trimmed_none.2 ?_
  cases hx : nonEmpty _ (spRest i) with
  | none => rfl
  | some y =>
    obtain ⟨y1, y2⟩ := y
    obtain ⟨-, h1⟩ := nonEmpty_some.1 hx
    obtain ⟨r1, b, h2, h3⟩ := terminated_some.1 h1
    rw [hl] at h2
    cases h2
    obtain ⟨r2, o, h4, h5⟩ := preceded_some.1 h3
    have h6 : r2 = '{' :: r := by
      rcases opt_some.1 h4 with ⟨-, rfl, -⟩ | ⟨u, hu, -⟩
      · rfl
      · obtain ⟨u', hu'⟩ := sp_total ('{' :: r)
        rw [hu', hsp] at hu
        cases hu
        rfl
    subst h6
    unfold finalSemicolon at h5
    rw [if_pos rfl] at h5
    obtain ⟨_, h7, -⟩ := map_some.1 h5
    rw [htag] at h7
    cases h7

/-! ## Sheets -/

/-- A text whose items are read to the end is a sheet of these items. -/
theorem parse_intro {css : Str} {items : List ScopeContent} (h : spRest css ≠ [])
    (hi : many0 (scopeItemWith css.length (scopeContents css.length)) (spRest css) = some ([], items)) :
    parse css = some items := by
  have hsc : scopeContents (css.length + 1) (spRest css) = some ([], items) := by
    refine trimmed_some.2 ⟨[], nonEmpty_some.2 ⟨by rw [spRest_idem]; exact h, ?_⟩, spRest_nil.symm⟩
    rw [spRest_idem]; exact hi
  have hscope : scope (css.length + 1) (spRest css) = some ([], items) := by
    refine trimmed_some.2 ⟨[], nonEmpty_some.2 ⟨by rw [spRest_idem]; exact h, ?_⟩, spRest_nil.symm⟩
    rw [spRest_idem]; exact hsc
  have hnil : scope (css.length + 1) [] = none := by
    refine trimmed_none.2 ?_
    rw [spRest_nil]; rfl
  have hs : sheet (css.length + 1) css = some ([], items) := by
    refine trimmed_some.2 ⟨[], map_some.2 ⟨[items], ?_, by simp⟩, spRest_nil.symm⟩
    rw [many0_unfold (suff_scope _), hscope]
    simp only
    rw [if_neg ?_, many0_stop (suff_scope _) hnil]
    intro hl
    exact h (List.length_eq_zero_iff.1 hl.symm)
  unfold parse parseWith
  rw [hs]; rfl

/-- The first item of a sheet is read where the text begins. -/
theorem parse_head {css : Str} {x : ScopeContent} {rest : Sheet} (h : parse css = some (x :: rest)) :
    ∃ r, scopeItemWith css.length (scopeContents css.length) (spRest css) = some (r, x) := by
  unfold parse parseWith at h
  cases hs : sheet (css.length + 1) css with
  | none => rw [hs] at h; cases h
  | some y =>
    rw [hs] at h
    obtain ⟨y1, y2⟩ := y
    obtain rfl : y2 = x :: rest := by simpa using h
    obtain ⟨_, h1, -⟩ := trimmed_some.1 hs
    obtain ⟨ps, h2, h3⟩ := map_some.1 h1
    rw [many0_unfold (suff_scope _)] at h2
    cases hsc : scope (css.length + 1) (spRest css) with
    | none =>
      rw [hsc] at h2
      simp only [Option.some.injEq, Prod.mk.injEq] at h2
      rw [← h2.2] at h3
      cases h3
    | some z =>
      obtain ⟨r1, p1⟩ := z
      rw [hsc] at h2
      simp only at h2
      split at h2
      · cases h2
      · rename_i hlen
        obtain ⟨r2, h4, h5⟩ := trimmed_some.1 hsc
        obtain ⟨-, h4⟩ := nonEmpty_some.1 h4
        obtain ⟨r3, h6, h7⟩ := trimmed_some.1 h4
        obtain ⟨-, h6⟩ := nonEmpty_some.1 h6
        rw [spRest_idem, spRest_idem, many0_unfold (suff_scopeItemWith _ (suff_scopeContents _))] at h6
        cases hit : scopeItemWith css.length (scopeContents css.length) (spRest css) with
        | none =>
          rw [hit] at h6
          simp only [Option.some.injEq, Prod.mk.injEq] at h6
          refine absurd ?_ hlen
          rw [h5, h7, ← h6.1, spRest_idem, spRest_idem]
        | some w =>
          obtain ⟨r4, a⟩ := w
          rw [hit] at h6
          simp only at h6
          split at h6
          · cases h6
          · cases hm : many0 (scopeItemWith css.length (scopeContents css.length)) r4 with
            | none => rw [hm] at h6; cases h6
            | some v =>
              rw [hm] at h6
              simp only [Option.some.injEq, Prod.mk.injEq] at h6
              cases hm2 : many0 (scope (css.length + 1)) r1 with
              | none => rw [hm2] at h2; cases h2
              | some v2 =>
                rw [hm2] at h2
                simp only [Option.some.injEq, Prod.mk.injEq] at h2
                rw [← h2.2, ← h6.2] at h3
                simp only [List.flatten_cons, List.cons_append, List.cons.injEq] at h3
                exact ⟨r4, by rw [h3.1]⟩

/-- Before a text that looks like a declaration and has a block, declarations are not kept. -/
theorem open_lost {ds : List DeclSrc} {d : DeclSrc} (h : ∀ x ∈ ds, x.Ok) (hd : d.Ok) (r : Str)
    {content : List RBC} {rest : Sheet} :
    parse ((ds.map DeclSrc.text).flatten ++ (d.bare ++ '{' :: r)) ≠ some (.block [] content :: rest) := by
  intro hp
  obtain ⟨r1, h1⟩ := parse_head hp
  rcases alt_some.1 h1 with h2 | ⟨-, h2⟩
  · obtain ⟨_, h3, -⟩ := trimmed_some.1 h2
    obtain ⟨-, h3⟩ := nonEmpty_some.1 h3
    obtain ⟨_, h4, -⟩ := map_some.1 h3
    rw [attributes_open h hd r _ (by rw [spRest_idem, spRest_idem])] at h4
    cases h4
  · rcases alt_some.1 h2 with h2 | ⟨-, h2⟩
    · obtain ⟨_, h3, -⟩ := trimmed_some.1 h2
      obtain ⟨-, h3⟩ := nonEmpty_some.1 h3
      obtain ⟨⟨c, b⟩, h4, h5⟩ := map_some.1 h3
      obtain ⟨_, h6, -⟩ := pair_some.1 h4
      obtain ⟨_, h7, -⟩ := trimmed_some.1 h6
      obtain ⟨-, h7⟩ := nonEmpty_some.1 h7
      obtain ⟨_, a, as, -, -, h8⟩ := many1_some.1 h7
      simp only at h5 h8
      rw [h8] at h5
      cases h5
    · rcases alt_some.1 h2 with h2 | ⟨-, h2⟩
      · obtain ⟨_, h3, -⟩ := trimmed_some.1 h2
        obtain ⟨-, h3⟩ := nonEmpty_some.1 h3
        obtain ⟨_, _, h5⟩ := map_some.1 h3
        cases h5
      · obtain ⟨_, _, h5⟩ := map_some.1 h2
        cases h5

theorem dangling_read {ds : List DeclSrc} (hne : ds ≠ []) (h : ∀ d ∈ ds, d.Ok) {w r : Str}
    (hw : Blank w) (hr : EndsDecls r) :
    danglingBlock ((ds.map DeclSrc.text).flatten ++ (w ++ r)) =
      some (r, .block [] (ds.map (fun d => .attr d.key [d.value]))) := by
  have hread := attributes_read true hne h hw hr
  have hsp : attributes true (spRest ((ds.map DeclSrc.text).flatten ++ (w ++ r))) =
      attributes true ((ds.map DeclSrc.text).flatten ++ (w ++ r)) :=
    trimmed_eq_of_spRest (spRest_idem _)
  refine trimmed_some.2 ⟨r, nonEmpty_some.2 ⟨?_, map_some.2 ⟨_, hsp.trans hread, ?_⟩⟩, (endsDecls_sp hr).symm⟩
  · intro hnil
    rw [hnil, hread] at hsp
    rw [prog_nil (prog_attributes true)] at hsp
    cases hsp
  · simp [attrsToRBC]

theorem decls_parse {ds : List DeclSrc} (hne : ds ≠ []) (h : ∀ d ∈ ds, d.Ok) {w : Str} (hw : Blank w) :
    parse ((ds.map DeclSrc.text).flatten ++ w) =
      some [.block [] (ds.map (fun d => .attr d.key [d.value]))] := by
  have hd := dangling_read hne h hw (r := []) (Or.inl rfl)
  rw [List.append_nil] at hd
  have hd' : danglingBlock (spRest ((ds.map DeclSrc.text).flatten ++ w)) =
      some ([], .block [] (ds.map (fun d => .attr d.key [d.value]))) := by
    rw [← hd]; exact trimmed_eq_of_spRest (spRest_idem _)
  refine parse_intro ?_ ?_
  · intro hnil
    rw [hnil, prog_nil prog_danglingBlock] at hd'
    cases hd'
  · refine Eq.trans (many0_step (suff_scopeItemWith _ (suff_scopeContents _))
      (prog_scopeItemWith _ (suff_scopeContents _)) (alt_some.2 (Or.inl hd'))) ?_
    rw [many0_stop (suff_scopeItemWith _ (suff_scopeContents _))
      (prog_nil (prog_scopeItemWith _ (suff_scopeContents _)))]

/-! ## Values without semicolons, braces and comments -/

/-- Such a text is a value when it does not end in a slash. -/
theorem valueText_plain : ∀ (n : Nat) (s : Str), s.length ≤ n → (∀ c ∈ s, c ∉ (c! "${;}\"")) → ¬ (c! "/*") <:+: s →
    s.getLast? ≠ some '/' → ValueText s := by
  intro n
  induction n with
  | zero =>
    intro s hn _ _ _
    rw [List.length_eq_zero_iff.1 (Nat.le_zero.1 hn)]
    exact .nil
  | succ n ih =>
    intro s hn hb hc hl
    match s, hn, hb, hc, hl with
    | [], _, _, _, _ => exact .nil
    | c :: s, hn, hb, hc, hl =>
      have hc' : ¬ (c! "/*") <:+: s := fun h => hc (h.trans (List.suffix_cons _ _).isInfix)
      by_cases h : c = '/'
      · subst h
        match s, hn, hb, hc, hc', hl with
        | [], _, _, _, _, hl => exact absurd rfl hl
        | d :: s, hn, hb, hc, hc', hl =>
          have hd := hb d (by simp)
          refine .slash d s ?_ (ih s (by simp at hn; omega) (fun x hx => hb x (by simp [hx]))
            (fun h => hc' (h.trans (List.suffix_cons _ _).isInfix)) ?_)
          · simp only [List.mem_cons, List.not_mem_nil, or_false, not_or] at hd ⊢
            refine ⟨hd.1, hd.2.1, hd.2.2.1, hd.2.2.2.1, hd.2.2.2.2, ?_⟩
            rintro rfl
            exact hc ⟨[], s, rfl⟩
          · cases s with
            | nil => simp
            | cons x s => simpa using hl
      · refine .char c s ?_ (ih s (by simp at hn; omega) (fun x hx => hb x (by simp [hx])) hc' ?_)
        · have hd := hb c (by simp)
          simp only [List.mem_cons, List.not_mem_nil, or_false, not_or] at hd ⊢
          exact ⟨hd.1, hd.2.1, hd.2.2.1, hd.2.2.2.1, h, hd.2.2.2.2⟩
        · cases s with
          | nil => simp
          | cons x s => simpa using hl

theorem trimEnd_snoc {x : Char} (hx : Str.isWhitespace x = false) (s : Str) : Str.trimEnd (s ++ [x]) = s ++ [x] := by
  induction s with
  | nil => simp [Str.trimEnd, hx]
  | cons c s ih =>
    rw [List.cons_append, Str.trimEnd, ih]
    cases s <;> rfl

theorem infix_snoc {a b x : Char} (hx : x ≠ b) : ∀ {s : Str}, [a, b] <:+: s ++ [x] → [a, b] <:+: s := by
  rintro s ⟨u, v, e⟩
  rcases List.eq_nil_or_concat v with rfl | ⟨v', y, rfl⟩
  · exfalso
    rw [List.append_nil, show u ++ [a, b] = (u ++ [a]) ++ [b] by simp] at e
    have := List.append_inj_right' e rfl
    exact hx (by simpa using this.symm)
  · refine ⟨u, v', ?_⟩
    rw [List.concat_eq_append, ← List.append_assoc] at e
    exact List.append_inj_left' e rfl

theorem infix_append {a b : Char} : ∀ {o s : Str}, (∀ c ∈ o, c ≠ a) → [a, b] <:+: o ++ s → [a, b] <:+: s
  | [], _, _, h => h
  | c :: o, s, ho, h => by
    refine infix_append (o := o) (fun d hd => ho d (by simp [hd])) ?_
    rcases List.infix_cons_iff.1 h with h1 | h1
    · exact absurd (List.cons_prefix_cons.1 h1).1.symm (ho c (by simp))
    · exact h1

/-- A declaration with a value that begins with `o` and ends with `x`. -/
theorem enclosed_parse {key body o : Str} {x : Char} (hk : Ident key) (ht : Str.trim key = key)
    (hb : ∀ c ∈ body, c ∉ (c! "${;}\"")) (hc : ¬ (c! "/*") <:+: body) (ho : o ≠ [])
    (ho1 : ∀ c ∈ o, c ∉ (c! "${;}/\"")) (ho2 : ∀ c ∈ o.head?, Str.isWhitespace c = false)
    (hx1 : x ∉ (c! "${;}/\"")) (hx2 : Str.isWhitespace x = false) (hx3 : x ≠ '*') :
    parse (key ++ c! ": " ++ (o ++ body ++ [x]) ++ c! ";") = some [.block [] [.attr key [o ++ body ++ [x]]]] := by
  have hv : ValueText (o ++ body ++ [x]) := by
    refine valueText_plain _ _ (Nat.le_refl _) ?_ ?_ ?_
    · intro c h
      simp only [List.mem_append, List.mem_singleton] at h
      have sub : ∀ d : Char, d ∉ (c! "${;}/\"") → d ∉ (c! "${;}\"") := by
        intro d h1 h2
        apply h1
        simp only [List.mem_cons, List.not_mem_nil, or_false] at h2 ⊢
        rcases h2 with h | h | h | h | h <;> simp [h]
      rcases h with (h | h) | rfl
      · exact sub c (ho1 c h)
      · exact hb c h
      · exact sub _ hx1
    · intro h
      rw [List.append_assoc] at h
      refine hc (infix_snoc hx3 (infix_append ?_ h))
      intro c h1 h2
      subst h2
      exact ho1 _ h1 (by decide)
    · simp only [List.getLast?_append, List.getLast?_singleton, Option.some_or, ne_eq, Option.some.injEq]
      rintro rfl
      exact hx1 (by decide)
  have htrim : Str.trim (o ++ body ++ [x]) = o ++ body ++ [x] := by
    unfold Str.trim
    rw [trimStart_of_head, trimEnd_snoc hx2]
    cases o with
    | nil => exact absurd rfl ho
    | cons c o => simpa using ho2
  have := decls_parse (ds := [⟨[], key, [], c! " ", o ++ body ++ [x], []⟩]) (w := [])
    (by simp) (by
      intro d hd
      simp only [List.mem_cons, List.not_mem_nil, or_false] at hd
      subst hd
      exact ⟨.nil, hk, ht, .nil, .ws _ _ (by decide) .nil, hv, by simp, htrim, .nil, by simp⟩) .nil
  simpa [DeclSrc.text, DeclSrc.bare] using this

end DeclsP
