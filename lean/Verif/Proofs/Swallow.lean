import Verif.Proofs.Join
import Verif.Proofs.Rejected

/-! # Loose declarations in front of a block that looks like one more -/

namespace SwallowP
open Nom NomP Css ParserP LexP ShapeP DeclsP HeadersP Spec ReparseP LayoutP JoinP RejectedP

/-- The loop over declarations reads them and one more. -/
theorem sepLoop_swallow {ds : List DeclSrc} (h : ∀ d ∈ ds, d.Ok) {u r : Str} {a : Str × List Str}
    (hu : styleAttribute u = some (r, a)) (hr : tag (c! ";") r = none) :
    ∀ n, ds.length + 1 < n → ∃ as, sepLoop (tag (c! ";")) styleAttribute n (';' :: ((ds.map DeclSrc.text).flatten ++ u)) =
      some (r, as) := by
  induction ds with
  | nil =>
    intro n hn
    obtain ⟨m, rfl⟩ : ∃ m, n = m + 1 + 1 := ⟨n - 2, by simp at hn; omega⟩
    refine ⟨_, sepLoop_step (tag_append (c! ";") _) (by simp) (by simpa using hu) (bs := []) ?_⟩
    rw [sepLoop, hr]
  | cons d ds ih =>
    intro n hn
    obtain ⟨m, rfl⟩ : ∃ m, n = m + 1 := ⟨n - 1, by omega⟩
    obtain ⟨as, h1⟩ := ih (fun x hx => h x (by simp [hx])) m (by simp at hn; omega)
    refine ⟨_, sepLoop_step (b := (d.key, [d.value])) (tag_append (c! ";") _) (by simp) ?_ h1⟩
    have := decl_read (h d (by simp)) (r := ';' :: ((ds.map DeclSrc.text).flatten ++ u)) (Or.inr ⟨_, Or.inl rfl⟩)
    simpa [DeclSrc.text] using this

theorem texts_length {ds : List DeclSrc} : ds.length ≤ ((ds.map DeclSrc.text).flatten).length := by
  induction ds with
  | nil => simp
  | cons d ds ih => simp [DeclSrc.text] at ih ⊢; omega

/-- Declarations are not loose in front of a header that is read as one more. -/
theorem attributes_swallow {ds : List DeclSrc} (h : ∀ d ∈ ds, d.Ok) (hne : ds ≠ []) {B u : Str} (hH : H B u)
    {r : Str} {a : Str × List Str} (hu : styleAttribute u = some (r, a)) (i : Str)
    (hi : spRest i = spRest ((ds.map DeclSrc.text).flatten ++ u)) : attributes true i = none := by
  have hr : H B r := pres_attribute _ _ _ hH hu
  obtain ⟨as, hl⟩ : ∃ as, separatedList1 (tag (c! ";")) styleAttribute (spRest i) = some (r, as) := by
    cases ds with
    | nil => exact absurd rfl hne
    | cons d ds =>
      have h1 : styleAttribute (spRest i) = some (';' :: ((ds.map DeclSrc.text).flatten ++ u), (d.key, [d.value])) := by
        rw [← decl_read (h d (by simp)) (r := ';' :: ((ds.map DeclSrc.text).flatten ++ u)) (Or.inr ⟨_, Or.inl rfl⟩)]
        refine trimmed_eq_of_spRest ?_
        rw [spRest_idem, hi]
        simp [DeclSrc.text]
      obtain ⟨bs, h2⟩ := sepLoop_swallow (ds := ds) (fun x hx => h x (by simp [hx])) hu hr.no_semi
        ((';' :: ((ds.map DeclSrc.text).flatten ++ u)).length + 1) (by
          have := texts_length (ds := ds)
          simp only [List.length_cons, List.length_append]
          obtain ⟨c, t, rfl, -⟩ := hH.head
          simp only [List.length_cons]
          omega)
      exact ⟨_, by simp only [separatedList1]; rw [h1]; simp only; rw [h2]⟩
  refine trimmed_none.2 ?_
  cases hx : nonEmpty _ (spRest i) with
  | none => rfl
  | some y =>
    obtain ⟨y1, y2⟩ := y
    obtain ⟨-, h1⟩ := nonEmpty_some.1 hx
    obtain ⟨r1, b, h2, h3⟩ := terminated_some.1 h1
    rw [hl] at h2
    cases h2
    obtain ⟨r2, o, h4, h5⟩ := preceded_some.1 h3
    have hr2 : H B r2 := by
      rcases opt_some.1 h4 with ⟨-, rfl, -⟩ | ⟨u, hu, -⟩
      · exact hr
      · obtain ⟨v, hv⟩ := sp_total r
        rw [hv] at hu
        cases hu
        exact hr.sp
    simp only [finalSemicolon, if_true] at h5
    obtain ⟨_, h6, -⟩ := map_some.1 h5
    rw [hr2.no_semi] at h6
    cases h6

/-- There are no loose declarations at the start of such a text. -/
theorem item_swallow {ds : List DeclSrc} (h : ∀ d ∈ ds, d.Ok) (hne : ds ≠ []) {B u : Str} (hH : H B u)
    {r : Str} {a : Str × List Str} (hu : styleAttribute u = some (r, a)) (i : Str)
    (hi : spRest i = spRest ((ds.map DeclSrc.text).flatten ++ u)) (n : Nat) {r' : Str} {content : List RBC} :
    item n i ≠ some (r', .block [] content) := by
  intro h1
  rcases alt_some.1 h1 with h2 | ⟨-, h2⟩
  · obtain ⟨_, h3, -⟩ := trimmed_some.1 h2
    obtain ⟨-, h3⟩ := nonEmpty_some.1 h3
    obtain ⟨_, h4, -⟩ := map_some.1 h3
    rw [attributes_swallow h hne hH hu _ (by rw [spRest_idem, hi])] at h4
    cases h4
  · rcases alt_some.1 h2 with h2 | ⟨-, h2⟩
    · obtain ⟨_, h3, -⟩ := trimmed_some.1 h2
      obtain ⟨-, h3⟩ := nonEmpty_some.1 h3
      obtain ⟨⟨c, b⟩, h4, h5⟩ := map_some.1 h3
      obtain ⟨_, h6, -⟩ := pair_some.1 h4
      obtain ⟨_, h7, -⟩ := trimmed_some.1 h6
      obtain ⟨-, h7⟩ := nonEmpty_some.1 h7
      obtain ⟨_, a, as, -, -, h8⟩ := many1_some.1 h7
      simp only at h5 h8
      rw [h8] at h5
      cases h5
    · rcases alt_some.1 h2 with h2 | ⟨-, h2⟩
      · obtain ⟨_, h3, -⟩ := trimmed_some.1 h2
        obtain ⟨-, h3⟩ := nonEmpty_some.1 h3
        obtain ⟨_, _, h5⟩ := map_some.1 h3
        cases h5
      · obtain ⟨_, _, h5⟩ := map_some.1 h2
        cases h5

/-- A header that begins like a declaration is read as one, if anything follows the colon. -/
theorem header_swallow {B u k b' t : Str} (hH : H B u) (hk : Ident k) (hb : Blank b') (e : spRest u = k ++ (b' ++ ':' :: t))
    (ht : ∀ y, spRest t ≠ '{' :: y) : ∃ r a, styleAttribute u = some (r, a) := by
  have hno : NoIdent (b' ++ ':' :: t) := blank_noIdent hb (by intro c hc; simp at hc; subst hc; decide)
  have hid := ident_read hk hno
  have h1 : H B (b' ++ ':' :: t) := pres_ident _ _ _ hH.sp (by rw [e]; exact hid)
  have h2 : H B (':' :: t) := by
    have := h1.sp
    rwa [spRest_blank hb, spRest_nonblank (by decide) (by decide)] at this
  have h3 : H B t := h2.tail (by decide) (by decide) (by decide)
  obtain ⟨z, hz, ez⟩ := h3.sp
  have hpiece : ∃ x, valuePiece (spRest t) = some x := by
    have hidem : spRest (spRest t) = spRest t := spRest_idem t
    cases hz with
    | nil => exact absurd ez (ht _)
    | char c s hq hc hs =>
      rw [ez]
      obtain ⟨a, ha⟩ := takeWhile1_run (f := fun c => !(c! "${;}/\"").elem c) (c := c) (by
        simp only [List.mem_cons, List.not_mem_nil, or_false, not_or] at hc
        simp [hc, hq]) (s ++ '{' :: B)
      exact ⟨_, alt_some.2 (Or.inl ha)⟩
    | str body s hbody hs =>
      rw [ez]
      obtain ⟨x, hx⟩ := string_read hbody (s ++ '{' :: B)
      cases hv : valuePiece (('"' :: body ++ '"' :: s) ++ '{' :: B) with
      | some y => exact ⟨y, rfl⟩
      | none =>
        obtain ⟨-, h⟩ := alt_none.1 hv
        obtain ⟨-, h⟩ := alt_none.1 h
        obtain ⟨h, -⟩ := alt_none.1 h
        simp at h hx
        rw [h] at hx
        cases hx
    | comment body s hbody hs =>
      exfalso
      rw [ez] at hidem
      have e1 : (c! "/*" ++ body ++ c! "*/" ++ s) ++ '{' :: B = (c! "/*" ++ body ++ c! "*/" ++ []) ++ (s ++ '{' :: B) := by simp
      rw [e1, spRest_blank (Blank.comment body [] hbody .nil)] at hidem
      have := congrArg List.length hidem
      obtain ⟨w, -, ew⟩ := GrammarP.spRest_text (s ++ '{' :: B)
      have h5 := congrArg List.length ew
      simp at this h5
      omega
  obtain ⟨x, hx⟩ := hpiece
  obtain ⟨as, h4⟩ := many1_rest0 suff_valuePiece prog_valuePiece hx
  have hcolon : spRest (':' :: t) = ':' :: t := spRest_nonblank (by simp) (by simp) _
  have hkey : styleAttrKey (spRest u) = some (':' :: t, k) := by
    rw [e]
    refine trimmed_some.2 ⟨b' ++ ':' :: t, ?_, by rw [spRest_blank hb, hcolon]⟩
    rw [ident_nonblank hk]
    exact hid
  obtain ⟨v, hv⟩ : ∃ v, recognize (many1 valuePiece) (spRest t) = some (rest0 valuePiece (spRest t), v) :=
    ⟨_, recognize_some.2 ⟨_, h4, rfl⟩⟩
  have hval : styleAttrValue t = some (spRest (rest0 valuePiece (spRest t)), Str.trim v) :=
    trimmed_some.2 ⟨_, map_some.2 ⟨v, hv, rfl⟩, rfl⟩
  refine ⟨_, _, trimmed_some.2 ⟨_, nonEmpty_some.2 ⟨?_, map_some.2 ⟨(k, Str.trim v), separatedPair_some.2
    ⟨_, _, _, hkey, tag_append (c! ":") t, hval⟩, rfl⟩⟩, rfl⟩⟩
  rw [e]
  cases k with
  | nil => exact hk.elim
  | cons c k => simp

/-- The sheet of an accepted text is what the loop over its items reads. -/
theorem item_sp_end {n : Nat} {i r : Str} {x : ScopeContent} (h : item n i = some (r, x)) : spRest r = r := by
  rcases alt_some.1 h with h | ⟨-, h⟩
  · obtain ⟨_, -, rfl⟩ := trimmed_some.1 h; exact spRest_idem _
  · rcases alt_some.1 h with h | ⟨-, h⟩
    · obtain ⟨_, -, rfl⟩ := trimmed_some.1 h; exact spRest_idem _
    · rcases alt_some.1 h with h | ⟨-, h⟩
      · obtain ⟨_, -, rfl⟩ := trimmed_some.1 h; exact spRest_idem _
      · obtain ⟨_, h, -⟩ := map_some.1 h
        obtain ⟨_, -, rfl⟩ := trimmed_some.1 h; exact spRest_idem _

theorem items_sp_end {n : Nat} {i r : Str} {xs : Sheet} (hi : spRest i = i) (h : many0 (item n) i = some (r, xs)) :
    spRest r = r := by
  generalize hn : i.length = m
  induction m using Nat.strongRecOn generalizing i r xs with
  | ind m ih =>
    cases h1 : item n i with
    | none => rw [many0_stop (suff_item n) h1] at h; cases h; exact hi
    | some y =>
      obtain ⟨r1, x⟩ := y
      have hl := prog_item n _ _ _ h1
      rw [many0_step (suff_item n) (prog_item n) h1] at h
      cases h2 : many0 (item n) r1 with
      | none => rw [h2] at h; cases h
      | some z =>
        rw [h2] at h
        cases h
        exact ih r1.length (by omega) (item_sp_end h1) h2 rfl

/-- The sheet of an accepted text is what the loop over its items reads. -/
theorem parse_items {css : Str} {sh : Sheet} (h : parse css = some sh) (hne : spRest css ≠ []) :
    ∃ r, many0 (item css.length) (spRest css) = some (r, sh) := by
  obtain ⟨r, xs, h1, h2⟩ := many0_total (suff_item css.length) (prog_item css.length) (spRest css)
  by_cases hr : r = []
  · subst hr
    rw [parse_intro hne h1] at h
    cases h
    exact ⟨_, h1⟩
  · rw [parse_stuck hr (items_sp_end (spRest_idem css) h1) h2 h1] at h
    cases h

theorem like_prefix {a : Str} (h : StartsLikeDecl a) (b : Str) : StartsLikeDecl (a ++ b) := by
  obtain ⟨w, k, w', t, h1, h2, h3, rfl⟩ := h
  exact ⟨w, k, w', t ++ b, h1, h2, h3, by simp⟩

/-- A text that ends in loose declarations: what is in front of them does not. -/
theorem layout_split {u : Str} {s : Sheet} (h : Layout u s) : EndsIn s →
    ∃ (u' w : Str) (s' : Sheet) (ds : List DeclSrc), Layout u' s' ∧ ds ≠ [] ∧ (∀ d ∈ ds, d.Ok) ∧ Blank w ∧
      u = u' ++ ((ds.map DeclSrc.text).flatten ++ w) ∧ s = s' ++ [.block [] (ds.map (fun d => .attr d.key [d.value]))] ∧
      ¬ EndsIn s' := by
  have one : ∀ {x : ScopeContent} {s : Sheet}, EndsIn (x :: s) → s ≠ [] → EndsIn s := by
    rintro x s ⟨c, s', e⟩ hs
    cases s' with
    | nil => simp at e; exact absurd e.2 hs
    | cons y s' => simp at e; exact ⟨c, s', e.2⟩
  have blk : ∀ {x : ScopeContent}, EndsIn [x] → ∃ c, x = .block [] c := by
    rintro x ⟨c, s', e⟩
    cases s' with
    | nil => simp at e; exact ⟨c, e⟩
    | cons y s' => simp at e
  have nil : ∀ {c : List RBC} {s' : Sheet}, ([] : Sheet) ≠ s' ++ [.block [] c] := by simp
  induction h with
  | nil w hw => rintro ⟨c, s', e⟩; exact absurd e nil
  | decls ds u rest hne hok hd hu ih =>
    intro he
    by_cases hr : rest = []
    · subst hr
      exact ⟨[], u, [], ds, .nil [] .nil, hne, hok, layout_nil hu, by simp, rfl, by rintro ⟨c, s', e⟩; exact nil e⟩
    · obtain ⟨u', w, s', es, h1, h2, h3, h4, rfl, rfl, h7⟩ := ih (one he hr)
      have hs' : s' ≠ [] := by
        rintro rfl
        refine hd ?_
        obtain ⟨b, k, b', t, q1, q2, q3, q4⟩ := decls_like h2 h3 w
        exact ⟨u' ++ b, k, b', t, GrammarP.blank_append (layout_nil h1) q1, q2, q3, by
          simp only [texts] at q4; rw [q4]; simp⟩
      refine ⟨(ds.map DeclSrc.text).flatten ++ u', w, _ :: s', es, .decls ds u' s' hne hok
        (fun hx => hd (like_prefix hx _)) h1, h2, h3, h4, by simp, rfl, fun hx => h7 (one hx hs')⟩
  | block l body u content rest hne hok hb hu ih =>
    intro he
    have hr : rest ≠ [] := by
      rintro rfl
      obtain ⟨c, e⟩ := blk he
      simp at e
      exact hne e.1
    obtain ⟨u', w, s', es, h1, h2, h3, h4, rfl, rfl, h7⟩ := ih (one he hr)
    refine ⟨_, w, _ :: s', es, .block l body u' content s' hne hok hb h1, h2, h3, h4, by simp, rfl, fun hx => ?_⟩
    by_cases hs' : s' = []
    · subst hs'
      obtain ⟨c, e⟩ := blk hx
      simp at e
      exact hne e.1
    · exact h7 (one hx hs')
  | rule a body u content rest ha hb hu _ ih =>
    intro he
    have hr : rest ≠ [] := by
      rintro rfl
      obtain ⟨c, e⟩ := blk he
      cases e
    obtain ⟨u', w, s', es, h1, h2, h3, h4, rfl, rfl, h7⟩ := ih (one he hr)
    refine ⟨_, w, _ :: s', es, .rule a body u' content s' ha hb h1, h2, h3, h4, by simp, rfl, fun hx => ?_⟩
    by_cases hs' : s' = []
    · subst hs'
      obtain ⟨c, e⟩ := blk hx
      cases e
    · exact h7 (one hx hs')
  | keyframes a body u frames rest ha hb hc hu ih =>
    intro he
    have hr : rest ≠ [] := by
      rintro rfl
      obtain ⟨c, e⟩ := blk he
      cases e
    obtain ⟨u', w, s', es, h1, h2, h3, h4, rfl, rfl, h7⟩ := ih (one he hr)
    refine ⟨_, w, _ :: s', es, .keyframes a body u' frames s' ha hb hc h1, h2, h3, h4, by simp, rfl, fun hx => ?_⟩
    by_cases hs' : s' = []
    · subst hs'
      obtain ⟨c, e⟩ := blk hx
      cases e
    · exact h7 (one hx hs')

theorem selI_eat {c : Char} {z R y : Str} (hz : SelI z) (hR : R.head? ≠ some c) (hc : c ≠ '"') (e : z ++ R = c :: y) :
    ∃ z', z = c :: z' ∧ SelI z' ∧ z' ++ R = y := by
  cases hz with
  | nil => rw [List.nil_append] at e; rw [e] at hR; exact absurd rfl hR
  | char d s _ _ hs =>
    simp only [List.cons_append, List.cons.injEq] at e
    obtain ⟨rfl, e⟩ := e
    exact ⟨s, rfl, hs, e⟩
  | str body s _ _ =>
    simp only [List.cons_append, List.cons.injEq] at e
    exact absurd e.1.symm hc

theorem selI_eats {R : Str} : ∀ {k z y : Str}, SelI z → (∀ c ∈ k, R.head? ≠ some c) → (∀ c ∈ k, c ≠ '"') → z ++ R = k ++ y →
    ∃ z', z = k ++ z' ∧ SelI z' ∧ z' ++ R = y
  | [], z, y, hz, _, _, e => ⟨z, rfl, hz, e⟩
  | c :: k, z, y, hz, hR, hq, e => by
    obtain ⟨z1, rfl, h1, h2⟩ := selI_eat hz (hR c (by simp)) (hq c (by simp)) e
    obtain ⟨z2, rfl, h3, h4⟩ := selI_eats h1 (fun d hd => hR d (by simp [hd])) (fun d hd => hq d (by simp [hd])) h2
    exact ⟨z2, rfl, h3, h4⟩

theorem selI_blank {R : Str} (hR : StopsSel R) {w : Str} (hw : Blank w) : ∀ {z y : Str}, SelI z → z ++ R = w ++ y →
    (∀ c ∈ w, c ∈ (c! " \t\r\n")) ∧ ∃ z', z = w ++ z' ∧ SelI z' ∧ z' ++ R = y := by
  induction hw with
  | nil => intro z y hz e; exact ⟨by simp, z, rfl, hz, e⟩
  | ws c w hc _ ih =>
    intro z y hz e
    obtain ⟨z1, rfl, h1, h2⟩ := selI_eat (c := c) hz (by
      obtain ⟨x, rfl | rfl⟩ := hR <;> (rintro h; cases h; revert hc; decide)) (by rintro rfl; revert hc; decide) e
    obtain ⟨h3, z2, rfl, h4, h5⟩ := ih h1 h2
    exact ⟨by intro d hd; rcases List.mem_cons.1 hd with rfl | hd <;> first | exact hc | exact h3 d hd, z2, rfl, h4, h5⟩
  | comment body w _ _ _ =>
    intro z y hz e
    exfalso
    cases hz with
    | nil => obtain ⟨x, rfl | rfl⟩ := hR <;> simp at e
    | char d s _ hd _ => simp at e; rw [e.1] at hd; revert hd; decide
    | str body' s _ _ => simp at e

/-- A selector of the form of an identifier and a colon before the brace ends in a colon. -/
theorem colon_last {s R k b' t y : Str} (hs : SelI s) (hn : NonBlank s) (hR : StopsSel R) (hk : Ident k) (hb : Blank b')
    (e : spRest (s ++ R) = k ++ (b' ++ ':' :: t)) (ht : spRest t = '{' :: y) : (Str.trim s).getLast? = some ':' := by
  obtain ⟨w, s', rfl, hw, -, hs', he⟩ := selI_lead hs hn R
  rw [he] at e
  have hkc : ∀ c ∈ k, isIdentChar c = true := by
    cases k with
    | nil => simp
    | cons c k =>
      intro d hd
      rcases List.mem_cons.1 hd with rfl | hd
      · exact hk.1
      · exact hk.2.2 d hd
  obtain ⟨z1, rfl, h1, e1⟩ := selI_eats hs' (by
    intro c hc
    have := hkc c hc
    obtain ⟨x, rfl | rfl⟩ := hR <;> (rintro h; cases h; revert this; decide)) (by
    rintro c hc rfl
    have := hkc _ hc
    revert this; decide) e
  obtain ⟨-, z2, rfl, h2, e2⟩ := selI_blank hR hb h1 e1
  obtain ⟨z3, rfl, h3, e3⟩ := selI_eat h2 (by obtain ⟨x, rfl | rfl⟩ := hR <;> simp) (by decide) e2
  obtain ⟨w2, hw2, et⟩ := GrammarP.spRest_text t
  rw [et, ht] at e3
  obtain ⟨h4, z4, rfl, h5, e4⟩ := selI_blank hR hw2 h3 e3
  have h6 : z4 = [] := by
    cases h5 with
    | nil => rfl
    | char d s _ hd _ => simp at e4; rw [e4.1] at hd; exact absurd hd (by decide)
    | str body' s _ _ => simp at e4
  subst h6
  have hws : ∀ c ∈ w2, Str.isWhitespace c = true := by
    intro c hc
    have := h4 c hc
    simp only [List.mem_cons, List.not_mem_nil, or_false] at this
    rcases this with rfl | rfl | rfl | rfl <;> decide
  have e5 : w ++ (k ++ (b' ++ ':' :: (w2 ++ []))) = (w ++ k ++ b') ++ ':' :: w2 := by simp
  rw [e5]
  generalize w ++ k ++ b' = x
  have hts : ∃ x', Str.trimStart (x ++ ':' :: w2) = x' ++ ':' :: w2 := by
    induction x with
    | nil => exact ⟨[], by rw [List.nil_append]; rfl⟩
    | cons c x ih =>
      obtain ⟨x', ih⟩ := ih
      by_cases hc : Str.isWhitespace c = true
      · exact ⟨x', by rw [← ih]; simp [Str.trimStart, hc]⟩
      · exact ⟨c :: x, by simp [Str.trimStart, hc]⟩
  obtain ⟨x', hx'⟩ := hts
  unfold Str.trim
  have e6 : x' ++ ':' :: w2 = (x' ++ [':']) ++ w2 := by simp
  rw [hx', e6, DeclsP.trimEnd_append hws, DeclsP.trimEnd_snoc (by decide)]
  simp

/-- A text of a block that begins like a declaration is read as one, if its first selector does
not end in a colon. -/
theorem block_swallow {v : Str} {sel : Selector} {sels : List Selector} {content : List RBC} {t : Sheet}
    (h : Layout v (.block (sel :: sels) content :: t)) (hc : sel.flatten.getLast? ≠ some ':') (hl : StartsLikeDecl v) :
    ∃ B, H B v ∧ ∃ r a, styleAttribute v = some (r, a) := by
  generalize hs : ScopeContent.block (sel :: sels) content :: t = sh at h
  cases h with
  | nil => cases hs
  | decls => cases hs
  | rule => cases hs
  | keyframes => cases hs
  | block l body u content' rest hne hok _ _ =>
    cases l with
    | nil => exact absurd rfl hne
    | cons s l =>
      simp only [List.map_cons, List.cons.injEq, ScopeContent.block.injEq] at hs
      obtain ⟨⟨⟨rfl, -⟩, -⟩, -⟩ := hs
      have e0 : selsText (s :: l) ++ c! "{" ++ body ++ c! "}" ++ u = selsText (s :: l) ++ '{' :: (body ++ '}' :: u) := by simp
      rw [e0] at hl ⊢
      have hH : H (body ++ '}' :: u) (selsText (s :: l) ++ '{' :: (body ++ '}' :: u)) :=
        ⟨_, selsText_hi _ (fun x hx => srcI_of_ok (hok x hx)), rfl⟩
      obtain ⟨k, b', t, hk, hb, e⟩ := JoinP.like_iff.1 hl
      refine ⟨_, hH, header_swallow hH hk hb e fun y hy => hc ?_⟩
      obtain ⟨h1, h2, h3⟩ := srcI_of_ok (hok s (by simp))
      obtain ⟨R, hR, eR⟩ : ∃ R, StopsSel R ∧ selsText (s :: l) ++ '{' :: (body ++ '}' :: u) = s.before ++ (s.sel ++ R) := by
        cases l with
        | nil => exact ⟨'{' :: (body ++ '}' :: u), ⟨_, Or.inr rfl⟩, by simp [selsText, Str.join]⟩
        | cons s2 l => exact ⟨',' :: (selsText (s2 :: l) ++ '{' :: (body ++ '}' :: u)), ⟨_, Or.inl rfl⟩, by rw [selsText_cons]⟩
      rw [eR, spRest_blank h1] at e
      have := colon_last h2 h3 hR hk hb e hy
      simpa using this

/-- Loose declarations in front of a block that looks like one more. -/
theorem join_swallow {u v : Str} {s : Sheet} (hu : Layout u s) (hs : EndsIn s) {B : Str} (hH : H B v)
    {r : Str} {a : Str × List Str} (hv : styleAttribute v = some (r, a)) {content : List RBC} {s' rest : Sheet}
    (he : ∃ c, s = s' ++ [.block [] c]) :
    parse (u ++ v) ≠ some (s' ++ .block [] content :: rest) := by
  intro hp
  obtain ⟨u', w, s1, ds, h1, h2, h3, h4, rfl, h6, h7⟩ := layout_split hu hs
  obtain ⟨c, he⟩ := he
  rw [h6] at he
  obtain ⟨rfl, -⟩ := List.append_inj' he rfl
  have hHw : H B (w ++ v) := by
    obtain ⟨x, hx, rfl⟩ := hH
    exact ⟨w ++ x, (hi_of_blank h4).append hx, by simp⟩
  have hvw : styleAttribute (w ++ v) = some (r, a) := by
    rw [← hv]; exact trimmed_eq_of_spRest (spRest_blank h4 v)
  let e := (ds.map DeclSrc.text).flatten ++ (w ++ v)
  have ecss : u' ++ ((ds.map DeclSrc.text).flatten ++ w) ++ v = u' ++ e := by simp [e]
  rw [ecss] at hp
  have hne : spRest (u' ++ e) ≠ [] := by
    intro h0
    obtain ⟨w0, hw0, ew⟩ := GrammarP.spRest_text (u' ++ e)
    rw [h0, List.append_nil] at ew
    rw [layout_parse (.nil _ (ew ▸ hw0))] at hp
    simp at hp
  obtain ⟨r2, h8⟩ := parse_items hp hne
  obtain ⟨r3, xs, h9, -⟩ := many0_total (suff_item (u' ++ e).length) (prog_item (u' ++ e).length) (spRest e)
  have h10 := layout_reads u'.length u' s1 (Nat.le_refl _) h1 (u' ++ e).length e (spRest (u' ++ e)) r3 xs (by simp)
    (fun hx => absurd hx h7) h9 (spRest_idem _) (by
      intro h0
      subst h0
      exact spRest_blank (layout_nil h1) e)
  rw [h10] at h8
  simp only [Option.some.injEq, Prod.mk.injEq, List.append_cancel_left_eq] at h8
  rw [h8.2] at h9
  cases h11 : item (u' ++ e).length (spRest e) with
  | none => rw [many0_stop (suff_item _) h11] at h9; simp at h9
  | some y =>
    obtain ⟨r4, x⟩ := y
    rw [many0_step (suff_item _) (prog_item _) h11] at h9
    cases h12 : many0 (item (u' ++ e).length) r4 with
    | none => rw [h12] at h9; cases h9
    | some z =>
      rw [h12] at h9
      simp only [Option.some.injEq, Prod.mk.injEq, List.cons.injEq] at h9
      rw [h9.2.1] at h11
      exact item_swallow h3 h2 hHw hvw (spRest e) (by rw [spRest_idem]) _ h11

/-- A text that begins like a declaration and not with one begins with a block. -/
theorem like_block {v : Str} {t : Sheet} (h : Layout v t) (hl : StartsLikeDecl v) (hb : ¬ Begins t) :
    ∃ sel sels content t', t = .block (sel :: sels) content :: t' := by
  cases h with
  | nil w hw =>
    obtain ⟨k, b', x, hk, -, e⟩ := JoinP.like_iff.1 hl
    have := spRest_blank hw []
    rw [List.append_nil, spRest_nil] at this
    rw [this] at e
    cases k with
    | nil => exact hk.elim
    | cons c k => cases e
  | decls ds u rest hne hok hd hu => exact absurd ⟨_, _, rfl⟩ hb
  | block l body u content rest hne hok _ _ =>
    cases l with
    | nil => exact absurd rfl hne
    | cons s l => exact ⟨_, _, _, _, rfl⟩
  | rule a body u content rest ha _ _ =>
    refine absurd ?_ (JoinP.like_at conditional_at ha (body ++ '}' :: u))
    simpa using hl
  | keyframes a body u frames rest ha _ _ _ =>
    refine absurd ?_ (JoinP.like_at keyframes_at ha (body ++ '}' :: u))
    simpa using hl

/-- The text of loose declarations, and a text that begins like one more without being one: the
declarations are lost. -/
theorem lost {u v : Str} {s t s' rest : Sheet} {c content : List RBC} (hu : Layout u s) (hv : Layout v t)
    (hs : s = s' ++ [.block [] c]) (hl : StartsLikeDecl v) (hb : ¬ Begins t)
    (hc : ∀ sel sels content t', t = .block (sel :: sels) content :: t' → sel.flatten.getLast? ≠ some ':') :
    parse (u ++ v) ≠ some (s' ++ .block [] content :: rest) := by
  obtain ⟨sel, sels, content', t', rfl⟩ := like_block hv hl hb
  obtain ⟨B, h1, r, a, h2⟩ := block_swallow hv (hc _ _ _ _ rfl) hl
  exact join_swallow hu ⟨c, s', hs⟩ h1 h2 ⟨c, hs⟩

end SwallowP
