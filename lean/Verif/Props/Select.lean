import Verif.Proofs.Select
import Verif.Props.Render
import Verif.Props.Browser
import Verif.Props.Macros

/-!
# What scoped styles apply to

C70 and C71. `Spec/Select` says what selectors mean in a document, whatever the simple
selectors in them mean.
-/

namespace Select

open Spec SelectP

variable {El : Type}

/-! ## C70: selectors mean what they say -/

/-- A page with an element of class `c` and a link below it. -/
def linkPage : Doc Bool where
  parent := fun e => if e then none else some true
  previous := fun _ => none
  meets := fun e s => if e then s = c! ".c" else s = c! "a" ∨ s = c! "[href=\"?x&y\"]"

/-- **C70 is false.** `&` and `:root` are replaced in strings and in the middle of names
too, and a selector with such a `&` is not restricted to the class any more. -/
theorem C70_false :
    ((∃ ps, pieces [] (.out 0) (c! "a[href=\"?x&y\"]") = some ps) ∧
      linkPage.Means (c! "c") (c! "a[href=\"?x&y\"]") false ∧
      ¬ linkPage.Matches (Selector.write (some (c! "c")) [c! "a[href=\"?x&y\"]"]) false) ∧
    Selector.write (some (c! "c")) [c! "a[href=\"?x&y\"]"] = c! "a[href=\"?x.cy\"]" ∧
    Selector.write (some (c! "c")) [c! "a:not(:rooted)"] = c! "a:not(.ced)" ∧
    Selector.write (some (c! "c")) [c! "&p"] = c! ".cp" := by
  refine ⟨⟨⟨_, by rfl⟩, ?_, ?_⟩, by decide, by decide, by decide⟩
  · unfold Doc.Means
    rw [if_neg (by decide)]
    refine ⟨true, rfl, [.simple (c! "a"), .simple (c! "[href=\"?x&y\"]")], by decide, by simp, ?_⟩
    refine ⟨⟨⟨true, rfl, .child rfl⟩, ?_⟩, ?_⟩ <;> simp [linkPage]
  · rintro ⟨first, r, h1, h2⟩
    have h3 : readSelector (Selector.write (some (c! "c")) [c! "a[href=\"?x&y\"]"]) =
        some [.simple (c! "a"), .simple (c! "[href=\"?x.cy\"]")] := by decide
    rw [h3] at h1
    cases h1
    obtain ⟨-, h4⟩ := h2
    simp [linkPage] at h4

/-- **C70, partial.** A printed selector matches exactly the elements that the selector
should match: `&` and `:root` are the elements of the class; without them, the selector is
about the elements below one of the class, or, beginning with a pseudo-class, about the
elements of the class. Missing: selectors in which `&` or `:root` are in strings or brackets,
part of a name, or `&` right in front of a name; for some of these it is false. -/
theorem C70_meaning_partial (cls : Str) (hcls : CleanClass cls) (s : Selector) (hs : PlainSelector s.flatten)
    (D : Doc El) (e : El) : D.Matches (Selector.write (some cls) s) e ↔ D.Means cls s.flatten e := by
  rw [SelectorP.write_spec (some cls) (by
    rintro c ⟨⟩ hc
    have := (hcls.2 ':' hc).1
    revert this; decide) s]
  exact means hcls hs.2.2 hs.1 (fun c hc => (hs.2.1 c hc).1) D e

theorem expand_head {cur s : Str} (hne : s ≠ []) (hcur : cur.head? = some '.') (h : s.head? ≠ some '@') :
    (expand cur s).head? ≠ some '@' ∧ expand cur s ≠ [] := by
  cases cur with
  | nil => cases hcur
  | cons d cur =>
    have hd : d = '.' := by simpa using hcur
    subst hd
    cases s with
    | nil => exact absurd rfl hne
    | cons c s =>
      by_cases hamp : c = '&'
      · subst hamp; rw [expand]; simp
      by_cases hroot : c! ":root" <+: c :: s
      · obtain ⟨t, ht⟩ := hroot
        rw [← ht, expand_root]; simp
      · rw [expand_cons hamp hroot]
        simpa using h

theorem scope_head {cls s : Str} (hne : s ≠ []) (h : s.head? ≠ some '@') :
    (scopeSelector (some cls) s).head? ≠ some '@' ∧ scopeSelector (some cls) s ≠ [] := by
  unfold scopeSelector
  dsimp only
  split
  · exact expand_head hne rfl h
  · split <;> simp

theorem join_head {cls : Str} {sels : List Selector} (hs : ∀ s ∈ sels, PlainSelector s.flatten) :
    (Str.join (c! ", ") (sels.map (fun s => scopeSelector (some cls) s.flatten))).head? ≠ some '@' := by
  cases sels with
  | nil => simp [Str.join]
  | cons s l =>
    obtain ⟨h1, h2, -⟩ := hs s (by simp)
    have h3 := scope_head (cls := cls) h1 (fun hc => (h2 '@' hc).2 rfl)
    cases hx : scopeSelector (some cls) s.flatten with
    | nil => exact absurd hx h3.2
    | cons c x =>
      rw [hx] at h3
      cases l <;> simp [Str.join, hx] <;> simpa using h3.1

/-- What the header of a block applies to. -/
theorem applies_iff {cls : Str} (hcls : CleanClass cls) {sels : List Selector} (hs : ∀ s ∈ sels, PlainSelector s.flatten)
    {chain : List Str} (hk : ∀ r ∈ chain, ¬ c! "keyframes" <:+: r) {d : Decl}
    (hd : d.path = chain ++ [printedSelectors (scopeSelector (some cls)) ('.' :: cls) sels]) (D : Doc El) (e : El) :
    D.Applies d e ↔ if sels = [] then D.meets e ('.' :: cls) else ∃ s ∈ sels, D.Means cls s.flatten e := by
  have hl : ∀ s, s = printedSelectors (scopeSelector (some cls)) ('.' :: cls) sels →
      s.head? ≠ some '@' ∧ ((∃ x ∈ selectorList [] (.out 0) s, D.Matches x e) ↔
        if sels = [] then D.meets e ('.' :: cls) else ∃ s ∈ sels, D.Means cls s.flatten e) := by
    rintro s rfl
    unfold printedSelectors
    by_cases hne : sels = []
    · rw [if_pos hne, if_pos hne]
      refine ⟨by simp, ?_⟩
      have := list_join ['.' :: cls] (by
        intro t ht
        have : t = '.' :: cls := by simpa using ht
        subst this
        have := pieces_cls hcls [] []
        rw [List.append_nil] at this
        rw [this]
        exact ⟨_, rfl⟩) (by simp) []
      rw [show Str.join (c! ", ") ['.' :: cls] = '.' :: cls from rfl] at this
      rw [this]
      simpa using matches_cls hcls D e
    · rw [if_neg hne, if_neg hne]
      exact ⟨join_head hs, list_means hcls sels hs hne D e⟩
  obtain ⟨h1, h2⟩ := hl _ rfl
  rw [← h2]
  constructor
  · rintro ⟨rules, sel, h3, -, -, h4⟩
    rw [hd] at h3
    obtain ⟨-, h5⟩ := List.append_inj' h3 rfl
    cases h5
    exact h4
  · intro h3
    exact ⟨chain, _, hd, h1, hk, h3⟩

/-- **C70, partial**, for the declarations of a sheet: the declaration number `i`, written
in a block with the selectors `sels` (the innermost block with selectors) under the at-rules
`chain`, applies exactly to the elements that one of `sels` should match, and to the elements
of the class if there is no selector. (Missing as above.) -/
theorem C70_applies_partial (s : Sheet) (cls : Str) (hcls : CleanClass cls) (i : Nat) (d : Decl)
    (hd : (decls (some cls) s)[i]? = some d) (chain : List Str)
    (hc : (chainsInAll [] (s.map ScopeContent.toRBC))[i]? = some chain) (hk : ∀ r ∈ chain, ¬ c! "keyframes" <:+: r)
    (sels : List Selector) (hq : (selectorsInAll none (s.map ScopeContent.toRBC))[i]? = some (some sels))
    (hs : ∀ x ∈ sels, PlainSelector x.flatten) (D : Doc El) (e : El) :
    D.Applies d e ↔ if sels = [] then D.meets e ('.' :: cls) else ∃ x ∈ sels, D.Means cls x.flatten e := by
  refine applies_iff hcls hs hk ?_ D e
  have h := (selectorsAll_decls (scopeSelector (some cls)) (current (some cls)) (s.map ScopeContent.toRBC) [] none).2
  have h1 := congrArg (fun l => l[i]?) h
  simp only [List.getElem?_map, List.getElem?_zipWith] at h1
  rw [hc, hq] at h1
  have hd' : (declsInAll (scopeSelector (some cls)) (current (some cls)) [] none (s.map ScopeContent.toRBC))[i]? = some d := hd
  rw [show Option.map (printedSelectors (scopeSelector (some cls)) (current (some cls))) none = none from rfl, hd'] at h1
  simpa [current] using h1

/-- **C70, partial**, for the text that a browser reads. (Missing as above.) -/
theorem C70_in_the_text_partial (s : Sheet) (cls : Str) (hcls : CleanClass cls) (hw : WholeSheet s) :
    ∃ ds, browserReads (s.toStyleStr (some cls)) = some ds ∧
      ds.length = (selectorsInAll none (s.map ScopeContent.toRBC)).length ∧
      ∀ (i : Nat) (chain : List Str) (sels : List Selector),
        (chainsInAll [] (s.map ScopeContent.toRBC))[i]? = some chain → (∀ r ∈ chain, ¬ c! "keyframes" <:+: r) →
        (selectorsInAll none (s.map ScopeContent.toRBC))[i]? = some (some sels) →
        (∀ x ∈ sels, PlainSelector x.flatten) →
        ∃ d, ds[i]? = some d ∧ ∀ (D : Doc El) (e : El),
          D.Applies d e ↔ if sels = [] then D.meets e ('.' :: cls) else ∃ x ∈ sels, D.Means cls x.flatten e := by
  have hlen : (decls (some cls) s).length = (selectorsInAll none (s.map ScopeContent.toRBC)).length := by
    have h := selectorsAll_decls (scopeSelector (some cls)) (current (some cls)) (s.map ScopeContent.toRBC) [] none
    have h1 := congrArg List.length h.2
    simp only [List.length_map, List.length_zipWith, ← h.1, Nat.min_self] at h1
    exact h1
  refine ⟨_, C68_browser_reads s (some cls) (by rintro c ⟨⟩; exact hcls) hw, hlen, ?_⟩
  intro i chain sels hc hk hq hs
  have hi : i < (decls (some cls) s).length := by
    rw [hlen]
    exact (List.getElem?_eq_some_iff.1 hq).1
  exact ⟨_, List.getElem?_eq_getElem hi, fun D e =>
    C70_applies_partial s cls hcls i _ (List.getElem?_eq_getElem hi) chain hc hk sels hq hs D e⟩

/-- A sheet with selectors of all kinds. -/
def kinds : Sheet :=
  [ .block [] [.attr (c! "color") [c! "red"]],
    .block [[c! "p > a[href=\"x, y\"]"], [c! ":hover"], [c! "> q:not(.a)"]] [.attr (c! "top") [c! "0"]],
    .rule [c! "@media ", c! "print"] [.block [[c! ".dark &.on::before"], [c! ":root p"]] [.attr (c! "left") [c! "1"]]],
    .rule [c! "@keyframes ", c! "m"] [.rule [c! "from"] [.attr (c! "top") [c! "1"]]] ]

/-- Non-vacuity: what the selectors are read as, and the conditions of `C70_applies_partial`. -/
example : readSelector (c! "p > a[href=\"x, y\"]") = some [.simple (c! "p"), .comb .child, .simple (c! "a"), .simple (c! "[href=\"x, y\"]")] ∧
    readSelector (c! ":hover") = some [.simple (c! ":hover")] ∧
    readSelector (c! "> q:not(.a)") = some [.comb .child, .simple (c! "q"), .simple (c! ":not(.a)")] ∧
    readSelector (c! ".dark &.on::before") = some [.simple (c! ".dark"), .comb .below, .simple (c! "&"), .simple (c! ".on"), .simple (c! "::before")] ∧
    readSelector (c! ":root p") = some [.simple (c! ":root"), .comb .below, .simple (c! "p")] ∧
    SelectorsOf PlainSelector kinds := by decide +kernel

example : chainsInAll [] (kinds.map ScopeContent.toRBC) = [[], [], [c! "@media print"], [c! "@keyframes m", c! "from"]] ∧
    (selectorsInAll none (kinds.map ScopeContent.toRBC)).map (Option.map List.length) = [some 0, some 3, some 2, none] ∧
    (decls (some (c! "c")) kinds).map Decl.path = [[c! ".c"],
      [c! ".c p > a[href=\"x, y\"], .c:hover, .c > q:not(.a)"],
      [c! "@media print", c! ".dark .c.on::before, .c p"], [c! "@keyframes m", c! "from"]] := by decide +kernel

/-! ## C71: scoped styles stay inside -/

mutual
theorem decls_rules (sel : Str → Str) (cur : Str) : ∀ (x : RBC) (rules : List Str) (o : Option Str),
    ∀ d ∈ declsIn sel cur rules o x, ∀ r ∈ rules, r ∈ d.path
  | .attr k v, rules, o => by
    intro d hd r hr
    simp only [declsIn, List.mem_cons, List.not_mem_nil, or_false] at hd
    subst hd
    exact List.mem_append_left _ hr
  | .rule c b, rules, o => by
    intro d hd r hr
    exact declsAll_rules sel cur b _ _ d hd r (by simp [hr])
  | .block c b, rules, o => by
    intro d hd r hr
    exact declsAll_rules sel cur b _ _ d hd r hr
theorem declsAll_rules (sel : Str → Str) (cur : Str) : ∀ (xs : List RBC) (rules : List Str) (o : Option Str),
    ∀ d ∈ declsInAll sel cur rules o xs, ∀ r ∈ rules, r ∈ d.path
  | [], rules, o => by intro d hd; cases hd
  | x :: xs, rules, o => by
    intro d hd
    rcases List.mem_append.1 hd with hd | hd
    · exact decls_rules sel cur x rules o d hd
    · exact declsAll_rules sel cur xs rules o d hd
end

/-- In `@keyframes` nothing applies to elements. -/
theorem not_applies {D : Doc El} {d : Decl} {e : El} {r : Str} (hr : r ∈ d.path) (hat : r.head? = some '@')
    (hk : c! "keyframes" <:+: r) : ¬ D.Applies d e := by
  rintro ⟨rules, sel, h1, h2, h3, -⟩
  rw [h1] at hr
  rcases List.mem_append.1 hr with hr | hr
  · exact h3 r hr hk
  · have : r = sel := by simpa using hr
    subst this
    exact h2 hat

mutual
theorem decls_inside {cls : Str} (hcls : CleanClass cls) {D : Doc El} {e : El} :
    ∀ (x : RBC) (rules : List Str) (o : Option Str),
    SelectorsIn (fun s => PlainSelector s ∧ staysInside s = true) x → (∀ r ∈ rules, r.head? = some '@') →
    (∀ t ∈ o, (∃ s ∈ selectorList [] (.out 0) t, D.Matches s e) → D.Inside cls e) →
    ∀ d ∈ declsIn (scopeSelector (some cls)) ('.' :: cls) rules o x, D.Applies d e → D.Inside cls e
  | .attr k v, rules, o => by
    rintro - hr ho d hd ⟨rs, sel, h1, h2, -, h3⟩
    simp only [declsIn, List.mem_cons, List.not_mem_nil, or_false] at hd
    subst hd
    cases o with
    | none =>
      exfalso
      have : sel ∈ rules := by
        have : rules = rs ++ [sel] := by simpa using h1
        rw [this]; simp
      exact h2 (hr sel this)
    | some t =>
      have : t = sel := by
        have := (List.append_inj' (show rules ++ [t] = rs ++ [sel] from h1) rfl).2
        simpa using this
      subst this
      exact ho t rfl h3
  | .rule c b, rules, o => by
    intro h hr ho d hd ha
    rcases h.2 with hk | hb
    · exact absurd ha (not_applies (declsAll_rules _ _ b _ _ d hd c.flatten (by simp)) h.1 hk)
    · refine declsAll_inside hcls b _ o hb ?_ ho d hd ha
      intro r hm
      rcases List.mem_append.1 hm with hm | hm
      · exact hr r hm
      · have : r = c.flatten := by simpa using hm
        rw [this]; exact h.1
  | .block c b, rules, o => by
    intro h hr ho d hd ha
    refine declsAll_inside hcls b _ _ h.2 hr ?_ d hd ha
    rintro t ht ⟨s, hs, hm⟩
    have ht : blockSelector (scopeSelector (some cls)) ('.' :: cls) o c = t := by simpa using ht
    have hcls' : ∀ {t}, t = '.' :: cls → ∀ s ∈ selectorList [] (.out 0) t, D.Matches s e → D.Inside cls e := by
      rintro _ rfl s hs hm
      have := (applies_iff (sels := []) (chain := []) hcls (by simp) (by simp)
        (d := ⟨['.' :: cls], [], []⟩) (by simp [printedSelectors]) D e).1
          ⟨[], '.' :: cls, rfl, by simp, by simp, s, hs, hm⟩
      rw [if_pos rfl] at this
      exact ⟨e, this, .inl rfl⟩
    cases c with
    | nil =>
      cases o with
      | none => exact hcls' ht.symm s hs hm
      | some t' =>
        have : t' = t := ht
        subst this
        exact ho t' rfl ⟨s, hs, hm⟩
    | cons x xs =>
      have e1 : t = Str.join (c! ", ") ((x :: xs).map (fun s => scopeSelector (some cls) s.flatten)) := ht.symm
      subst e1
      obtain ⟨y, h1, h2⟩ := (list_means hcls (x :: xs) (fun s hs => (h.1 s hs).1) (by simp) D e).1 ⟨s, hs, hm⟩
      exact means_inside D (h.1 y h1).2 h2
theorem declsAll_inside {cls : Str} (hcls : CleanClass cls) {D : Doc El} {e : El} :
    ∀ (xs : List RBC) (rules : List Str) (o : Option Str),
    SelectorsInAll (fun s => PlainSelector s ∧ staysInside s = true) xs → (∀ r ∈ rules, r.head? = some '@') →
    (∀ t ∈ o, (∃ s ∈ selectorList [] (.out 0) t, D.Matches s e) → D.Inside cls e) →
    ∀ d ∈ declsInAll (scopeSelector (some cls)) ('.' :: cls) rules o xs, D.Applies d e → D.Inside cls e
  | [], rules, o => by intro _ _ _ d hd; cases hd
  | x :: xs, rules, o => by
    intro h hr ho d hd
    rcases List.mem_append.1 hd with hd | hd
    · exact decls_inside hcls x rules o h.1 hr ho d hd
    · exact declsAll_inside hcls xs rules o h.2 hr ho d hd
end

/-- **C71.** If no selector of a sheet goes to siblings of the current element, then in every
document each declaration of the style for a class applies to elements only that have the
class or are below an element that has it. -/
theorem C71_stays_inside (s : Sheet) (cls : Str) (hcls : CleanClass cls)
    (hs : SelectorsOf (fun x => PlainSelector x ∧ staysInside x = true) s) (D : Doc El) (e : El) (d : Decl)
    (hd : d ∈ decls (some cls) s) (ha : D.Applies d e) : D.Inside cls e :=
  declsAll_inside hcls _ [] none hs (by simp) (by simp) d hd ha

/-- **C71**, for the text that a browser reads. -/
theorem C71_in_the_text (s : Sheet) (cls : Str) (hcls : CleanClass cls) (hw : WholeSheet s)
    (hs : SelectorsOf (fun x => PlainSelector x ∧ staysInside x = true) s) :
    ∃ ds, browserReads (s.toStyleStr (some cls)) = some ds ∧
      ∀ (D : Doc El) (e : El), ∀ d ∈ ds, D.Applies d e → D.Inside cls e :=
  ⟨_, C68_browser_reads s (some cls) (by rintro c ⟨⟩; exact hcls) hw,
    fun D e d hd ha => C71_stays_inside s cls hcls hs D e d hd ha⟩

/-- Non-vacuity: the selectors above stay inside. -/
example : SelectorsOf (fun x => PlainSelector x ∧ staysInside x = true) kinds ∧ WholeSheet kinds := by decide +kernel

/-- A page with an element of class `c`, and a `p` next to it. -/
def nextPage : Doc Bool where
  parent := fun _ => none
  previous := fun e => if e then none else some true
  meets := fun e s => if e then s = c! ".c" else s = c! "p"

/-- The limits of C71: selectors such as `& + p` go to siblings, and a text with a comma in
the place of one selector (as it arises if a list of selectors is interpolated) has a part
that applies everywhere. -/
theorem C71_limit :
    (∃ d ∈ decls (some (c! "c")) [.block [[c! "& + p"]] [.attr (c! "top") [c! "0"]]],
      nextPage.Applies d false ∧ ¬ nextPage.Inside (c! "c") false) ∧
    (∃ d ∈ decls (some (c! "c")) [.block [[c! "a, p"]] [.attr (c! "top") [c! "0"]]],
      nextPage.Applies d false ∧ ¬ nextPage.Inside (c! "c") false) ∧
    (((Macro.expand (fun _ => true) [.lit [] (some (c! "${x} { top: 0; }")), .punct ',' false, .ident (c! "x") false,
        .punct '=' false, .ident (c! "y") false]).bind (fun c => c.evalMany [fun _ => c! "a, p"] none)).map
      (List.map (fun t => decls (some (c! "c")) (Storage.eraseSheet t))) =
        some [[⟨[c! ".c a, p"], c! "top", c! "0"⟩]]) := by
  have hout : ¬ nextPage.Inside (c! "c") false := by
    rintro ⟨a, h1, h2 | h2⟩
    · subst h2; simp [nextPage] at h1
    · cases h2 <;> simp [nextPage] at *
  refine ⟨⟨⟨[c! ".c + p"], c! "top", c! "0"⟩, by decide, ?_, hout⟩, ⟨⟨[c! ".c a, p"], c! "top", c! "0"⟩, by decide, ?_, hout⟩,
    by decide +kernel⟩
  · refine ⟨[], c! ".c + p", rfl, by decide, by simp, c! ".c + p", by decide, c! ".c", [.comb .next, .simple (c! "p")], by decide, ?_⟩
    exact ⟨⟨true, ⟨trivial, rfl⟩, rfl⟩, rfl⟩
  · refine ⟨[], c! ".c a, p", rfl, by decide, by simp, c! " p", by decide, c! "p", [], by decide, ?_⟩
    exact ⟨trivial, rfl⟩

end Select

namespace Manager

open Spec

/-- **C71** on the page: a style is made from css as in C69. As long as it is held, the page
has one element for its class, and what a browser reads in it applies to elements only that
have the class or are below an element that has it. -/
theorem C71_on_page (env : Env) (hw : env.wasm = true) (d : Dom) (ops ops' : List Op) (s s1 s2 : St)
    (hs : s = run env ops (St.init d)) (hload : ∀ mh data, Op.load mh data ∉ ops) (mh h i n : Nat) (kind : Kind)
    (hkind : kind.forPage = false)
    (css : Str) (sh : Sheet) (hcss : Layout css sh) (hwhole : WholeSheet sh)
    (hsel : SelectorsOf (fun x => PlainSelector x ∧ staysInside x = true) sh) (fault : Bool) (m : Mgr)
    (hi : s.mgrOf mh = some i) (hm : s.mgrs[i]? = some m) (hlog : m.log = none) (hcont : m.container = some n)
    (ha : Attached d n) (h1 : step env (.create mh kind (.text css) fault) s = (s1, .style h))
    (h2 : s2 = run env ops' s1) (hid : ∀ c ∈ s2.heap, cssIdent c.id = true) (hn : (s2.heap.map Content.id).Nodup)
    (cls : Str) (hc : s2.className h = some cls) (hws : ∀ c ∈ cls, Str.isWhitespace c = false)
    (hb : withId cls d.inDoc = []) :
    ∃ text ds, withId cls s2.dom.inDoc = [.style cls text] ∧ browserReads text = some ds ∧ ds = decls (some cls) sh ∧
      ∀ (El : Type) (D : Doc El) (e : El), ∀ d ∈ ds, D.Applies d e → D.Inside cls e := by
  obtain ⟨text, h3, h4⟩ := C69_css_on_page env hw d ops ops' s s1 s2 hs hload mh h i n kind css sh hcss hwhole fault m hi hm
    hlog hcont ha h1 h2 hid hn cls hc hws hb
  rw [hkind] at h4
  refine ⟨text, _, h3, h4, rfl, fun El D e x hx hap => ?_⟩
  refine Select.C71_stays_inside sh cls (cleanClass_of_ident ?_ hws) hsel D e x hx hap
  cases hp : s2.contentOf h with
  | none => simp [St.className, hp] at hc
  | some p =>
    simp only [St.className, hp, Option.bind_some, Option.map_eq_some_iff] at hc
    obtain ⟨c, hc1, rfl⟩ := hc
    exact hid c (List.mem_of_getElem? hc1)

/-- Non-vacuity, beside that of C69: the sheet there. -/
example : SelectorsOf (fun x => PlainSelector x ∧ staysInside x = true) layoutSheet ∧ Kind.scoped.forPage = false := by
  decide +kernel

end Manager
