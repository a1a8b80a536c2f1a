import Verif.Proofs.SelectDeep
import Verif.Props.SelectGlobal

/-!
# Selectors in brackets

C70 and C75 for selectors such as `p:not(&)`, `:is(.a, & > q)` or `li:has(> &)`. `Spec/SelectDeep` says what
these mean. All theorems are for all functional pseudo-classes `F` whose meaning depends only
on which elements the selectors in the brackets match, or match from an element.
-/

namespace Select

open Spec SelectP

variable {El : Type}

/-- How deep brackets are read does not matter if it is at least the length of a text. -/
theorem C70_depth (F : Funcs El) (D : Doc El) (s : Str) (n m : Nat) (hn : s.length ≤ n) (hm : s.length ≤ m) (e : El) :
    (D.deep F n).Matches s e ↔ (D.deep F m).Matches s e := by
  refine matches_same (by rw [deep_parent, deep_parent]) (by rw [deep_previous, deep_previous]) id id
    (fun _ => rfl) (fun _ => rfl) (by simp) (fun r hr y hy e => ?_) e
  obtain ⟨ps, h4, h5⟩ := read_mem hr hy
  have h6 := (pieces_infix _ _ _ _ h4 y h5).length_le
  rw [List.nil_append] at h6
  exact deep_stable F D n m y (by omega) (by omega) e

/-- **C70, partial**, with selectors in brackets: a printed selector matches exactly the
elements that the selector should match, `&` and `:root` being the elements of the class in
brackets too. Missing: selectors in which `&` or `:root` are in strings, in the brackets of
something that does not take a list of selectors, part of a name, or `&` right in front of a
name; for some of these it is false. -/
theorem C70_brackets_partial (F : Funcs El) (n : Nat) (cls : Str) (hcls : CleanClass cls) (s : Selector)
    (hs : NestedSelector F.takes n s.flatten) (D : Doc El) (e : El) :
    (D.deep F n).Matches (Selector.write (some cls) s) e ↔ D.MeansDeep F n cls s.flatten e := by
  rw [SelectorP.write_spec (some cls) (by
    rintro c ⟨⟩ hc
    have := (hcls.2 ':' hc).1
    revert this; decide) s]
  exact means_deep F n hcls hs D e

/-- What a block applies to is what its list of selectors matches. -/
theorem applies_list {D : Doc El} {e : El} {chain : List Str} {sel : Str} (hk : ∀ r ∈ chain, ¬ c! "keyframes" <:+: r)
    (hhead : sel.head? ≠ some '@') {d : Decl} (hd : d.path = chain ++ [sel]) :
    D.Applies d e ↔ ∃ x ∈ selectorList [] (.out 0) sel, D.Matches x e := by
  constructor
  · rintro ⟨rules, sel', h3, -, -, h4⟩
    rw [hd] at h3
    obtain ⟨-, h5⟩ := List.append_inj' h3 rfl
    cases h5
    exact h4
  · intro h3
    exact ⟨chain, _, hd, hhead, hk, h3⟩

theorem printed_head {w : Str → Str} {sels : List Selector} (hne : sels ≠ [])
    (hs : ∀ s ∈ sels, (w s.flatten).head? ≠ some '@' ∧ w s.flatten ≠ []) :
    (Str.join (c! ", ") (sels.map (fun s => w s.flatten))).head? ≠ some '@' := by
  cases sels with
  | nil => exact absurd rfl hne
  | cons s l =>
    have h3 := hs s (by simp)
    cases hx : w s.flatten with
    | nil => exact absurd hx h3.2
    | cons c x =>
      rw [hx] at h3
      cases l <;> simp [Str.join, hx] <;> simpa using h3.1

/-- **C70, partial**, with selectors in brackets, for the text that a browser reads: the
declaration number `i`, written in a block with the selectors `sels` (the innermost block
with selectors) under the at-rules `chain`, applies exactly to the elements that one of
`sels` should match, and to the elements of the class if there is no selector. (Missing as
above.) -/
theorem C70_brackets_in_the_text_partial (F : Funcs El) (n : Nat) (s : Sheet) (cls : Str) (hcls : CleanClass cls)
    (hw : WholeSheet s) :
    ∃ ds, browserReads (s.toStyleStr (some cls)) = some ds ∧
      ds.length = (selectorsInAll none (s.map ScopeContent.toRBC)).length ∧
      ∀ (i : Nat) (chain : List Str) (sels : List Selector),
        (chainsInAll [] (s.map ScopeContent.toRBC))[i]? = some chain → (∀ r ∈ chain, ¬ c! "keyframes" <:+: r) →
        (selectorsInAll none (s.map ScopeContent.toRBC))[i]? = some (some sels) →
        (∀ x ∈ sels, NestedSelector F.takes n x.flatten) →
        ∃ d, ds[i]? = some d ∧ ∀ (D : Doc El) (e : El), (D.deep F n).Applies d e ↔
          if sels = [] then D.meets e ('.' :: cls) else ∃ x ∈ sels, D.MeansDeep F n cls x.flatten e := by
  have h := selectorsAll_decls (scopeSelector (some cls)) (current (some cls)) (s.map ScopeContent.toRBC) [] none
  have hlen : (decls (some cls) s).length = (selectorsInAll none (s.map ScopeContent.toRBC)).length := by
    have h1 := congrArg List.length h.2
    simp only [List.length_map, List.length_zipWith, ← h.1, Nat.min_self] at h1
    exact h1
  refine ⟨_, C68_browser_reads s (some cls) (by rintro c ⟨⟩; exact hcls) hw, hlen, ?_⟩
  intro i chain sels hc hk hq hs
  have hi : i < (decls (some cls) s).length := by
    rw [hlen]
    exact (List.getElem?_eq_some_iff.1 hq).1
  have hpath : (decls (some cls) s)[i].path = chain ++ [printedSelectors (scopeSelector (some cls)) ('.' :: cls) sels] := by
    have h1 := congrArg (fun l => l[i]?) h.2
    simp only [List.getElem?_map, List.getElem?_zipWith] at h1
    rw [hc, hq] at h1
    have hd' : (declsInAll (scopeSelector (some cls)) (current (some cls)) [] none (s.map ScopeContent.toRBC))[i]? =
        some (decls (some cls) s)[i] := List.getElem?_eq_getElem hi
    rw [show Option.map (printedSelectors (scopeSelector (some cls)) (current (some cls))) none = none from rfl, hd'] at h1
    simpa [current] using h1
  refine ⟨_, List.getElem?_eq_getElem hi, fun D e => ?_⟩
  by_cases hne : sels = []
  · rw [if_pos hne]
    rw [printedSelectors, if_pos hne] at hpath
    rw [applies_list hk (by simp) hpath]
    have := list_join ['.' :: cls] (by
      intro t ht
      have : t = '.' :: cls := by simpa using ht
      subst this
      have := pieces_cls hcls [] []
      rw [List.append_nil] at this
      rw [this]
      exact ⟨_, rfl⟩) (by simp) []
    rw [show Str.join (c! ", ") ['.' :: cls] = '.' :: cls from rfl] at this
    rw [this, ← deep_meets_none F D n (class_no_call hcls)]
    simpa using matches_cls hcls (D.deep F n) e
  · rw [if_neg hne]
    rw [printedSelectors, if_neg hne] at hpath
    rw [applies_list hk (printed_head hne (fun s hm => scope_head (hs s hm).1 (fun h' => ((hs s hm).2.1 '@' h').2 rfl))) hpath]
    exact list_matches (D.deep F n) e (scopeSelector (some cls)) (D.MeansDeep F n cls · e) sels
      (fun s hm => printed_deep F.takes n hcls (hs s hm)) (fun s hm => means_deep F n hcls (hs s hm) D e) hne

/-- **C75, partial**, with selectors in brackets. Missing: selectors with `&` in strings, in
the brackets of something that does not take a list of selectors, right in front of a name or
after a lone colon; for some of these it is false. -/
theorem C75_brackets_partial (F : Funcs El) (n : Nat) (s : Selector) (hs : NestedGlobalSelector F.takes n s.flatten)
    (D : Doc El) (e : El) :
    (D.deep F n).Matches (Selector.write none s) e ↔ (D.withRoot.deep F n).Matches s.flatten e := by
  rw [SelectorP.write_spec none (by simp) s]
  exact (means_deep_global F n hs D e).2

/-- **C75, partial**, with selectors in brackets, for the text that a browser reads. (Missing
as above.) -/
theorem C75_brackets_in_the_text_partial (F : Funcs El) (n : Nat) (s : Sheet) (hw : WholeSheet s) :
    ∃ ds, browserReads (s.toStyleStr none) = some ds ∧
      ds.length = (selectorsInAll none (s.map ScopeContent.toRBC)).length ∧
      ∀ (i : Nat) (chain : List Str) (sels : List Selector),
        (chainsInAll [] (s.map ScopeContent.toRBC))[i]? = some chain → (∀ r ∈ chain, ¬ c! "keyframes" <:+: r) →
        (selectorsInAll none (s.map ScopeContent.toRBC))[i]? = some (some sels) →
        (∀ x ∈ sels, NestedGlobalSelector F.takes n x.flatten) →
        ∃ d, ds[i]? = some d ∧ ∀ (D : Doc El) (e : El), (D.deep F n).Applies d e ↔
          if sels = [] then D.meets e (c! ":root") else ∃ x ∈ sels, (D.withRoot.deep F n).Matches x.flatten e := by
  have h := selectorsAll_decls (scopeSelector none) (current none) (s.map ScopeContent.toRBC) [] none
  have hlen : (decls none s).length = (selectorsInAll none (s.map ScopeContent.toRBC)).length := by
    have h1 := congrArg List.length h.2
    simp only [List.length_map, List.length_zipWith, ← h.1, Nat.min_self] at h1
    exact h1
  refine ⟨_, C68_browser_reads s none (by simp) hw, hlen, ?_⟩
  intro i chain sels hc hk hq hs
  have hi : i < (decls none s).length := by
    rw [hlen]
    exact (List.getElem?_eq_some_iff.1 hq).1
  have hpath : (decls none s)[i].path = chain ++ [printedSelectors (scopeSelector none) (c! ":root") sels] := by
    have h1 := congrArg (fun l => l[i]?) h.2
    simp only [List.getElem?_map, List.getElem?_zipWith] at h1
    rw [hc, hq] at h1
    have hd' : (declsInAll (scopeSelector none) (current none) [] none (s.map ScopeContent.toRBC))[i]? =
        some (decls none s)[i] := List.getElem?_eq_getElem hi
    rw [show Option.map (printedSelectors (scopeSelector none) (current none)) none = none from rfl, hd'] at h1
    simpa [current] using h1
  refine ⟨_, List.getElem?_eq_getElem hi, fun D e => ?_⟩
  by_cases hne : sels = []
  · rw [if_pos hne]
    rw [printedSelectors, if_pos hne] at hpath
    rw [applies_list hk (by simp) hpath, show selectorList [] (.out 0) (c! ":root") = [c! ":root"] by decide,
      ← deep_meets_none F D n (show asCall (c! ":root") = none by decide)]
    simpa using matches_root (D.deep F n) e
  · rw [if_neg hne]
    rw [printedSelectors, if_neg hne] at hpath
    rw [applies_list hk (printed_head hne (fun s hm => expandAmp_head (hs s hm).1 (fun h' => ((hs s hm).2.1 '@' h').2 rfl)))
      hpath]
    exact list_matches (D.deep F n) e (scopeSelector none) (fun s => (D.withRoot.deep F n).Matches s e) sels
      (fun s hm => (means_deep_global F n (hs s hm) D e).1) (fun s hm => (means_deep_global F n (hs s hm) D e).2) hne

/-- Selectors with `&` in brackets, in brackets of brackets, and next to brackets. -/
def bracketed : Sheet :=
  [ .block [[c! "p:not(&)"], [c! ":is(.a, & > q):hover"]] [.attr (c! "top") [c! "0"]],
    .rule [c! "@media ", c! "print"] [.block [[c! "&:not(:is(:root, .x &)) b:nth-child(2n + 1)"], [c! "li:has(> &, + .x :root)"]]
      [.attr (c! "left") [c! "1"]]] ]

/-- Non-vacuity: the conditions, and what is printed. -/
example : SelectorsOf (NestedSelector (Funcs.usual (El := Bool)).takes 2) bracketed ∧ WholeSheet bracketed ∧
    SelectorsOf (NestedGlobalSelector (Funcs.usual (El := Bool)).takes 2) bracketed ∧
    ¬ SelectorsOf PlainSelector bracketed ∧
    (decls (some (c! "c")) bracketed).map Decl.path = [[c! "p:not(.c), :is(.a, .c > q):hover"],
      [c! "@media print", c! ".c:not(:is(.c, .x .c)) b:nth-child(2n + 1), li:has(> .c, + .x .c)"]] ∧
    (decls none bracketed).map Decl.path = [[c! "p:not(:root), :is(.a, :root > q):hover"],
      [c! "@media print", c! ":root:not(:is(:root, .x :root)) b:nth-child(2n + 1), li:has(> :root, + .x :root)"]] := by
  decide +kernel

/-- A page with two `p`, one of them of class `c`. -/
def twoPage : Doc Bool where
  parent := fun _ => none
  previous := fun _ => none
  meets := fun e s => s = c! "p" ∨ (e = true ∧ s = c! ".c")

/-- Non-vacuity, and a limit of C71: `p:not(&)` applies to elements outside. -/
theorem C71_limit_not :
    (twoPage.deep Funcs.usual 1).Matches (Selector.write (some (c! "c")) [c! "p:not(&)"]) false ∧
    ¬ (twoPage.deep Funcs.usual 1).Matches (Selector.write (some (c! "c")) [c! "p:not(&)"]) true ∧
    ¬ twoPage.Inside (c! "c") false := by
  have hr : readSelector (c! "p:not(.c)") = some [.simple (c! "p"), .simple (c! ":not(.c)")] := by decide
  have hw : Selector.write (some (c! "c")) [c! "p:not(&)"] = c! "p:not(.c)" := by decide
  have hp : asCall (c! "p") = none := by decide
  have hn : asCall (c! ":not(.c)") = some (c! ":not", c! ".c") := by decide
  have hl : selectorList [] (.out 0) (c! ".c") = [c! ".c"] := by decide
  have hm : ∀ e, (twoPage.deep Funcs.usual 1).meets e (c! ":not(.c)") ↔ ¬ twoPage.Matches (c! ".c") e := by
    intro e
    simp only [Doc.deep, hn, hl]
    simp [Funcs.usual]
  have hc : ∀ e, twoPage.Matches (c! ".c") e ↔ e = true := by
    intro e
    rw [matches_cls (cls := c! "c") (by decide)]
    simp [twoPage]
  rw [hw]
  refine ⟨⟨_, _, hr, ⟨trivial, ?_⟩, ?_⟩, ?_, ?_⟩
  · simp only [Doc.deep, hp]; simp [twoPage]
  · rw [hm, hc]; simp
  · rintro ⟨first, r, h1, h2⟩
    rw [hr] at h1
    cases h1
    have := h2.2
    rw [hm, hc] at this
    exact this rfl
  · rintro ⟨a, h1, h2 | h2⟩
    · subst h2; simp [twoPage] at h1
    · cases h2 <;> simp [twoPage] at *

/-- A list with an item and, in it, an element of class `c`. -/
def listPage : Doc Nat where
  parent := fun e => if e = 0 then none else some (e - 1)
  previous := fun _ => none
  meets := fun e s => (e = 1 ∧ s = c! "li") ∨ (e = 2 ∧ s = c! ".c")

/-- Non-vacuity, with a relative selector: `li:has(> &)` applies to the item around an element of
the class. -/
example : (listPage.deep Funcs.usual 1).Matches (Selector.write (some (c! "c")) [c! "li:has(> &)"]) 1 ∧
    ¬ listPage.Inside (c! "c") 1 := by
  have hr : readSelector (c! "li:has(> .c)") = some [.simple (c! "li"), .simple (c! ":has(> .c)")] := by decide
  have hw : Selector.write (some (c! "c")) [c! "li:has(> &)"] = c! "li:has(> .c)" := by decide
  have hn : asCall (c! ":has(> .c)") = some (c! ":has", c! "> .c") := by decide
  have hl : selectorList [] (.out 0) (c! "> .c") = [c! "> .c"] := by decide
  have hc : readSelector (c! "> .c") = some [.comb .child, .simple (c! ".c")] := by decide
  rw [hw]
  refine ⟨⟨_, _, hr, ⟨trivial, ?_⟩, ?_⟩, ?_⟩
  · simp only [Doc.deep, show asCall (c! "li") = none by decide]; simp [listPage]
  · simp only [Doc.deep, hn, hl]
    simp only [Funcs.usual]
    refine ⟨2, _, List.mem_singleton_self _, _, hc, by simp, ⟨1, rfl, rfl⟩, ?_⟩
    simp [listPage]
  · rintro ⟨a, h1, h2⟩
    have ha : a = 2 := by simpa [listPage] using h1
    subst ha
    rcases h2 with h2 | h2
    · cases h2
    · have : ∀ a e, listPage.Below a e → a < e := by
        intro a e h
        induction h with
        | child h =>
          simp only [listPage] at h
          split at h <;> simp at h
          omega
        | deeper _ h ih =>
          simp only [listPage] at h
          split at h <;> simp at h
          omega
      have := this _ _ h2
      omega

end Select
