import Verif.Proofs.SelectGlobal
import Verif.Props.Select

/-!
# What global styles apply to

C75.
-/

namespace Select

open Spec SelectP

variable {El : Type}

/-- **C75 is false.** `&` is replaced in strings too, and after a colon. -/
theorem C75_false :
    linkPage.Matches (c! "a[href=\"?x&y\"]") false ∧
      ¬ linkPage.Matches (Selector.write none [c! "a[href=\"?x&y\"]"]) false ∧
    Selector.write none [c! "a[href=\"?x&y\"]"] = c! "a[href=\"?x:rooty\"]" ∧
    Selector.write none [c! "&p"] = c! ":rootp" := by
  refine ⟨⟨c! "a", [.simple (c! "[href=\"?x&y\"]")], by decide, ?_⟩, ?_, by decide, by decide⟩
  · refine ⟨⟨trivial, ?_⟩, ?_⟩ <;> simp [linkPage]
  · rintro ⟨first, r, h1, h2⟩
    have h3 : readSelector (Selector.write none [c! "a[href=\"?x&y\"]"]) =
        some [.simple (c! "a"), .simple (c! "[href=\"?x:rooty\"]")] := by decide
    rw [h3] at h1
    cases h1
    obtain ⟨-, h4⟩ := h2
    simp [linkPage] at h4

/-- **C75, partial.** A printed selector of a global style matches exactly the elements that
the selector matches, `&` being the root of the document. Missing: selectors with `&` in
strings or brackets, right in front of a name or after a lone colon; for some of these it is
false. -/
theorem C75_meaning_partial (s : Selector) (hs : GlobalSelector s.flatten) (D : Doc El) (e : El) :
    D.Matches (Selector.write none s) e ↔ D.withRoot.Matches s.flatten e := by
  rw [SelectorP.write_spec none (by simp) s]
  exact means_global hs D e

theorem expandAmp_head {s : Str} (hne : s ≠ []) (h : s.head? ≠ some '@') :
    (expandAmp (c! ":root") s).head? ≠ some '@' ∧ expandAmp (c! ":root") s ≠ [] := by
  cases s with
  | nil => exact absurd rfl hne
  | cons c s =>
    by_cases hamp : c = '&'
    · subst hamp; rw [expandAmp]; simp
    · rw [expandAmp_cons hamp]
      simpa using h

theorem applies_global_iff {sels : List Selector} (hs : ∀ s ∈ sels, GlobalSelector s.flatten)
    {chain : List Str} (hk : ∀ r ∈ chain, ¬ c! "keyframes" <:+: r) {d : Decl}
    (hd : d.path = chain ++ [printedSelectors (scopeSelector none) (c! ":root") sels]) (D : Doc El) (e : El) :
    D.Applies d e ↔ if sels = [] then D.meets e (c! ":root") else ∃ s ∈ sels, D.withRoot.Matches s.flatten e := by
  have hl : ∀ s, s = printedSelectors (scopeSelector none) (c! ":root") sels →
      s.head? ≠ some '@' ∧ ((∃ x ∈ selectorList [] (.out 0) s, D.Matches x e) ↔
        if sels = [] then D.meets e (c! ":root") else ∃ s ∈ sels, D.withRoot.Matches s.flatten e) := by
    rintro s rfl
    unfold printedSelectors
    by_cases hne : sels = []
    · rw [if_pos hne, if_pos hne, show selectorList [] (.out 0) (c! ":root") = [c! ":root"] by decide]
      refine ⟨by simp, ?_⟩
      simpa using matches_root D e
    · rw [if_neg hne, if_neg hne]
      refine ⟨?_, list_means_global sels hs hne D e⟩
      cases sels with
      | nil => exact absurd rfl hne
      | cons s l =>
        obtain ⟨h1, h2, -⟩ := hs s (by simp)
        have h3 := expandAmp_head h1 (fun hc => (h2 '@' hc).2 rfl)
        have e1 : scopeSelector none s.flatten = expandAmp (c! ":root") s.flatten := rfl
        rw [← e1] at h3
        cases hx : scopeSelector none s.flatten with
        | nil => exact absurd hx h3.2
        | cons c x =>
          rw [hx] at h3
          cases l <;> simp [Str.join, hx] <;> simpa using h3.1
  obtain ⟨h1, h2⟩ := hl _ rfl
  rw [← h2]
  constructor
  · rintro ⟨rules, sel, h3, -, -, h4⟩
    rw [hd] at h3
    obtain ⟨-, h5⟩ := List.append_inj' h3 rfl
    cases h5
    exact h4
  · intro h3
    exact ⟨chain, _, hd, h1, hk, h3⟩

/-- **C75, partial**, for the text that a browser reads: the declaration number `i` of a
global style, written in a block with the selectors `sels` (the innermost block with
selectors) under the at-rules `chain`, applies exactly to the elements that one of `sels`
matches, and to the root if there is no selector. (Missing as above.) -/
theorem C75_in_the_text_partial (s : Sheet) (hw : WholeSheet s) :
    ∃ ds, browserReads (s.toStyleStr none) = some ds ∧
      ds.length = (selectorsInAll none (s.map ScopeContent.toRBC)).length ∧
      ∀ (i : Nat) (chain : List Str) (sels : List Selector),
        (chainsInAll [] (s.map ScopeContent.toRBC))[i]? = some chain → (∀ r ∈ chain, ¬ c! "keyframes" <:+: r) →
        (selectorsInAll none (s.map ScopeContent.toRBC))[i]? = some (some sels) →
        (∀ x ∈ sels, GlobalSelector x.flatten) →
        ∃ d, ds[i]? = some d ∧ ∀ (D : Doc El) (e : El),
          D.Applies d e ↔ if sels = [] then D.meets e (c! ":root") else ∃ x ∈ sels, D.withRoot.Matches x.flatten e := by
  have h := selectorsAll_decls (scopeSelector none) (current none) (s.map ScopeContent.toRBC) [] none
  have hlen : (decls none s).length = (selectorsInAll none (s.map ScopeContent.toRBC)).length := by
    have h1 := congrArg List.length h.2
    simp only [List.length_map, List.length_zipWith, ← h.1, Nat.min_self] at h1
    exact h1
  refine ⟨_, C68_browser_reads s none (by simp) hw, hlen, ?_⟩
  intro i chain sels hc hk hq hs
  have hi : i < (decls none s).length := by
    rw [hlen]
    exact (List.getElem?_eq_some_iff.1 hq).1
  refine ⟨_, List.getElem?_eq_getElem hi, fun D e => applies_global_iff hs hk ?_ D e⟩
  have h1 := congrArg (fun l => l[i]?) h.2
  simp only [List.getElem?_map, List.getElem?_zipWith] at h1
  rw [hc, hq] at h1
  have hd' : (declsInAll (scopeSelector none) (current none) [] none (s.map ScopeContent.toRBC))[i]? =
      some (decls none s)[i] := List.getElem?_eq_getElem hi
  rw [show Option.map (printedSelectors (scopeSelector none) (current none)) none = none from rfl, hd'] at h1
  simpa [current] using h1

/-- Non-vacuity: the selectors of `kinds` are such selectors, and the last one is printed
for the root. -/
example : SelectorsOf GlobalSelector kinds ∧ WholeSheet kinds ∧
    (decls none kinds).map Decl.path = [[c! ":root"],
      [c! "p > a[href=\"x, y\"], :hover, > q:not(.a)"],
      [c! "@media print", c! ".dark :root.on::before, :root p"], [c! "@keyframes m", c! "from"]] := by decide +kernel

/-- Non-vacuity: what `&` matches in a document. -/
example : (Doc.mk (fun (e : Bool) => if e then none else some true) (fun _ => none)
      (fun e s => (e = true ∧ s = c! ":root") ∨ (e = false ∧ s = c! "p"))).withRoot.Matches (c! "& > p") false :=
  ⟨c! "&", [.comb .child, .simple (c! "p")], by decide, ⟨true, by simp [Doc.withRoot], rfl⟩, by simp [Doc.withRoot]⟩

end Select
