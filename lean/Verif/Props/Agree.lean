import Verif.Proofs.Arranged
import Verif.Props.Written

/-!
# When two sheets have the same text

C09 and C74.
-/

open Spec

/-- **C09**: the generated text is determined by the arrangement of a sheet, its declarations
with their conditions, and the places of its animations: nothing else of the sheet has an
effect on the text. -/
theorem C09_determined (s t : Sheet) (cls : Option Str) (hc : ∀ c ∈ cls, ':' ∉ c) (ha : arrangement s = arrangement t)
    (hd : decls cls s = decls cls t) (hk : keyframes cls s = keyframes cls t) : s.toStyleStr cls = t.toStyleStr cls :=
  ArrangedP.text_of_arrangement s t cls hc ha hd hk

/-- Non-vacuity: other pieces, other selectors where nothing is printed, and a selector written
in another way. -/
example :
    let s : Sheet := [.block [[c! "&:hover"]] [.attr (c! "a") [c! "1", c! "px"]], .rule [c! "@media ", c! "x"] [.block [[c! "p"]] []]]
    let t : Sheet := [.block [[c! ":hover"]] [.attr (c! "a") [c! "1px"]], .rule [c! "@media ", c! "y"] [.block [[c! "q"], [c! "r"]] []]]
    arrangement s = arrangement t ∧ decls (some (c! "k")) s = decls (some (c! "k")) t ∧
      keyframes (some (c! "k")) s = keyframes (some (c! "k")) t ∧ s ≠ t := by
  refine ⟨?_, by decide +kernel, by decide +kernel, by decide +kernel⟩
  simp [arrangement, shapesOf, shapeOf, ScopeContent.toRBC]

/-- The arrangement is needed: one block and two blocks have the same declarations, but not the
same text. -/
theorem C09_limit_arrangement :
    let s : Sheet := [.block [[c! "p"]] [.attr (c! "a") [c! "b"], .attr (c! "c") [c! "d"]]]
    let t : Sheet := [.block [[c! "p"]] [.attr (c! "a") [c! "b"]], .block [[c! "p"]] [.attr (c! "c") [c! "d"]]]
    decls (some (c! "k")) s = decls (some (c! "k")) t ∧ s.toStyleStr (some (c! "k")) ≠ t.toStyleStr (some (c! "k")) := by
  decide +kernel

namespace Inline

open Output Storage

/-- **C74**, the exact border. A macro call with inline css whose tokens and values are plain, and a
string that can be parsed, whose texts are whole, and in which declarations, at-rules and blocks
are arranged as in the inline css. Both give the same text for a class exactly if the declarations
are the same for this class: names, values, conditions and selectors, with the blanks that are
documented for inline css (a single one between words, none elsewhere). -/
theorem C74_exactly (isExpr : RExpr → Bool) (ts : List Tree) (hl : ∀ t v rest, ts ≠ .lit t v :: rest)
    (code : CSheet) (h : Macro.expand isExpr ts = some code) :
    ∃ is, Sheets isExpr false ts is ∧ ∀ ρs : List Env, ∃ us, code.evalMany ρs none = some us ∧ us.length = ρs.length ∧
      ∀ (i : Nat) ρ css sheet, ρs[i]? = some ρ → plainItems ρ is = true → Css.parse css = some sheet → WholeSheet sheet →
        arrangement sheet = itemShapes is → ∃ u, us[i]? = some u ∧
          ∀ cls : Option Str, (∀ c ∈ cls, CleanClass c) →
            ((eraseSheet u).toStyleStr cls = sheet.toStyleStr cls ↔ decls cls sheet = rows cls ρ is) := by
  obtain ⟨is, out, h1, -, h2, rfl⟩ := (C46_macro isExpr ts hl code).1 h
  refine ⟨is, h1, fun ρs => ?_⟩
  obtain ⟨us, h3, h4⟩ := Macros.C42_evaluates out ρs
  have hlen : us.length = ρs.length := by simpa using congrArg List.length h4
  refine ⟨us, h3, hlen, fun i ρ css sheet hi hp _ hw ha => ?_⟩
  obtain ⟨hlt, rfl⟩ := List.getElem?_eq_some_iff.1 hi
  refine ⟨us[i]'(by omega), List.getElem?_eq_getElem _, fun cls hcls => ?_⟩
  have h5 : joined (eraseSheet (us[i]'(by omega))) = meaning ρs[i] out := by
    have := congrArg (fun l => l[i]?) h4
    simpa [List.getElem?_map, List.getElem?_eq_getElem, hlt, hlen] using this
  have hlaw := WrittenP.sheets_lawful h1
  obtain ⟨h6, h7⟩ := WrittenP.reads_sheet h2 hlaw hp h5 cls
  have h8 := ArrangedP.arrangement_sheet h2 hlaw h5
  constructor
  · intro he
    have b1 := BrowserP.browser_reads _ cls hcls h7
    have b2 := BrowserP.browser_reads _ cls hcls hw
    rw [he, b2] at b1
    rw [← h6]
    exact Option.some.inj b1
  · intro he
    refine C09_determined _ _ cls (fun c hc => GroupsP.class_colon (hcls c hc)) (h8.trans ha.symm) (by rw [h6, he]) ?_
    have calm := ArrangedP.calm_items is
    rw [keyframes, keyframes, ArrangedP.no_keyframesAll _ _ _ _ _ (by rw [← arrangement, h8]; exact calm),
      ArrangedP.no_keyframesAll _ _ _ _ _ (by rw [← arrangement, ha]; exact calm)]

/-- Non-vacuity: the css of `demoSheet` in two strings. In the first one the blanks are those of
inline css, and the declarations agree; the second one has a blank after the colon of the
condition, and they do not. -/
example :
    let ρ : Env := fun _ => c! "red"
    let css1 := c! "a : b;c:red ; .k ,&{d:\"s\"} @media (e:f) { g: /* x */ 1 h; }"
    let css2 := c! "a : b;c:red ; .k ,&{d:\"s\"} @media (e: f) { g: /* x */ 1 h; }"
    Sheets (fun _ => true) false demoSheet demoItems ∧ plainItems ρ demoItems = true ∧
    ∃ s1 s2, Css.parse css1 = some s1 ∧ Css.parse css2 = some s2 ∧ WholeSheet s1 ∧ WholeSheet s2 ∧
      arrangement s1 = itemShapes demoItems ∧ arrangement s2 = itemShapes demoItems ∧
      decls (some (c! "z")) s1 = rows (some (c! "z")) ρ demoItems ∧
      decls (some (c! "z")) s2 ≠ rows (some (c! "z")) ρ demoItems := by
  refine ⟨sheets_of_items 100 (by rfl) (by simp [demoItems, ofSs, ofS, CleanL, Clean]) (by
      simp [demoItems, FineL, Fine, IsName, ValidValues, ValidValue]), by decide +kernel,
    [.block [] [.attr (c! "a") [c! "b"], .attr (c! "c") [c! "red"]],
      .block [[c! ".k"], [c! "&"]] [.attr (c! "d") [c! "\"s\""]],
      .rule [c! "@media ", c! "(e:f)"] [.block [] [.attr (c! "g") [c! "1 h"]]]],
    [.block [] [.attr (c! "a") [c! "b"], .attr (c! "c") [c! "red"]],
      .block [[c! ".k"], [c! "&"]] [.attr (c! "d") [c! "\"s\""]],
      .rule [c! "@media ", c! "(e: f)"] [.block [] [.attr (c! "g") [c! "1 h"]]]],
    by decide +kernel, by decide +kernel, by decide +kernel, by decide +kernel, ?_, ?_, by decide +kernel, by decide +kernel⟩ <;>
  with_unfolding_all rfl

end Inline
