import Verif.Proofs.Template
import Verif.Props.Render

/-!
# The class name is a parameter of the text

C08. `fill c t` is the template `t` with `.c` in its holes, `headers s` the texts of the
selectors and at-rule conditions of the sheet as they are in the source.
-/

namespace Template

/-- **C08.** There is one template for a sheet, and its rendering for a class name is the
template with the holes filled, for every class name without `.`, `:` and `,` that the
sheet does not mention (see `C08_limit_mentioned`). -/
theorem C08_template (s : Sheet) :
    ∃ t : Tpl, ∀ c : Str, '.' ∉ c → ':' ∉ c → ',' ∉ c → (∀ h ∈ headers s, ¬ ('.' :: c) <:+: h) →
      s.toStyleStr (some c) = fill c t := by
  have hS : Plain (fun c => '.' ∉ c ∧ ':' ∉ c ∧ ',' ∉ c ∧ ∀ h ∈ headers s, ¬ ('.' :: c) <:+: h) :=
    fun c h => ⟨h.1, h.2.1, h.2.2.1⟩
  obtain ⟨ys, -, -, t, ht⟩ := sheet_tpl hS s [⟨[], none, false⟩] (fun c h => h.2.2.2) (by
    intro y hy t ht
    simp only [List.mem_cons, List.not_mem_nil, or_false] at hy
    subst hy
    simp [TCtx.conds] at ht)
  exact ⟨t, fun c h1 h2 h3 h4 => ht c ⟨h1, h2, h3, h4⟩⟩

/-- A name that occurs in no selector and no condition is such a name: the generated
class names are a prefix and a hash, and meet this unless the css spells them out. -/
theorem C08_not_mentioned (s : Sheet) (c : Str) (h : ∀ x ∈ headers s, ¬ c <:+: x) :
    ∀ x ∈ headers s, ¬ ('.' :: c) <:+: x :=
  fun x hx h' => h x hx ((List.infix_cons (List.infix_refl c)).trans h')

/-- Non-vacuity: a sheet with nested blocks, at-rules and dangling declarations, its
template, and two class names. -/
example :
    let s : Sheet := [.block [] [.attr (c! "color") [c! "red"]],
      .block [[c! "& > .p"], [c! ":hover"]] [.attr (c! "top") [c! "0"], .block [[c! ".q"]] [.attr (c! "left") [c! "0"]]]]
    headers s = [c! "& > .p", c! ":hover", c! ".q"] ∧
    (∀ h ∈ headers s, Str.contains (c! ".css-1") h = false ∧ Str.contains (c! ".x") h = false) ∧
    s.toStyleStr (some (c! "css-1")) = c! ".css-1 {\n    color: red;\n}\n.css-1 > .p, .css-1:hover {\n    top: 0;\n}\n.css-1 .q {\n    left: 0;\n}\n" ∧
    s.toStyleStr (some (c! "x")) = c! ".x {\n    color: red;\n}\n.x > .p, .x:hover {\n    top: 0;\n}\n.x .q {\n    left: 0;\n}\n" := by
  decide +kernel

/-- The limit of C08: if the sheet mentions the class name itself, two selectors that are
different as written can be printed alike, and then one block is printed where two would
be for another name of the same length. -/
theorem C08_limit_mentioned :
    let s : Sheet := [.block [[c! "& .x"]] [.attr (c! "top") [c! "0"], .block [[c! ".x &"]] [.attr (c! "left") [c! "0"]]]]
    s.toStyleStr (some (c! "x")) = c! ".x .x {\n    top: 0;\n    left: 0;\n}\n" ∧
    s.toStyleStr (some (c! "y")) = c! ".y .x {\n    top: 0;\n}\n.x .y {\n    left: 0;\n}\n" ∧
    ¬ ∃ t : Tpl, ∀ c ∈ [c! "x", c! "y"], s.toStyleStr (some c) = fill c t := by
  refine ⟨by decide +kernel, by decide +kernel, ?_⟩
  rintro ⟨t, ht⟩
  have hlen : ∀ (c c' : Str) (t : Tpl), c.length = c'.length → (fill c t).length = (fill c' t).length := by
    intro c c' t h
    induction t with
    | nil => rfl
    | cons a t ih =>
      cases a with
      | none => rw [fill_none, fill_none]; simp [h, ih]
      | some a => rw [fill_some, fill_some]; simp [ih]
  have h1 := ht (c! "x") (by simp)
  have h2 := ht (c! "y") (by simp)
  have := hlen (c! "x") (c! "y") t rfl
  rw [← h1, ← h2] at this
  exact absurd this (by decide +kernel)

end Template
