import Verif.Props.Macros
import Verif.Props.Parser
import Verif.Props.Manager
import Verif.Proofs.Exact

/-!
# The same css by a macro and at run time

C94.
-/

namespace Shared

open Spec Output Storage

/-- The css that a macro is given as a string literal, without interpolation. -/
structure Fixed (isExpr : RExpr → Bool) (literal : Str) (sheet : Sheet) (code : CSheet) : Prop where
  parses : Css.parse literal = some sheet
  plain : ∀ x ∈ texts sheet, '$' ∉ x ∧ '{' ∉ x
  expands : ∃ t, Macro.expand isExpr [.lit t (some literal)] = some code

/-- **C94.** However often the macro is evaluated, it gives the sheet that the run-time parser
reads from the literal, with the pieces of each selector, value and condition merged. -/
theorem C94_pieces (isExpr : RExpr → Bool) (literal : Str) (sheet : Sheet) (code : CSheet)
    (h : Fixed isExpr literal sheet code) (ρs : List Output.Env) :
    ∃ ts, code.evalMany ρs none = some ts ∧ ts.map eraseSheet = ρs.map (fun _ => mergedSheet sheet) := by
  obtain ⟨h1, h2, t, h3⟩ := h
  rw [Macros.expand_literal] at h3
  obtain ⟨sheet', args, out, used, h4, -, h5, -, rfl⟩ := Literal.macroFn_some.1 h3
  rw [h1] at h4; cases h4
  obtain ⟨ts, e1, e2⟩ := evalMany_exact out ρs (cell := none) (fun t ht => by cases ht)
  refine ⟨ts, e1, e2.trans ?_⟩
  exact List.map_congr_left (fun ρ _ => Literal.sheetOut_exact ρ sheet h2 h5)

/-- **C94**, as values: the sheet of the macro is the one that the run-time parser reads exactly
if there is no at-rule, and no selector or value is empty. -/
theorem C94_same_sheet_iff (isExpr : RExpr → Bool) (literal : Str) (sheet : Sheet) (code : CSheet)
    (h : Fixed isExpr literal sheet code) (ρs : List Output.Env) (ts : List TSheet)
    (hts : code.evalMany ρs none = some ts) (u : TSheet) (hu : u ∈ ts) :
    eraseSheet u = sheet ↔ hasRule sheet = false ∧ ∀ t ∈ texts sheet, t ≠ [] := by
  obtain ⟨ts', e1, e2⟩ := C94_pieces isExpr literal sheet code h ρs
  rw [hts] at e1; cases e1
  have : eraseSheet u ∈ ρs.map (fun _ => mergedSheet sheet) := e2 ▸ List.mem_map.2 ⟨u, hu, rfl⟩
  obtain ⟨-, -, e3⟩ := List.mem_map.1 this
  rw [← e3]
  exact merged_sheet (C14_shape literal sheet h.parses)

open Manager

/-- **C94 partial.** In any history without loading, one manager is given the same css twice,
once as the value of a macro with a literal and once as a string, in this order or the other
one (`fromMacro`), in the same way (`kind`). In between anything may happen, except that the
first of the two is unregistered. If there is no at-rule and no empty text, then both get the
same class, and the second call does not touch the page. Otherwise they get two classes. -/
theorem C94_same_class_partial (isExpr : RExpr → Bool) (literal : Str) (sheet : Sheet) (code : CSheet)
    (hf : Fixed isExpr literal sheet code) (ρs : List Output.Env) (ts : List TSheet)
    (hts : code.evalMany ρs none = some ts) (u : TSheet) (hu : u ∈ ts)
    (env : Manager.Env) (d : Dom) (ops ops' : List Op) (s s1 s2 : St)
    (hs : s = run env ops (St.init d)) (hload : ∀ mh data, Op.load mh data ∉ ops ++ ops')
    (fromMacro : Bool) (src src' : Source)
    (hsrc : (src, src') = if fromMacro then (.sheet (eraseSheet u), .text literal) else (.text literal, .sheet (eraseSheet u)))
    (mh mh' i h : Nat) (kind : Manager.Kind) (fault : Bool) (m : Mgr) (ast : Sheet) (hast : src.sheet? = some ast)
    (hi : s.mgrOf mh = some i) (hm : s.mgrs[i]? = some m)
    (h1 : step env (.create mh kind src fault) s = (s1, .style h)) (h2 : s2 = run env ops' s1)
    (hun : Along env (fun t op => ¬ Unregisters op t i (kind.key m.pref ast)) ops' s1)
    (hi2 : s2.mgrOf mh' = some i) :
    (hasRule sheet = false → (∀ t ∈ texts sheet, t ≠ []) → ∀ fault', ∃ s3 h' cls,
      step env (.create mh' kind src' fault') s2 = (s3, .style h') ∧ s3.dom = s2.dom ∧
      s1.className h = some cls ∧ s3.className h' = some cls) ∧
    (¬ (hasRule sheet = false ∧ ∀ t ∈ texts sheet, t ≠ []) → ∀ fault' s3 h',
      step env (.create mh' kind src' fault') s2 = (s3, .style h') → FreshIds env s3.ctr →
      ∃ cls cls', s1.className h = some cls ∧ s3.className h' = some cls' ∧ cls ≠ cls') := by
  have hiff := C94_same_sheet_iff isExpr literal sheet code hf ρs ts hts u hu
  have hsrcs : ∃ ast', src'.sheet? = some ast' ∧ (ast = ast' ↔ eraseSheet u = sheet) := by
    cases fromMacro with
    | true =>
      simp only [if_true, Prod.mk.injEq] at hsrc
      obtain ⟨rfl, rfl⟩ := hsrc
      simp only [Source.sheet?, Option.some.injEq] at hast
      exact ⟨sheet, hf.parses, by rw [hast]⟩
    | false =>
      simp only [Bool.false_eq_true, if_false, Prod.mk.injEq] at hsrc
      obtain ⟨rfl, rfl⟩ := hsrc
      simp only [Source.sheet?, hf.parses, Option.some.injEq] at hast
      exact ⟨eraseSheet u, rfl, by rw [hast]; exact eq_comm⟩
  obtain ⟨ast', hast', hsame⟩ := hsrcs
  have hinv : Inv s := hs ▸ inv_run env ops (Inv.init d)
  have hs1 : s1 = (step env (.create mh kind src fault) s).1 := by rw [h1]
  have hinv1 : Inv s1 := hs1 ▸ inv_step env _ hinv
  constructor
  · intro hr he fault'
    have hast2 : ast' = ast := (hsame.2 (hiff.2 ⟨hr, he⟩)).symm
    obtain ⟨h', e1, ⟨cls, -, e2, e3, -⟩, e4⟩ := C20_same_class env d ops ops' mh mh' i h kind kind src src' fault fault' m ast ast'
      s s1 s2 _ hs hi hm hast h1 h2 hun hi2 hast' (by rw [hast2]) rfl
    exact ⟨_, h', cls, Prod.ext rfl e1, e4, e2, e3⟩
  · intro hne fault' s3 h' h3 hids
    obtain ⟨p, c, m', a1, a2, a3, -, a5, -, -⟩ := create_style hinv hi hm hast (h := h) (by rw [h1])
    rw [h1] at a1 a2 a3
    simp only at a1 a2 a3
    subst h2
    obtain ⟨m2, b1, -, -⟩ := reg_run env ops' hinv1 a3 a5 hun (mgrOf_mem hi2)
    obtain ⟨p', c', m'', d1, d2, -⟩ := create_style (inv_run env ops' hinv1) hi2 b1 hast' (h := h') (by rw [h3])
    rw [h3] at d1 d2
    simp only at d1 d2
    have e1 : s1.className h = some c.id := by simp [St.className, a1, a2]
    have e2 : s3.className h' = some c'.id := by simp [St.className, d1, d2]
    refine ⟨_, _, e1, e2, fun he => ?_⟩
    have := C21_calls env d ops ops' s s1 _ s3 hs hload mh i h kind src fault m ast hi hm hast h1 rfl
      mh' i h' kind src' fault' m2 ast' hi2 b1 hast' h3 hids c.id e1 (by rw [e2, he])
    exact hne (hiff.1 (hsame.1 this.2.2.1))

/-! ## Concrete cases -/

/-- A literal without at-rules. -/
def plainLiteral : Str := c! "color: red; .a, .b:hover { width: 1px; }"

/-- The sheet that a macro with this literal gives. -/
def ofMacro (literal : Str) : Option Sheet :=
  ((Macro.expand (fun _ => true) [.lit [] (some literal)]).bind (fun c => c.evalMany [fun _ => []] none)).bind
    (fun ts => ts.head?.map eraseSheet)

set_option maxRecDepth 8000 in
/-- Non-vacuity: the first case. -/
example : ∃ sheet, Css.parse plainLiteral = some sheet ∧ ofMacro plainLiteral = some sheet ∧
    hasRule sheet = false ∧ (∀ x ∈ texts sheet, '$' ∉ x ∧ '{' ∉ x) ∧ (∀ t ∈ texts sheet, t ≠ []) ∧
    texts sheet = [c! "red", c! ".a", c! ".b:hover", c! "1px"] :=
  ⟨_, rfl, by decide, by decide, by decide, by decide, by decide⟩

/-- A history: the css of the macro, then the string, by one manager. -/
def twice (css : Sheet) (literal : Str) : List Op :=
  [.newMgr (c! "stylist") none true none, .create 0 .scoped (.sheet css) false, .create 0 .scoped (.text literal) false]

set_option maxRecDepth 8000 in
/-- Non-vacuity of the first case, in this history: one class and one element. -/
example : ∃ css, ofMacro plainLiteral = some css ∧
    (run demoEnv (twice css plainLiteral) (St.init demoPage)).className 0 = some (c! "stylist-style-0") ∧
    (run demoEnv (twice css plainLiteral) (St.init demoPage)).className 1 = some (c! "stylist-style-0") ∧
    (run demoEnv (twice css plainLiteral) (St.init demoPage)).dom.inDoc.length = demoPage.inDoc.length + 1 :=
  ⟨_, rfl, by decide +kernel, by decide +kernel, by decide +kernel⟩

set_option maxRecDepth 8000 in
/-- **C94 is false** of css with an at-rule: the same css, as a literal of a macro and as a
string, gives two classes and puts two elements on the page. -/
theorem C94_false : ∃ css sheet, ofMacro (c! "@media print { a: b; }") = some css ∧
    Css.parse (c! "@media print { a: b; }") = some sheet ∧ (∀ x ∈ texts sheet, '$' ∉ x ∧ '{' ∉ x) ∧
    (run demoEnv (twice css (c! "@media print { a: b; }")) (St.init demoPage)).className 0 = some (c! "stylist-style-0") ∧
    (run demoEnv (twice css (c! "@media print { a: b; }")) (St.init demoPage)).className 1 = some (c! "stylist-style-1") ∧
    (run demoEnv (twice css (c! "@media print { a: b; }")) (St.init demoPage)).dom.inDoc.length = demoPage.inDoc.length + 2 :=
  ⟨_, _, rfl, rfl, by decide, by decide +kernel, by decide +kernel, by decide +kernel⟩

set_option maxRecDepth 8000 in
/-- An empty value (a no-break space is trimmed) also makes a difference. -/
theorem C94_limit_empty : Css.parse ['a', ':', '\u00a0', ';'] = some [.block [] [.attr (c! "a") [[]]]] ∧
    ofMacro ['a', ':', '\u00a0', ';'] = some [.block [] [.attr (c! "a") []]] := by
  constructor <;> decide

set_option maxRecDepth 8000 in
/-- With interpolation the pieces show: filling in `red` does not give the sheet of the literal
that has `red` in its place, although the texts are the same. -/
theorem C94_limit_interpolated :
    ((Macro.expand (fun _ => true) [.lit [] (some (c! "border: 1px ${c};")), .punct ',' false, .ident (c! "c") false,
        .punct '=' false, .ident (c! "x") false]).bind
      (fun c => c.evalMany [fun _ => c! "red"] none)).map (List.map eraseSheet) =
      some [[.block [] [.attr (c! "border") [c! "1px ", c! "red"]]]] ∧
    ofMacro (c! "border: 1px red;") = some [.block [] [.attr (c! "border") [c! "1px red"]]] := by
  constructor <;> decide

end Shared
