import Verif.Proofs.Interpolated
import Verif.Props.Inline

/-!
# Expressions with effects

C81 – C83: when and how often the expressions in a macro are evaluated, and which names they
see.
-/

namespace Evaluation

open Spec Output Storage

/-! ## C81: inline CSS -/

/-- **C81.** An evaluation of a macro with inline CSS evaluates the expressions of all
`${..}` in the order in which they are written, each exactly once, and nothing after the
first one that has no value. The `i`-th value is then the text in the place of the `i`-th
`${..}`. `out` is the sheet of the tokens, see C46. -/
theorem C81_in_order (isExpr : RExpr → Bool) (ts : List Tree) (c : CSheet) (h : Inline.macroFn isExpr ts = .code c) :
    ∃ is out, Sheets isExpr false ts is ∧ Emits is (out.map scopeRBC) ∧
      ∀ (σ : Type) (w : World σ) (s : σ),
        match inOrder (w sheetNames) (exprsIn false ts) s with
        | (none, s') => c.run w none s = (none, s')
        | (some vs, s') => ∃ t cell, c.run w none s = (some (t, cell), s') ∧
            ∀ ρ, joined (eraseSheet t) = meaning ρ (fillOut out vs) := by
  obtain ⟨is, out, h1, -, h2, rfl⟩ := (Inline.C46_code isExpr ts c).1 h
  refine ⟨is, out, h1, h2, fun σ w s => ?_⟩
  have hg := run_gives out w none (fun t ht => by cases ht) s
  rw [Inline.out_exprs h1 h2] at hg
  split
  · rename_i s' he; rw [he] at hg; exact hg
  · rename_i vs s' he
    rw [he] at hg
    obtain ⟨-, r, h3, h4⟩ := hg
    exact ⟨r.1, r.2, h3, by simpa using (h4 []).1⟩

/-- **C81**, for several evaluations: each one evaluates all expressions again. -/
theorem C81_again (isExpr : RExpr → Bool) (ts : List Tree) (c : CSheet) (h : Inline.macroFn isExpr ts = .code c) (n : Nat) :
    ∃ is out, Sheets isExpr false ts is ∧ Emits is (out.map scopeRBC) ∧
      ∀ (σ : Type) (w : World σ) (s : σ),
        match inOrder (w sheetNames) (List.replicate n (exprsIn false ts)).flatten s with
        | (none, s') => c.runMany w n none s = (none, s')
        | (some vs, s') => ∃ us, c.runMany w n none s = (some us, s') ∧ us.length = n ∧
            ∀ (k : Nat) u, us[k]? = some u → ∀ ρ,
              joined (eraseSheet u) = meaning ρ (fillOut out (vs.drop (k * (exprsIn false ts).length))) := by
  obtain ⟨is, out, h1, -, h2, rfl⟩ := (Inline.C46_code isExpr ts c).1 h
  refine ⟨is, out, h1, h2, fun σ w s => ?_⟩
  have hg := runMany_gives out w n none (fun t ht => by cases ht) s
  rw [Inline.out_exprs h1 h2] at hg
  split
  · rename_i s' he; rw [he] at hg; exact hg
  · rename_i vs s' he
    rw [he] at hg
    obtain ⟨-, us, h3, h4⟩ := hg
    have h5 := h4 []
    rw [List.append_nil, Evaluations, Inline.out_exprs h1 h2] at h5
    exact ⟨us, h3, h5⟩

/-- A world that records the expressions it evaluates. -/
def logged (val : RExpr → Str) : World (List RExpr) := fun _ e log => (some (val e), log ++ [e])

theorem inOrder_logged (val : RExpr → Str) (ns : List Str) : ∀ (es log : List RExpr),
    inOrder (logged val ns) es log = (some (es.map val), log ++ es)
  | [], log => by simp [inOrder]
  | e :: es, log => by simp [inOrder, logged, inOrder_logged val ns es]

/-- **C81**, recorded: the expressions that an evaluation evaluates are those of the
`${..}` in the tokens, in this order. -/
theorem C81_trace (isExpr : RExpr → Bool) (ts : List Tree) (c : CSheet) (h : Inline.macroFn isExpr ts = .code c)
    (val : RExpr → Str) : (c.run (logged val) none []).2 = exprsIn false ts := by
  obtain ⟨is, out, -, -, h3⟩ := C81_in_order isExpr ts c h
  have h4 := h3 _ (logged val) []
  rw [inOrder_logged] at h4
  obtain ⟨t, cell, h5, -⟩ := h4
  rw [h5]
  rfl

/-- **C81**: for expressions without effects this is the evaluation of C42 and C46. -/
theorem C81_agrees {σ : Type} (c : CSheet) (ρ : Env) (cell : Cell) (r : TSheet × Cell) (h : c.eval ρ cell = some r) (s : σ) :
    c.run (fun _ e s => (some (ρ e), s)) cell s = (some r, s) := run_still h s

/-- The tokens of `a: ${x} ${"t"}; .${y} { ${z}: f(${x}); }`. -/
def demo : List Tree :=
  [.ident (c! "a") false, .punct ':' false, .punct '$' false, .group .brace [.ident (c! "x") false],
    .punct '$' false, .group .brace [.lit (c! "\"t\"") (some (c! "t"))], .punct ';' false,
    .punct '.' false, .punct '$' false, .group .brace [.ident (c! "y") false],
    .group .brace [.punct '$' false, .group .brace [.ident (c! "z") false], .punct ':' false,
      .ident (c! "f") false, .group .paren [.punct '$' false, .group .brace [.ident (c! "x") false]], .punct ';' false]]

/-- A counter. -/
def counter : World Nat := fun _ _ n => (some (c! "v" ++ List.replicate n 'i'), n + 1)

set_option maxRecDepth 8000 in
/-- Non-vacuity: `x` is written twice and has two values. -/
example : (match Inline.macroFn (fun _ => true) demo with
      | .code c => (c.runMany counter 2 none 0).1.map (List.map (fun t => (eraseSheet t).toStyleStr (some (c! "k"))))
      | _ => none) =
    some [c! ".k {\n    a: vt;\n}\n.k .vi {\n    vii: f(viii);\n}\n",
      c! ".k {\n    a: viiiit;\n}\n.k .viiiii {\n    viiiiii: f(viiiiiii);\n}\n"] := by
  decide +kernel

/-- The expressions of `demo`, in order. -/
example : exprsIn false demo = [[.ident (c! "x") false], [.ident (c! "y") false], [.ident (c! "z") false],
    [.ident (c! "x") false]] := rfl

/-- Only `y` has no value. -/
def partly : World (List RExpr) := fun _ e log =>
  (match e with
    | [.ident ['y'] _] => none
    | _ => some [], log ++ [e])

set_option maxRecDepth 8000 in
/-- Non-vacuity: `z` is not evaluated after `y` had no value. -/
example : (match Inline.macroFn (fun _ => true) demo with
      | .code c => some ((c.run partly none []).1.isSome, (c.run partly none []).2.length)
      | _ => none) = some (false, 2) := by
  decide +kernel

/-! ## C82: string literals -/

/-- **C82 is false.** An argument that is used twice is evaluated twice, unlike one of
`format!`, and its uses may have different values: the macro call
`css!("color: ${x}; width: ${x};", x = y)`. -/
theorem C82_false :
    ((Macro.expand (fun _ => true) [.lit [] (some (c! "color: ${x}; width: ${x};")), .punct ',' false,
        .ident (c! "x") false, .punct '=' false, .ident (c! "y") false]).bind (fun c => (c.run counter none 0).1)).map
      (fun r => (eraseSheet r.1).toStyleStr (some (c! "k"))) =
    some (c! ".k {\n    color: v;\n    width: vi;\n}\n") := by decide +kernel

/-- The names of the expressions in a trace, if they are names. -/
def traceNames (es : List RExpr) : List Str :=
  es.map (fun e => match e with
    | [.ident n _] => n
    | _ => [])

/-- **C82 is false**, for the order: arguments are evaluated in the order in which the
literal uses them, not in the order in which they are given:
`css!("color: ${b}; width: ${a};", a = x, b = y)`. -/
theorem C82_false_order :
    (Macro.expand (fun _ => true) [.lit [] (some (c! "color: ${b}; width: ${a};")), .punct ',' false,
        .ident (c! "a") false, .punct '=' false, .ident (c! "x") false, .punct ',' false,
        .ident (c! "b") false, .punct '=' false, .ident (c! "y") false]).map
      (fun c => traceNames (c.run (logged (fun _ => [])) none []).2) =
    some [c! "y", c! "x"] := by decide +kernel

/-- **C82, partial.** An evaluation of a macro with a string literal evaluates an argument
for each `${name}` in the selectors, values and conditions of the literal, in their order,
and nothing after the first one that has no value. Each value is the text in its own place;
`out` is the sheet of the literal with the arguments in these places. Missing: that
arguments are evaluated once, which is false. -/
theorem C82_per_use_partial (isExpr : RExpr → Bool) (t s : Str) (rest : List Tree) (c : CSheet)
    (h : Macro.expand isExpr (.lit t (some s) :: rest) = some c) :
    ∃ sheet args names exprs out, Css.parse s = some sheet ∧ ArgTokens rest args ∧ Uses (texts sheet) names ∧
      names.map (fun n => args.lookup n) = exprs.map some ∧
      (∀ ρ, ReplacedSheet (argText args ρ) sheet (meaning ρ out)) ∧
      ∀ (σ : Type) (w : World σ) (st : σ),
        match inOrder (w sheetNames) exprs st with
        | (none, st') => c.run w none st = (none, st')
        | (some vs, st') => ∃ t cell, c.run w none st = (some (t, cell), st') ∧
            ∀ ρ, joined (eraseSheet t) = meaning ρ (fillOut out vs) := by
  rw [Macros.expand_literal] at h
  obtain ⟨sheet, args, out, used, h1, h2, h3, -, rfl⟩ := Literal.macroFn_some.1 h
  obtain ⟨h4, h5⟩ := Literal.sheetOut_exprs sheet h3
  refine ⟨sheet, args, used, exprsOut out, out, h1, h2.1, h5, h4.symm, (Literal.sheetOut_spec sheet h3).1, fun σ w st => ?_⟩
  have hg := run_gives out w none (fun t ht => by cases ht) st
  split
  · rename_i s' he; rw [he] at hg; exact hg
  · rename_i vs s' he
    rw [he] at hg
    obtain ⟨-, r, h6, h7⟩ := hg
    exact ⟨r.1, r.2, h6, by simpa using (h7 []).1⟩

/-- **C82, partial**, if no name is used twice: each argument is evaluated exactly once. -/
theorem C82_once_partial (isExpr : RExpr → Bool) (t s : Str) (rest : List Tree) (c : CSheet)
    (h : Macro.expand isExpr (.lit t (some s) :: rest) = some c) (sheet : Sheet) (hs : Css.parse s = some sheet)
    (names : List Str) (hu : Uses (texts sheet) names) (hn : names.Nodup) (val : RExpr → Str) :
    ∃ args, ArgTokens rest args ∧ ((c.run (logged val) none []).2).Perm (args.map Prod.snd) := by
  rw [Macros.expand_literal] at h
  obtain ⟨sheet', args, out, used, h1, ⟨h2, h2'⟩, h3, h3', rfl⟩ := Literal.macroFn_some.1 h
  rw [hs] at h1
  cases h1
  obtain ⟨h4, h5⟩ := Literal.sheetOut_exprs sheet h3
  refine ⟨args, h2, ?_⟩
  have hg := run_gives out (logged val) none (fun t ht => by cases ht) []
  rw [inOrder_logged] at hg
  obtain ⟨-, r, h6, -⟩ := hg
  rw [h6]
  simp only [List.nil_append]
  have hmem : ∀ n, n ∈ used ↔ n ∈ Literal.names args := by
    intro n
    constructor
    · intro hn
      have : (args.lookup n).isSome = true := by
        have hm : args.lookup n ∈ Literal.argExprs args used := List.mem_map.2 ⟨n, hn, rfl⟩
        rw [← h4] at hm
        obtain ⟨e, -, he⟩ := List.mem_map.1 hm
        rw [← he]; rfl
      exact (Literal.lookup_isSome args n).1 this
    · exact h3' n
  have hp : used.Perm (Literal.names args) := (List.perm_ext_iff_of_nodup (Literal.uses_unique hu h5 ▸ hn) h2').2 hmem
  have hl : ∀ (l : List (Str × RExpr)), (l.map Prod.fst).Nodup →
      (l.map Prod.fst).map (fun n => l.lookup n) = (l.map Prod.snd).map some := by
    intro l
    induction l with
    | nil => intro _; rfl
    | cons a l ih =>
      intro hn
      obtain ⟨n, e⟩ := a
      simp only [List.map_cons, List.nodup_cons] at hn
      simp only [List.map_cons, List.lookup, beq_self_eq_true, List.cons.injEq, true_and]
      rw [← ih hn.2]
      apply List.map_congr_left
      intro m hm
      have : (m == n) = false := by
        simp only [beq_eq_false_iff_ne]
        rintro rfl
        exact hn.1 hm
      simp [this]
  have hq := hp.map (fun n => args.lookup n)
  rw [hl args h2'] at hq
  have h4' : used.map (fun n => args.lookup n) = (exprsOut out).map some := h4.symm
  rw [h4'] at hq
  have hf : ∀ l : List RExpr, (l.map some).filterMap id = l := by
    intro l
    induction l with
    | nil => rfl
    | cons a l ih => simp
  have := hq.filterMap id
  rwa [hf, hf] at this

/-- Looking up the names of the arguments one after the other. -/
theorem lookup_names : ∀ (l : List (Str × RExpr)), (l.map Prod.fst).Nodup →
    (l.map Prod.fst).map (fun n => l.lookup n) = (l.map Prod.snd).map some
  | [], _ => rfl
  | (n, e) :: l, hn => by
    simp only [List.map_cons, List.nodup_cons] at hn
    simp only [List.map_cons, List.lookup, beq_self_eq_true, List.cons.injEq, true_and]
    rw [← lookup_names l hn.2]
    apply List.map_congr_left
    intro m hm
    have : (m == n) = false := by
      simp only [beq_eq_false_iff_ne]
      rintro rfl
      exact hn.1 hm
    simp [this]

theorem lookup_inj {l : List (Str × RExpr)} (hn : (l.map Prod.snd).Nodup) {a b : Str} {e : RExpr}
    (ha : l.lookup a = some e) (hb : l.lookup b = some e) : a = b := by
  have mem : ∀ (l : List (Str × RExpr)) {a : Str} {e : RExpr}, l.lookup a = some e → (a, e) ∈ l := by
    intro l
    induction l with
    | nil => intro a e h; simp [List.lookup] at h
    | cons x l ih =>
      intro a e h
      obtain ⟨n, e'⟩ := x
      simp only [List.lookup] at h
      split at h
      · rename_i he
        simp only [beq_iff_eq] at he
        cases h; subst he; simp
      · exact List.mem_cons_of_mem _ (ih h)
  have h1 := mem l ha
  have h2 := mem l hb
  induction l with
  | nil => cases h1
  | cons x l ih =>
    simp only [List.map_cons, List.nodup_cons] at hn
    have out : ∀ {n : Str}, (n, e) ∈ l → e ∈ l.map Prod.snd := fun h => List.mem_map.2 ⟨_, h, rfl⟩
    rcases List.mem_cons.1 h1 with rfl | h1'
    · rcases List.mem_cons.1 h2 with h2' | h2'
      · cases h2'; rfl
      · exact absurd (out h2') hn.1
    · rcases List.mem_cons.1 h2 with rfl | h2'
      · exact absurd (out h1') hn.1
      · have e1 : l.lookup a = some e := by
          simp only [List.lookup] at ha
          split at ha
          · cases ha; exact absurd (out h1') hn.1
          · exact ha
        have e2 : l.lookup b = some e := by
          simp only [List.lookup] at hb
          split at hb
          · cases hb; exact absurd (out h2') hn.1
          · exact hb
        exact ih hn.2 e1 e2 h1' h2'

theorem map_inj_on {α β : Type} {f : α → β} : ∀ {l m : List α}, (∀ a ∈ l, ∀ b ∈ m, f a = f b → a = b) →
    l.map f = m.map f → l = m
  | [], [], _, _ => rfl
  | [], _ :: _, _, h => by simp at h
  | _ :: _, [], _, h => by simp at h
  | a :: l, b :: m, hi, h => by
    simp only [List.map_cons, List.cons.injEq] at h
    rw [hi a (by simp) b (by simp) h.1, map_inj_on (fun x hx y hy => hi x (by simp [hx]) y (by simp [hy])) h.2]

/-- **C82, exactly.** A macro call with a string literal whose arguments are pairwise
different expressions. Each argument is evaluated exactly once if and only if the literal
uses no name twice. They are evaluated once and in the order in which they are given if and
only if the literal uses exactly their names, in this order. -/
theorem C82_exactly (isExpr : RExpr → Bool) (t s : Str) (rest : List Tree) (c : CSheet)
    (h : Macro.expand isExpr (.lit t (some s) :: rest) = some c) (sheet : Sheet) (hs : Css.parse s = some sheet)
    (names : List Str) (hu : Uses (texts sheet) names) (val : RExpr → Str) :
    ∃ args, ArgTokens rest args ∧ ((args.map Prod.snd).Nodup →
      (((c.run (logged val) none []).2).Perm (args.map Prod.snd) ↔ names.Nodup) ∧
      ((c.run (logged val) none []).2 = args.map Prod.snd ↔ names = args.map Prod.fst)) := by
  rw [Macros.expand_literal] at h
  obtain ⟨sheet', args, out, used, h1, ⟨h2, h2'⟩, h3, h3', rfl⟩ := Literal.macroFn_some.1 h
  rw [hs] at h1
  cases h1
  obtain ⟨h4, h5⟩ := Literal.sheetOut_exprs sheet h3
  have hnm := Literal.uses_unique hu h5
  subst hnm
  refine ⟨args, h2, fun hd => ?_⟩
  have hg := run_gives out (logged val) none (fun t ht => by cases ht) []
  rw [inOrder_logged] at hg
  obtain ⟨-, r, h6, -⟩ := hg
  rw [h6]
  simp only [List.nil_append]
  have h4' : names.map (fun n => args.lookup n) = (exprsOut out).map some := h4.symm
  have hsome : ∀ n ∈ names, ∃ e, args.lookup n = some e := by
    intro n hn
    have hm : args.lookup n ∈ names.map (fun n => args.lookup n) := List.mem_map.2 ⟨n, hn, rfl⟩
    rw [h4'] at hm
    obtain ⟨e, -, he⟩ := List.mem_map.1 hm
    exact ⟨e, he.symm⟩
  have hinj : ∀ a ∈ names, ∀ b : Str, args.lookup a = args.lookup b → a = b := by
    intro a ha b hab
    obtain ⟨e, he⟩ := hsome a ha
    exact lookup_inj hd he (hab ▸ he)
  have hn2 : (args.map Prod.fst).Nodup := h2'
  have hl := lookup_names args hn2
  have hmem : ∀ n, n ∈ names ↔ n ∈ args.map Prod.fst := fun n =>
    ⟨fun hn => (Literal.lookup_isSome args n).1 (by obtain ⟨e, he⟩ := hsome n hn; rw [he]; rfl), fun hn => h3' n hn⟩
  have sinj : ∀ {l m : List RExpr}, l.map some = m.map some → l = m := fun h =>
    map_inj_on (fun _ _ _ _ e => Option.some.inj e) h
  refine ⟨⟨fun hp => ?_, fun hn => ?_⟩, ⟨fun he => ?_, fun he => ?_⟩⟩
  · have h7 : (exprsOut out).Nodup := hp.nodup_iff.2 hd
    have h8 : ((exprsOut out).map some).Nodup :=
      List.Pairwise.map some (fun a b hab e => hab (Option.some.inj e)) h7
    rw [← h4'] at h8
    exact List.Pairwise.of_map (fun n => args.lookup n) (fun a b hab e => hab (by rw [e])) h8
  · have hp : names.Perm (args.map Prod.fst) := (List.perm_ext_iff_of_nodup hn hn2).2 hmem
    have hq := hp.map (fun n => args.lookup n)
    rw [hl, h4'] at hq
    have hf : ∀ l : List RExpr, (l.map some).filterMap id = l := by
      intro l
      induction l with
      | nil => rfl
      | cons a l ih => simp
    have := hq.filterMap id
    rwa [hf, hf] at this
  · rw [he, ← hl] at h4'
    exact map_inj_on (fun a ha b _ e => hinj a ha b e) h4'
  · subst he
    exact sinj (h4'.symm.trans hl)

/-- Non-vacuity: `css!("color: ${b}; width: ${a};", a = x, b = y)` uses both names once, in
the other order. -/
example : (Macro.expand (fun _ => true) [.lit [] (some (c! "color: ${b}; width: ${a};")), .punct ',' false,
        .ident (c! "a") false, .punct '=' false, .ident (c! "x") false, .punct ',' false,
        .ident (c! "b") false, .punct '=' false, .ident (c! "y") false]).isSome = true ∧
    Css.parse (c! "color: ${b}; width: ${a};") =
      some [.block [] [.attr (c! "color") [c! "${b}"], .attr (c! "width") [c! "${a}"]]] := by decide +kernel

example : Uses (texts [.block [] [.attr (c! "color") [c! "${b}"], .attr (c! "width") [c! "${a}"]]]) [c! "b", c! "a"] :=
  .cons (c! "${b}") [.hole [] (c! "b") []] _ [c! "a"] ⟨by simp [Piece.Ok, Spaces, ArgName, Nom.isAlpha], by decide⟩
    (.cons (c! "${a}") [.hole [] (c! "a") []] [] [] ⟨by simp [Piece.Ok, Spaces, ArgName, Nom.isAlpha], by decide⟩ .nil)

/-- **C82**: the names that the literal uses are determined by its text. -/
theorem C82_uses_unique (ss m n : List Str) (h : Uses ss m) (h' : Uses ss n) : m = n := Literal.uses_unique h h'

/-- Non-vacuity of `C82_once_partial`: the call of `Macros.demoCall`, whose literal uses
`x` once. -/
example : (Macro.expand (fun _ => true) Macros.demoCall).isSome = true ∧
    Css.parse (c! "color: ${x};") = some [.block [] [.attr (c! "color") [c! "${x}"]]] := by decide

example : Uses (texts [.block [] [.attr (c! "color") [c! "${x}"]]]) [c! "x"] :=
  .cons (c! "${x}") [.hole [] (c! "x") []] [] [] ⟨by simp [Piece.Ok, Spaces, ArgName, Nom.isAlpha], by decide⟩ .nil

/-! ## C83: names -/

/-- What the expression `Sheet` does where the user has a `Sheet` of their own. -/
def ownSheet : World Unit := fun ns e s =>
  (some (match e with
    | [.ident n _] => if n = c! "Sheet" then (if ns.elem (c! "Sheet") then c! "stylist" else c! "own") else []
    | _ => []), s)

/-- **C83 is false.** The emitted block imports `Sheet` (and `From` and `Into`): in an
expression that mentions `Sheet`, it is that of the library and not that of the surrounding
code: the macro call `css!(color: ${Sheet};)`. -/
theorem C83_false : Lexical ownSheet ∧
    (ownSheet [] [.ident (c! "Sheet") false] ()).1 = some (c! "own") ∧
    ((Macro.expand (fun _ => true) [.ident (c! "color") false, .punct ':' false, .punct '$' false,
        .group .brace [.ident (c! "Sheet") false], .punct ';' false]).bind (fun c => (c.run ownSheet none ()).1)).map
      (fun r => (eraseSheet r.1).toStyleStr (some (c! "k"))) =
    some (c! ".k {\n    color: stylist;\n}\n") := by
  refine ⟨?_, rfl, by decide +kernel⟩
  intro ns e h
  funext s
  unfold ownSheet
  split
  · rename_i n r
    by_cases hn : n = c! "Sheet"
    · have : ns.elem (c! "Sheet") = false := by
        cases he : ns.elem (c! "Sheet") with
        | false => rfl
        | true =>
          exact absurd (Or.inl hn : OccursIn (c! "Sheet") [.ident n r]) (h _ (by simpa using he))
      rw [this]
      rfl
    · rw [if_neg hn, if_neg hn]
  · rfl

/-- What can be seen of an evaluation: the texts of the sheet, if there is one, and the
state. -/
def seen {σ : Type} (r : Option (TSheet × Cell) × σ) : Option (Option Str → Str) × σ :=
  (r.1.map (fun x => (eraseSheet x.1).toStyleStr), r.2)

theorem inOrder_names {σ : Type} {w : World σ} (hw : Lexical w) : ∀ (es : List RExpr)
    (_ : ∀ e ∈ es, ∀ n ∈ sheetNames, ¬ OccursIn n e) (s : σ), inOrder (w sheetNames) es s = inOrder (w []) es s
  | [], _, _ => rfl
  | e :: es, h, s => by
    have h1 : w sheetNames e = w [] e := hw sheetNames e (h e (by simp))
    simp only [inOrder, h1]
    rcases w [] e s with ⟨_ | v, s'⟩
    · rfl
    · simp only [inOrder_names hw es (fun e' he' => h e' (by simp [he']))]

theorem seen_names {σ : Type} {w : World σ} (hw : Lexical w) (out : OSheet)
    (h : ∀ e ∈ exprsOut out, ∀ n ∈ sheetNames, ¬ OccursIn n e) (s : σ) :
    seen ((reifySheet out).run w none s) = seen ((reifySheet out).run (fun _ => w []) none s) := by
  have h1 := run_gives out w none (fun t ht => by cases ht) s
  have h2 := run_gives out (fun _ => w []) none (fun t ht => by cases ht) s
  rw [inOrder_names hw _ h s] at h1
  revert h1 h2
  rcases inOrder (w []) (exprsOut out) s with ⟨_ | vs, s'⟩ <;> intro h1 h2
  · simp only at h1 h2
    rw [h1, h2]
  · obtain ⟨-, r1, e1, p1⟩ := h1
    obtain ⟨-, r2, e2, p2⟩ := h2
    rw [e1, e2]
    simp only [seen, Option.map_some, Prod.mk.injEq, Option.some.injEq, and_true]
    funext cls
    rw [← Macros.C42_joined_text (eraseSheet r1.1), ← Macros.C42_joined_text (eraseSheet r2.1),
      (p1 []).1 (fun _ => []), (p2 []).1 (fun _ => [])]

/-- **C83, partial.** If no expression mentions `Sheet`, `From` or `Into`, a macro with
inline CSS does what it would do if its expressions were evaluated in the surrounding code.
Missing: the other expressions, for which it is false. -/
theorem C83_inline_partial {σ : Type} (isExpr : RExpr → Bool) (ts : List Tree) (c : CSheet)
    (hc : Inline.macroFn isExpr ts = .code c) (w : World σ) (hw : Lexical w)
    (h : ∀ e ∈ exprsIn false ts, ∀ n ∈ [c! "From", c! "Into", c! "Sheet"], ¬ OccursIn n e) (s : σ) :
    seen (c.run w none s) = seen (c.run (fun _ => w []) none s) := by
  obtain ⟨is, out, h1, -, h2, rfl⟩ := (Inline.C46_code isExpr ts c).1 hc
  refine seen_names hw out ?_ s
  rw [Inline.out_exprs h1 h2]
  exact h

/-- **C83, partial**, for a string literal and its arguments. -/
theorem C83_literal_partial {σ : Type} (isExpr : RExpr → Bool) (t x : Str) (rest : List Tree) (c : CSheet)
    (hc : Macro.expand isExpr (.lit t (some x) :: rest) = some c) (w : World σ) (hw : Lexical w)
    (h : ∀ n ∈ [c! "From", c! "Into", c! "Sheet"], ¬ OccursIn n rest) (s : σ) :
    seen (c.run w none s) = seen (c.run (fun _ => w []) none s) := by
  rw [Macros.expand_literal] at hc
  obtain ⟨sheet, args, out, used, h1, ⟨h2, -⟩, h3, -, rfl⟩ := Literal.macroFn_some.1 hc
  obtain ⟨h4, h5⟩ := Literal.sheetOut_exprs sheet h3
  refine seen_names hw out ?_ s
  intro e he n hn ho
  refine h n hn ?_
  have hm : some e ∈ Literal.argExprs args used := by rw [← h4]; exact List.mem_map.2 ⟨e, he, rfl⟩
  obtain ⟨m, -, hl⟩ := List.mem_map.1 hm
  have hmem : (m, e) ∈ args := by
    clear h1 h2 h3 h4 h5 hm
    induction args with
    | nil => simp at hl
    | cons a l ih =>
      obtain ⟨k, e'⟩ := a
      simp only [List.lookup] at hl
      split at hl
      · rename_i heq
        simp only [beq_iff_eq] at heq
        cases hl
        subst heq
        simp
      · exact List.mem_cons_of_mem _ (ih hl)
  have app : ∀ (n : Str) (a b : List Tree), OccursIn n a ∨ OccursIn n b → OccursIn n (a ++ b) := by
    intro n a
    induction a with
    | nil => intro b hb; exact hb.resolve_left (fun h => h)
    | cons t a ih =>
      rintro b ((hb | hb) | hb)
      · exact .inl hb
      · exact .inr (ih b (.inl hb))
      · exact .inr (ih b (.inr hb))
  clear h4 h3 hm hl hc
  induction h2 with
  | done => simp at hmem
  | trailing => simp at hmem
  | more j name raw j' e' rest args hnc _ ih =>
    refine .inr (.inr (.inr (app _ _ _ ?_)))
    rcases List.mem_cons.1 hmem with he | hmem
    · cases he; exact .inl ho
    · exact .inr (ih (fun k hk hko => h k hk (.inr (.inr (.inr (app _ _ _ (.inr hko)))))) hmem)

open Classical in
/-- A world for expressions that count how often one of the names they mention means
something else than in the surrounding code. -/
noncomputable def counting : World Nat := fun ns e s =>
  (some (c! "x"), if ∃ n ∈ ns, OccursIn n e then s + 1 else s)

theorem counting_lexical : Lexical counting := by
  intro ns e h
  funext s
  simp only [counting]
  rw [if_neg (by rintro ⟨n, hn, ho⟩; exact h n hn ho), if_neg (by simp)]

theorem counting_le (ns : List Str) : ∀ (es : List RExpr) (s : Nat), ∃ vs s', inOrder (counting ns) es s = (some vs, s') ∧ s ≤ s' ∧
    ((∃ e ∈ es, ∃ n ∈ ns, OccursIn n e) → s < s')
  | [], s => ⟨[], s, rfl, Nat.le_refl _, by simp⟩
  | e :: es, s => by
    simp only [inOrder]
    by_cases h : ∃ n ∈ ns, OccursIn n e
    · have hc : counting ns e s = (some (c! "x"), s + 1) := by simp only [counting]; rw [if_pos h]
      obtain ⟨vs, s', h1, h2, -⟩ := counting_le ns es (s + 1)
      simp only [hc, h1]
      exact ⟨_, s', rfl, by omega, fun _ => by omega⟩
    · have hc : counting ns e s = (some (c! "x"), s) := by simp only [counting]; rw [if_neg h]
      obtain ⟨vs, s', h1, h2, h3⟩ := counting_le ns es s
      simp only [hc, h1]
      refine ⟨_, s', rfl, h2, ?_⟩
      rintro ⟨e', he, hn⟩
      rcases List.mem_cons.1 he with rfl | he
      · exact absurd hn h
      · exact h3 ⟨e', he, hn⟩

theorem counting_none (es : List RExpr) (s : Nat) : ∃ vs, inOrder (counting []) es s = (some vs, s) := by
  induction es with
  | nil => exact ⟨[], rfl⟩
  | cons e es ih =>
    obtain ⟨vs, h⟩ := ih
    refine ⟨c! "x" :: vs, ?_⟩
    have : counting [] e s = (some (c! "x"), s) := by simp [counting]
    simp only [inOrder, this, h]

theorem seen_names_iff (out : OSheet) :
    (∀ w : World Nat, Lexical w → ∀ s, seen ((reifySheet out).run w none s) = seen ((reifySheet out).run (fun _ => w []) none s)) ↔
      ∀ e ∈ exprsOut out, ∀ n ∈ sheetNames, ¬ OccursIn n e := by
  refine ⟨fun h e he n hn ho => ?_, fun h w hw s => seen_names hw out h s⟩
  have h0 := h counting counting_lexical 0
  have h1 := run_gives out counting none (fun t ht => by cases ht) 0
  have h2 := run_gives out (fun _ => counting []) none (fun t ht => by cases ht) 0
  obtain ⟨vs, s', e1, -, e2⟩ := counting_le sheetNames (exprsOut out) 0
  obtain ⟨vs', e3⟩ := counting_none (exprsOut out) 0
  rw [e1] at h1
  rw [e3] at h2
  obtain ⟨-, r1, g1, -⟩ := h1
  obtain ⟨-, r2, g2, -⟩ := h2
  rw [g1, g2] at h0
  have := e2 ⟨e, he, n, hn, ho⟩
  simp only [seen, Prod.mk.injEq] at h0
  omega

/-- **C83**, exactly. A macro with inline CSS does what it would do if its expressions were
evaluated in the surrounding code, whatever expressions do with the names in them, if and
only if no expression mentions `From`, `Into` or `Sheet`. -/
theorem C83_inline_exactly (isExpr : RExpr → Bool) (ts : List Tree) (c : CSheet) (hc : Inline.macroFn isExpr ts = .code c) :
    (∀ w : World Nat, Lexical w → ∀ s, seen (c.run w none s) = seen (c.run (fun _ => w []) none s)) ↔
      ∀ e ∈ exprsIn false ts, ∀ n ∈ [c! "From", c! "Into", c! "Sheet"], ¬ OccursIn n e := by
  obtain ⟨is, out, h1, -, h2, rfl⟩ := (Inline.C46_code isExpr ts c).1 hc
  rw [seen_names_iff, Inline.out_exprs h1 h2]
  rfl

/-- **C83**, exactly, for a string literal: the same for its arguments. -/
theorem C83_literal_exactly (isExpr : RExpr → Bool) (t x : Str) (rest : List Tree) (c : CSheet)
    (hc : Macro.expand isExpr (.lit t (some x) :: rest) = some c) :
    ∃ args, ArgTokens rest args ∧
      ((∀ w : World Nat, Lexical w → ∀ s, seen (c.run w none s) = seen (c.run (fun _ => w []) none s)) ↔
        ∀ a ∈ args, ∀ n ∈ [c! "From", c! "Into", c! "Sheet"], ¬ OccursIn n a.2) := by
  rw [Macros.expand_literal] at hc
  obtain ⟨sheet, args, out, used, h1, ⟨h2, h2'⟩, h3, h3', rfl⟩ := Literal.macroFn_some.1 hc
  obtain ⟨h4, h5⟩ := Literal.sheetOut_exprs sheet h3
  refine ⟨args, h2, ?_⟩
  rw [seen_names_iff]
  have hn2 : (args.map Prod.fst).Nodup := h2'
  have hl := lookup_names args hn2
  have hex : ∀ e, e ∈ exprsOut out ↔ ∃ a ∈ args, a.2 = e := by
    intro e
    have hm : e ∈ exprsOut out ↔ some e ∈ Literal.argExprs args used := by
      rw [← h4, List.mem_map]
      exact ⟨fun h => ⟨e, h, rfl⟩, by rintro ⟨e', h, he⟩; cases he; exact h⟩
    rw [hm]
    constructor
    · intro h
      obtain ⟨n, -, hn⟩ := List.mem_map.1 h
      clear hm h1 h2 h2' h3 h3' h4 h5 hn2 hl h
      induction args with
      | nil => simp at hn
      | cons a l ih =>
        obtain ⟨k, e'⟩ := a
        simp only [List.lookup] at hn
        split at hn
        · cases hn; exact ⟨_, List.mem_cons_self, rfl⟩
        · obtain ⟨a, ha, hae⟩ := ih hn
          exact ⟨a, List.mem_cons_of_mem _ ha, hae⟩
    · rintro ⟨a, ha, rfl⟩
      refine List.mem_map.2 ⟨a.1, h3' a.1 (List.mem_map.2 ⟨a, ha, rfl⟩), ?_⟩
      rw [List.map_map, List.map_map] at hl
      exact List.map_inj_left.1 hl a ha
  constructor
  · intro h a ha
    exact h a.2 ((hex _).2 ⟨a, ha, rfl⟩)
  · intro h e he
    obtain ⟨a, ha, rfl⟩ := (hex e).1 he
    exact h a ha

/-- Non-vacuity: the expressions of `demo` mention other names, and there is a world that
cares about names. -/
example : (∀ e ∈ exprsIn false demo, ∀ n ∈ [c! "From", c! "Into", c! "Sheet"], ¬ OccursIn n e) ∧ Lexical ownSheet := by
  refine ⟨?_, C83_false.1⟩
  have : exprsIn false demo = [[.ident (c! "x") false], [.ident (c! "y") false], [.ident (c! "z") false],
    [.ident (c! "x") false]] := rfl
  rw [this]
  simp [OccursIn, Occurs]

end Evaluation
