import Verif.Props.Browser
import Verif.Props.Written
import Verif.Props.Value

/-!
# From a macro call to the page

C86: C69 for styles that are made from the sheet of a macro call, as `style!`, `global_style!`
and `css!` make them (`packages/stylist-macros/src/style.rs`, `global_style.rs`, `css.rs`: the
sheet is the argument of `Style::new`, `GlobalStyle::new` and `StyleSource::from`).
-/

namespace Manager

open Spec Output Storage

/-- **C86** for a macro call with inline css. The call is evaluated (one of the evaluations
`ρs`), its tokens and the values of its expressions are plain, and a style is made from the
sheet, in any history as above. As long as the style is held, the page has exactly one element
for its class, and a browser reads it as the declarations written in the call. -/
theorem C86_inline_on_page (isExpr : RExpr → Bool) (ts : List Tree) (hl : ∀ t v rest, ts ≠ .lit t v :: rest)
    (code : CSheet) (hx : Macro.expand isExpr ts = some code) :
    ∃ is, Sheets isExpr false ts is ∧ ∀ (ρs : List Output.Env), ∃ us, code.evalMany ρs none = some us ∧ us.length = ρs.length ∧
      ∀ (k : Nat) ρ u, ρs[k]? = some ρ → us[k]? = some u → plainItems ρ is = true →
      ∀ (env : Env), env.wasm = true → ∀ (d : Dom) (ops ops' : List Op) (s s1 s2 : St), s = run env ops (St.init d) →
        (∀ mh data, Op.load mh data ∉ ops) → ∀ (mh h i n : Nat) (kind : Kind) (fault : Bool) (m : Mgr),
        s.mgrOf mh = some i → s.mgrs[i]? = some m → m.log = none → m.container = some n → Attached d n →
        step env (.create mh kind (.sheet (eraseSheet u)) fault) s = (s1, .style h) → s2 = run env ops' s1 →
        (∀ c ∈ s2.heap, cssIdent c.id = true) → (s2.heap.map Content.id).Nodup →
        ∀ (cls : Str), s2.className h = some cls → (∀ c ∈ cls, Str.isWhitespace c = false) → withId cls d.inDoc = [] →
        ∃ text, withId cls s2.dom.inDoc = [.style cls text] ∧
          browserReads text = some (rows (if kind.forPage then none else some cls) ρ is) := by
  obtain ⟨is, h1, h2⟩ := Inline.C73_inline_reads isExpr ts hl code hx
  refine ⟨is, h1, fun ρs => ?_⟩
  obtain ⟨us, h3, h4, h5⟩ := h2 ρs
  refine ⟨us, h3, h4, ?_⟩
  intro k ρ u hk hu hp env hw d ops ops' s s1 s2 hs hload mh h i n kind fault m hi hm hlog hcont ha hc1 hr hid hn cls hc hws hb
  obtain ⟨u', h6, h7⟩ := h5 k ρ hk hp
  rw [hu] at h6
  cases h6
  obtain ⟨g1, g2⟩ := source_on_page env hw d ops ops' s s1 s2 hs hload mh h i n kind _ _ rfl fault m hi hm hlog hcont ha hc1 hr
    hid hn cls hc hws hb
  exact ⟨_, g1, h7 _ g2⟩

/-- **C86** for a macro call with a string literal, whose texts are whole around the places for
values; the values of the arguments are closed (those used in strings: plain). A browser reads
the element on the page as the declarations of the literal with the values put in. -/
theorem C86_literal_on_page (isExpr : RExpr → Bool) (t s0 : Str) (rest : List Tree) (code : CSheet)
    (hx : Macro.expand isExpr (.lit t (some s0) :: rest) = some code) :
    ∃ sheet args, Css.parse s0 = some sheet ∧ ArgTokens rest args ∧
      (∀ N : Names, WholeTemplateSheet N sheet → ∀ ρs : List Output.Env,
        (∀ ρ ∈ ρs, ∀ name e, (name, e) ∈ args →
          (name ∈ N.outside → ClosedValue (ρ e)) ∧ (name ∈ N.inside → StringText (ρ e))) →
        ∃ us, code.evalMany ρs none = some us ∧ us.length = ρs.length ∧
      ∀ (k : Nat) ρ u, ρs[k]? = some ρ → us[k]? = some u →
      ∀ (env : Env), env.wasm = true → ∀ (d : Dom) (ops ops' : List Op) (s s1 s2 : St), s = run env ops (St.init d) →
        (∀ mh data, Op.load mh data ∉ ops) → ∀ (mh h i n : Nat) (kind : Kind) (fault : Bool) (m : Mgr),
        s.mgrOf mh = some i → s.mgrs[i]? = some m → m.log = none → m.container = some n → Attached d n →
        step env (.create mh kind (.sheet (eraseSheet u)) fault) s = (s1, .style h) → s2 = run env ops' s1 →
        (∀ c ∈ s2.heap, cssIdent c.id = true) → (s2.heap.map Content.id).Nodup →
        ∀ (cls : Str), s2.className h = some cls → (∀ c ∈ cls, Str.isWhitespace c = false) → withId cls d.inDoc = [] →
        ∃ text ds, withId cls s2.dom.inDoc = [.style cls text] ∧ browserReads text = some ds ∧
          ReplacedDecls (argText args ρ) (decls (if kind.forPage then none else some cls) sheet) ds) := by
  obtain ⟨sheet, args, h1, h2, h3⟩ := Macros.C72_values_stay_partial isExpr t s0 rest code hx
  refine ⟨sheet, args, h1, h2, fun N hN ρs hρ => ?_⟩
  obtain ⟨us, h4, h5, h6⟩ := h3 N hN ρs hρ
  refine ⟨us, h4, h5, ?_⟩
  intro k ρ u hk hu env hw d ops ops' s s1 s2 hs hload mh h i n kind fault m hi hm hlog hcont ha hc1 hr hid hn cls hc hws hb
  obtain ⟨u', h7, h8⟩ := h6 k ρ hk
  rw [hu] at h7
  cases h7
  obtain ⟨g1, g2⟩ := source_on_page env hw d ops ops' s s1 s2 hs hload mh h i n kind _ _ rfl fault m hi hm hlog hcont ha hc1 hr
    hid hn cls hc hws hb
  obtain ⟨ds, h9, -, h10⟩ := h8 _ g2
  exact ⟨_, ds, g1, h9, h10⟩

/-- The sheet of the call of C73, evaluated. -/
def writtenSheet : Sheet :=
  ((Macro.expand (fun _ => true) Inline.writtenTokens).bind (fun c => c.evalMany [Inline.writtenEnv] none)).elim []
    (fun us => us.head?.elim [] eraseSheet)

set_option maxRecDepth 16000 in
/-- Non-vacuity: a style is made from the call of C73 in a browser, with another style before
and after, and what a browser reads on the page. -/
example : ∃ s s1 s2 text, s = run demoEnv (demoOps.take 3) (St.init demoPage) ∧
    step demoEnv (.create 1 .scoped (.sheet writtenSheet) false) s = (s1, .style 1) ∧
    s2 = run demoEnv [.drop 0, .create 0 .global (.sheet demoRed) false] s1 ∧
    (∀ mh data, Op.load mh data ∉ demoOps.take 3) ∧ s.mgrOf 1 = some 1 ∧
    ((s.mgrs[1]?).map Mgr.log = some none) ∧ ((s.mgrs[1]?).map Mgr.container = some (some 1)) ∧
    Attached demoPage 1 ∧ (∀ c ∈ s2.heap, cssIdent c.id = true) ∧ (s2.heap.map Content.id).Nodup ∧
    s2.className 1 = some (c! "app-style-1") ∧ withId (c! "app-style-1") demoPage.inDoc = [] ∧
    withId (c! "app-style-1") s2.dom.inDoc = [.style (c! "app-style-1") text] ∧
    browserReads text = some
      [ ⟨[c! ".app-style-1"], c! "margin", c! "0 auto"⟩,
        ⟨[c! ".app-style-1 .k:is(a,[b=c])>p, .app-style-1"], c! "--x-y", c! "f(1/[a;]) \"; }\""⟩,
        ⟨[c! "@media screen", c! "@supports (a:b)", c! ".app-style-1"], c! "top", c! "\"}\""⟩ ] := by
  refine ⟨_, (step demoEnv (.create 1 .scoped (.sheet writtenSheet) false) (run demoEnv (demoOps.take 3) (St.init demoPage))).1,
    _, writtenSheet.toStyleStr (some (c! "app-style-1")), rfl, Prod.ext rfl ?_, rfl, ?_, ?_, ?_, ?_, ⟨⟨true, []⟩, rfl, rfl⟩, ?_, ?_, ?_, ?_, ?_, ?_⟩
  · decide +kernel
  · intro mh data
    simp [demoOps]
  all_goals decide +kernel

/-- **C86** for a server and a macro call with inline css: a browser finds exactly one element
with the class of the style in the markup and reads it as the declarations written in the
call. -/
theorem C86_inline_server (isExpr : RExpr → Bool) (ts : List Tree) (hl : ∀ t v rest, ts ≠ .lit t v :: rest)
    (code : CSheet) (hx : Macro.expand isExpr ts = some code) :
    ∃ is, Sheets isExpr false ts is ∧ ∀ (ρs : List Output.Env), ∃ us, code.evalMany ρs none = some us ∧ us.length = ρs.length ∧
      ∀ (k : Nat) ρ u, ρs[k]? = some ρ → us[k]? = some u → plainItems ρ is = true →
      ∀ (env : Env) (d : Dom) (ops ops' : List Op) (s s1 s2 : St), s = run env ops (St.init d) →
        (∀ mh data, Op.load mh data ∉ ops) → ∀ (mh mh' h i l : Nat) (kind : Kind) (fault : Bool) (m : Mgr),
        s.mgrOf mh = some i → s.mgrs[i]? = some m → m.log = some l →
        step env (.create mh kind (.sheet (eraseSheet u)) fault) s = (s1, .style h) →
        ∀ (cls : Str), s1.className h = some cls → s2 = run env ops' s1 →
        (∀ c ∈ s2.heap, cssIdent c.id = true) → (s2.heap.map Content.id).Nodup →
        (∀ c ∈ cls, Str.isWhitespace c = false) → s2.mgrOf mh' = some i → ∀ (data : List Entry),
        (step env (.styleData mh') s2).2 = .data data → ∀ (esc : Str → Str), (∀ t, Html.endTags (esc t) = 0) →
        (∀ t, Html.endTags t = 0 → esc t = t) →
        Html.endTags ((eraseSheet u).toStyleStr (if kind.forPage then none else some cls)) = 0 →
        ∃ els text, Html.readStyles data.length (writeStaticMarkup esc data) = some els ∧
          els.filter (fun e => e.1 = cls) = [(cls, text)] ∧
          browserReads text = some (rows (if kind.forPage then none else some cls) ρ is) := by
  obtain ⟨is, h1, h2⟩ := Inline.C73_inline_reads isExpr ts hl code hx
  refine ⟨is, h1, fun ρs => ?_⟩
  obtain ⟨us, h3, h4, h5⟩ := h2 ρs
  refine ⟨us, h3, h4, ?_⟩
  intro k ρ u hk hu hp env d ops ops' s s1 s2 hs hload mh mh' h i l kind fault m hi hm hlog hc1 cls hc hr hid hn hws hi2 data hd
    esc hesc hesc' hend
  obtain ⟨u', h6, h7⟩ := h5 k ρ hk hp
  rw [hu] at h6
  cases h6
  obtain ⟨els, g1, g2, g3⟩ := source_server env d ops ops' s s1 s2 hs hload mh mh' h i l kind (.sheet (eraseSheet u)) _ rfl fault m hi hm
    hlog hc1 cls hc hr hid hn hws hi2 data hd esc hesc hesc' hend
  exact ⟨els, _, g1, g2, h7 _ g3⟩

/-- **C86** for a server and a macro call with a string literal, values as above. -/
theorem C86_literal_server (isExpr : RExpr → Bool) (t s0 : Str) (rest : List Tree) (code : CSheet)
    (hx : Macro.expand isExpr (.lit t (some s0) :: rest) = some code) :
    ∃ sheet args, Css.parse s0 = some sheet ∧ ArgTokens rest args ∧
      (∀ N : Names, WholeTemplateSheet N sheet → ∀ ρs : List Output.Env,
        (∀ ρ ∈ ρs, ∀ name e, (name, e) ∈ args →
          (name ∈ N.outside → ClosedValue (ρ e)) ∧ (name ∈ N.inside → StringText (ρ e))) →
        ∃ us, code.evalMany ρs none = some us ∧ us.length = ρs.length ∧
      ∀ (k : Nat) ρ u, ρs[k]? = some ρ → us[k]? = some u →
      ∀ (env : Env) (d : Dom) (ops ops' : List Op) (s s1 s2 : St), s = run env ops (St.init d) →
        (∀ mh data, Op.load mh data ∉ ops) → ∀ (mh mh' h i l : Nat) (kind : Kind) (fault : Bool) (m : Mgr),
        s.mgrOf mh = some i → s.mgrs[i]? = some m → m.log = some l →
        step env (.create mh kind (.sheet (eraseSheet u)) fault) s = (s1, .style h) →
        ∀ (cls : Str), s1.className h = some cls → s2 = run env ops' s1 →
        (∀ c ∈ s2.heap, cssIdent c.id = true) → (s2.heap.map Content.id).Nodup →
        (∀ c ∈ cls, Str.isWhitespace c = false) → s2.mgrOf mh' = some i → ∀ (data : List Entry),
        (step env (.styleData mh') s2).2 = .data data → ∀ (esc : Str → Str), (∀ t, Html.endTags (esc t) = 0) →
        (∀ t, Html.endTags t = 0 → esc t = t) →
        Html.endTags ((eraseSheet u).toStyleStr (if kind.forPage then none else some cls)) = 0 →
        ∃ els text ds, Html.readStyles data.length (writeStaticMarkup esc data) = some els ∧
          els.filter (fun e => e.1 = cls) = [(cls, text)] ∧ browserReads text = some ds ∧
          ReplacedDecls (argText args ρ) (decls (if kind.forPage then none else some cls) sheet) ds) := by
  obtain ⟨sheet, args, h1, h2, h3⟩ := Macros.C72_values_stay_partial isExpr t s0 rest code hx
  refine ⟨sheet, args, h1, h2, fun N hN ρs hρ => ?_⟩
  obtain ⟨us, h4, h5, h6⟩ := h3 N hN ρs hρ
  refine ⟨us, h4, h5, ?_⟩
  intro k ρ u hk hu env d ops ops' s s1 s2 hs hload mh mh' h i l kind fault m hi hm hlog hc1 cls hc hr hid hn hws hi2 data hd
    esc hesc hesc' hend
  obtain ⟨u', h7, h8⟩ := h6 k ρ hk
  rw [hu] at h7
  cases h7
  obtain ⟨els, g1, g2, g3⟩ := source_server env d ops ops' s s1 s2 hs hload mh mh' h i l kind (.sheet (eraseSheet u)) _ rfl fault m hi hm
    hlog hc1 cls hc hr hid hn hws hi2 data hd esc hesc hesc' hend
  obtain ⟨ds, h9, -, h10⟩ := h8 _ g3
  exact ⟨els, _, ds, g1, g2, h9, h10⟩

set_option maxRecDepth 16000 in
/-- Non-vacuity: the server of C31 makes another style from the call of C73. -/
example : ∃ s s1 s2, s = run serverEnv serverOps (St.init []) ∧
    step serverEnv (.create 0 .global (.sheet writtenSheet) false) s = (s1, .style 4) ∧
    s2 = run serverEnv [.drop 4, .create 0 (.withPrefix (c! "b")) (.sheet demoRed) false] s1 ∧
    (∀ mh data, Op.load mh data ∉ serverOps) ∧ s.mgrOf 0 = some 0 ∧ ((s.mgrs[0]?).map Mgr.log = some (some 0)) ∧
    s1.className 4 = some (c! "stylist-global-style-3") ∧ (∀ c ∈ s2.heap, cssIdent c.id = true) ∧
    (s2.heap.map Content.id).Nodup ∧ s2.mgrOf 0 = some 0 ∧
    (match (step serverEnv (.styleData 0) s2).2 with | .data ds => some ds.length | _ => none) = some 5 ∧
    Html.endTags (Sheet.toStyleStr writtenSheet none) = 0 := by
  refine ⟨_, (step serverEnv (.create 0 .global (.sheet writtenSheet) false) (run serverEnv serverOps (St.init []))).1,
    _, rfl, Prod.ext rfl ?_, rfl, ?_, ?_, ?_, ?_, ?_, ?_, ?_, ?_, ?_⟩
  · decide +kernel
  · intro mh data
    simp [serverOps]
  all_goals decide +kernel

end Manager

namespace Context
open Manager Spec Output Storage

/-- **C86** in components, for `css!` and `use_style!` with inline css: as long as the manager
is that of some place and the style is not unregistered, nothing being hydrated, the page has
exactly one element for the class, and a browser reads it as the declarations written in the
call. -/
theorem C86_inline_component (isExpr : RExpr → Bool) (ts : List Tree) (hl : ∀ t v rest, ts ≠ .lit t v :: rest)
    (code : CSheet) (hx : Macro.expand isExpr ts = some code) :
    ∃ is, Sheets isExpr false ts is ∧ ∀ (ρs : List Output.Env), ∃ us, code.evalMany ρs none = some us ∧ us.length = ρs.length ∧
      ∀ (k : Nat) ρ u, ρs[k]? = some ρ → us[k]? = some u → plainItems ρ is = true →
      ∀ (env : Manager.Env), env.wasm = true → ∀ (o : Bool) (d : Dom) (es es' : List Event) (a a1 a2 : App),
        events env o es (App.init d) = some a → ∀ (w w' : Place) (fault : Bool) (cls : Str),
        Gives env a w (.sheet (eraseSheet u)) fault a1 cls → events env o es' a1 = some a2 → ∀ (i n : Nat),
        ManagerAt a1 (given env o es (App.init d) []) w i →
        ManagerAt a2 (given env o es' a1 (given env o es (App.init d) [])) w' i →
        ∀ (m : Mgr), a2.st.mgrs[i]? = some m → m.log = none → m.container = some n → Attached d n →
        AlongEvents env o (fun a ev => ¬ Unregs i (Kind.scoped.key m.pref (eraseSheet u)) a ev) es' a1 →
        (∀ c ∈ a2.st.heap, c.origin = .created) → (∀ c ∈ a2.st.heap, cssIdent c.id = true) →
        (a2.st.heap.map Content.id).Nodup → (∀ c ∈ cls, Str.isWhitespace c = false) → withId cls d.inDoc = [] →
        ∃ text, withId cls a2.st.dom.inDoc = [.style cls text] ∧ browserReads text = some (rows (some cls) ρ is) := by
  obtain ⟨is, h1, h2⟩ := Inline.C73_inline_reads isExpr ts hl code hx
  refine ⟨is, h1, fun ρs => ?_⟩
  obtain ⟨us, h3, h4, h5⟩ := h2 ρs
  refine ⟨us, h3, h4, ?_⟩
  intro k ρ u hk hu hp env hwasm o d es es' a a1 a2 he w w' fault cls hg he' i n hw hw' m hm hlog hcont ha hun hload hid hn hws hb
  obtain ⟨u', h6, h7⟩ := h5 k ρ hk hp
  rw [hu] at h6
  cases h6
  obtain ⟨g1, g2⟩ := source_component env hwasm o d es es' a a1 a2 he w w' (.sheet (eraseSheet u)) _ rfl fault cls hg he' i n hw hw' m
    hm hlog hcont ha hun hload hid hn hws hb
  exact ⟨_, g1, h7 _ g2⟩

/-- **C86** in components, for `css!` and `use_style!` with a string literal whose texts are
whole around the places for values; the values are closed (those used in strings: plain). -/
theorem C86_literal_component (isExpr : RExpr → Bool) (t s0 : Str) (rest : List Tree) (code : CSheet)
    (hx : Macro.expand isExpr (.lit t (some s0) :: rest) = some code) :
    ∃ sheet args, Css.parse s0 = some sheet ∧ ArgTokens rest args ∧
      (∀ N : Names, WholeTemplateSheet N sheet → ∀ ρs : List Output.Env,
        (∀ ρ ∈ ρs, ∀ name e, (name, e) ∈ args →
          (name ∈ N.outside → ClosedValue (ρ e)) ∧ (name ∈ N.inside → StringText (ρ e))) →
        ∃ us, code.evalMany ρs none = some us ∧ us.length = ρs.length ∧
      ∀ (k : Nat) ρ u, ρs[k]? = some ρ → us[k]? = some u →
      ∀ (env : Manager.Env), env.wasm = true → ∀ (o : Bool) (d : Dom) (es es' : List Event) (a a1 a2 : App),
        events env o es (App.init d) = some a → ∀ (w w' : Place) (fault : Bool) (cls : Str),
        Gives env a w (.sheet (eraseSheet u)) fault a1 cls → events env o es' a1 = some a2 → ∀ (i n : Nat),
        ManagerAt a1 (given env o es (App.init d) []) w i →
        ManagerAt a2 (given env o es' a1 (given env o es (App.init d) [])) w' i →
        ∀ (m : Mgr), a2.st.mgrs[i]? = some m → m.log = none → m.container = some n → Attached d n →
        AlongEvents env o (fun a ev => ¬ Unregs i (Kind.scoped.key m.pref (eraseSheet u)) a ev) es' a1 →
        (∀ c ∈ a2.st.heap, c.origin = .created) → (∀ c ∈ a2.st.heap, cssIdent c.id = true) →
        (a2.st.heap.map Content.id).Nodup → (∀ c ∈ cls, Str.isWhitespace c = false) → withId cls d.inDoc = [] →
        ∃ text ds, withId cls a2.st.dom.inDoc = [.style cls text] ∧ browserReads text = some ds ∧
          ReplacedDecls (argText args ρ) (decls (some cls) sheet) ds) := by
  obtain ⟨sheet, args, h1, h2, h3⟩ := Macros.C72_values_stay_partial isExpr t s0 rest code hx
  refine ⟨sheet, args, h1, h2, fun N hN ρs hρ => ?_⟩
  obtain ⟨us, h4, h5, h6⟩ := h3 N hN ρs hρ
  refine ⟨us, h4, h5, ?_⟩
  intro k ρ u hk hu env hwasm o d es es' a a1 a2 he w w' fault cls hg he' i n hw hw' m hm hlog hcont ha hun hload hid hn hws hb
  obtain ⟨u', h7, h8⟩ := h6 k ρ hk
  rw [hu] at h7
  cases h7
  obtain ⟨g1, g2⟩ := source_component env hwasm o d es es' a a1 a2 he w w' (.sheet (eraseSheet u)) _ rfl fault cls hg he' i n hw hw' m
    hm hlog hcont ha hun hload hid hn hws hb
  obtain ⟨ds, h9, -, h10⟩ := h8 _ g2
  exact ⟨_, ds, g1, h9, h10⟩

/-- The sheet of the call of C72, evaluated. -/
def valueResult : Sheet :=
  ((Macro.expand (fun _ => true) Macros.valueCall).bind (fun c => c.evalMany [Macros.valueEnv] none)).elim []
    (fun us => us.head?.elim [] eraseSheet)

/-- The events that follow the call. -/
def laterEvents : List Event :=
  [ .classes (.below 0) (.text (c! "color: blue;")) false, .classes .outside (.sheet valueResult) false ]

set_option maxRecDepth 16000 in
/-- Non-vacuity: the client of C65 with the calls of C73 and C72; other styles are made later. -/
example : ∀ src ∈ [Source.sheet writtenSheet, .sheet valueResult],
    ∃ a a1 a2, events demoEnv false demoClient (App.init demoPage) = some a ∧
    Gives demoEnv a (.below 0) src false a1 (c! "one-style-0") ∧
    events demoEnv false laterEvents a1 = some a2 ∧
    given demoEnv false demoClient (App.init demoPage) [] = [some 0] ∧
    given demoEnv false laterEvents a1 [some 0] = [some 0] ∧
    (a2.st.mgrs[0]?).map Mgr.log = some none ∧ (a2.st.mgrs[0]?).map Mgr.container = some (some 0) ∧
    Attached demoPage 0 ∧ (∀ c ∈ a2.st.heap, c.origin = .created) ∧
    (∀ c ∈ a2.st.heap, cssIdent c.id = true) ∧ (a2.st.heap.map Content.id).Nodup ∧
    withId (c! "one-style-0") demoPage.inDoc = [] ∧
    (withId (c! "one-style-0") a2.st.dom.inDoc).length = 1 := by
  intro src hsrc
  let a := (events demoEnv false demoClient (App.init demoPage)).getD (App.init [])
  let a1 := ((classes demoEnv a (.below 0) src false).getD (App.init [], [])).1
  let a2 := (events demoEnv false laterEvents a1).getD (App.init [])
  simp only [List.mem_cons, List.not_mem_nil, or_false] at hsrc
  rcases hsrc with rfl | rfl <;>
    (refine ⟨a, a1, a2, ?_, Or.inr ?_, ?_, ?_, ?_, ?_, ?_, ⟨_, rfl, rfl⟩, ?_, ?_, ?_, ?_, ?_⟩ <;> decide +kernel)

end Context
