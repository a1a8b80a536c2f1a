import Verif.Proofs.Browser
import Verif.Props.Layout
import Verif.Props.Hydration
import Verif.Props.Context

/-!
# What a browser reads

C68 and C69. `Spec.browserReads` is a reader of css that knows strings, comments, escapes and
brackets, see `Spec/Browser`.
-/

open Spec Css

/-! ## C68: a browser reads the declarations that were written -/

/-- **C68.** If the texts of a sheet are whole (strings and brackets are closed, braces and
semicolons occur in strings and brackets only, no comments), a browser reads the generated
text as exactly the declarations of the sheet, in order, each under exactly its own
conditions. The class is one or more identifier characters, or there is none. -/
theorem C68_browser_reads (s : Sheet) (cls : Option Str) (hcls : ∀ c ∈ cls, CleanClass c) (hs : WholeSheet s) :
    browserReads (s.toStyleStr cls) = some (decls cls s) :=
  BrowserP.browser_reads s cls hcls hs

/-- A sheet with structural characters in strings of both kinds, in brackets and after
backslashes. -/
def browserSheet : Sheet :=
  [ .block [] [.attr (c! "content") [c! "\"};{'\\\"\""], .attr (c! "quotes") [c! "'{\"' '\\''"]],
    .block [[c! "&[title=\"a{b\"]"], [c! "a:not([x=';'])"], [c! "*"]]
      [.attr (c! "background") [c! "url(data:x;base64,AA) a/b"],
       .rule [c! "@media ", c! "(min-width: 1px)"] [.attr (c! "top") [c! "calc(1px * (2 / 3))"]]],
    .rule [c! "@keyframes ", c! "m"] [.rule [c! "from, 50%"] [.attr (c! "top") [c! "0"]]] ]

/-- Non-vacuity, with the declarations spelled out. -/
example : CleanClass (c! "x-1") ∧ WholeSheet browserSheet ∧
    browserReads (Sheet.toStyleStr browserSheet (some (c! "x-1"))) = some
      [ ⟨[c! ".x-1"], c! "content", c! "\"};{'\\\"\""⟩,
        ⟨[c! ".x-1"], c! "quotes", c! "'{\"' '\\''"⟩,
        ⟨[c! ".x-1[title=\"a{b\"], .x-1 a:not([x=';']), .x-1 *"], c! "background", c! "url(data:x;base64,AA) a/b"⟩,
        ⟨[c! "@media (min-width: 1px)", c! ".x-1[title=\"a{b\"], .x-1 a:not([x=';']), .x-1 *"], c! "top",
          c! "calc(1px * (2 / 3))"⟩,
        ⟨[c! "@keyframes m", c! "from, 50%"], c! "top", c! "0"⟩ ] := by
  have h : WholeSheet browserSheet := by decide +kernel
  refine ⟨by decide, h, ?_⟩
  rw [C68_browser_reads _ _ (by simp; decide) h]
  decide +kernel

/-- The texts have to be whole. The parser accepts a quote or a bracket that is not closed;
in the browser the declarations that follow are swallowed or the rest of the sheet is lost. -/
theorem C68_limit_open :
    parse (c! "content: '; color: red;") =
      some [.block [] [.attr (c! "content") [c! "'"], .attr (c! "color") [c! "red"]]] ∧
    (parse (c! "content: '; color: red;")).bind (fun s => browserReads (s.toStyleStr (some (c! "k")))) = none ∧
    parse (c! "width: calc(1px; color: red;") =
      some [.block [] [.attr (c! "width") [c! "calc(1px"], .attr (c! "color") [c! "red"]]] ∧
    (parse (c! "width: calc(1px; color: red;")).bind (fun s => browserReads (s.toStyleStr (some (c! "k")))) = none := by
  refine ⟨by decide +kernel, ?_, by decide +kernel, ?_⟩ <;>
  · rw [← Option.isNone_iff_eq_none]; decide +kernel

/-! ## C69: from the css to the page -/

namespace Manager

/-- A class that is a CSS identifier without white space. -/
theorem cleanClass_of_ident {id : Str} (h : cssIdent id = true) (hw : ∀ c ∈ id, Str.isWhitespace c = false) :
    CleanClass id := by
  refine ⟨by rintro rfl; simp [cssIdent] at h, fun c hc => ⟨?_, hw c hc⟩⟩
  have := cssIdent_mem h c hc
  simp only [cssChar, cssStart, Char.isAlpha, Char.isUpper, Char.isLower, Char.isDigit, Bool.or_eq_true, beq_iff_eq,
    decide_eq_true_eq, Bool.and_eq_true] at this
  simp only [isIdentChar, isLetter, Bool.or_eq_true, Bool.and_eq_true, decide_eq_true_eq, beq_iff_eq, Char.le_def]
  rcases this with (((h | h) | h) | h) | h
  · exact Or.inl (Or.inl (Or.inl (Or.inl h.symm)))
  · exact Or.inl (Or.inr h)
  · exact Or.inr h
  · exact Or.inl (Or.inl (Or.inl (Or.inr h)))
  · exact Or.inl (Or.inl (Or.inr h))

/-- The text of a style as it is generated for its kind. -/
theorem text_of_created {c : Content} (ht : TextOk c) (ho : c.origin = .created) {kind : Kind} {pref : Str}
    {ast : Sheet} (hk : c.key = kind.key pref ast) :
    c.text = ast.toStyleStr (if kind.forPage then none else some c.id) := by
  rw [TextOk, hk, ho] at ht
  rw [ht]
  cases kind <;> simp [Kind.key, Kind.forPage]

/-- A style from any source is on the page with the text of its sheet. -/
theorem source_on_page (env : Env) (hw : env.wasm = true) (d : Dom) (ops ops' : List Op) (s s1 s2 : St)
    (hs : s = run env ops (St.init d)) (hload : ∀ mh data, Op.load mh data ∉ ops) (mh h i n : Nat) (kind : Kind)
    (src : Source) (sh : Sheet) (hsrc : src.sheet? = some sh) (fault : Bool) (m : Mgr)
    (hi : s.mgrOf mh = some i) (hm : s.mgrs[i]? = some m) (hlog : m.log = none) (hcont : m.container = some n)
    (ha : Attached d n) (h1 : step env (.create mh kind src fault) s = (s1, .style h))
    (h2 : s2 = run env ops' s1) (hid : ∀ c ∈ s2.heap, cssIdent c.id = true) (hn : (s2.heap.map Content.id).Nodup)
    (cls : Str) (hc : s2.className h = some cls) (hws : ∀ c ∈ cls, Str.isWhitespace c = false)
    (hb : withId cls d.inDoc = []) :
    withId cls s2.dom.inDoc = [.style cls (sh.toStyleStr (if kind.forPage then none else some cls))] ∧
      ∀ x ∈ (if kind.forPage then none else some cls), CleanClass x := by
  have hinv : Inv s := hs ▸ inv_run env ops (Inv.init d)
  have hs1 : s1 = (step env (.create mh kind src fault) s).1 := by rw [h1]
  have hinv1 : Inv s1 := hs1 ▸ inv_step env _ hinv
  obtain ⟨p, c, a1, a2, a3, a4, a5⟩ := create_created env d ops s s1 hs hload mh h i kind _ fault m sh hi hm hsrc h1
  have hrun : s2 = run env (ops ++ .create mh kind src fault :: ops') (St.init d) := by
    rw [run_append, ← hs, run, h1, h2]
  have hc2 : s2.heap[p]? = some c := by rw [h2]; exact heap_get_run env ops' hinv1 a2
  have hh : s2.contentOf h = some p := by
    rcases contentOf_run env ops' hinv1 (contentOf_lt a1) with h3 | ⟨-, h3⟩
    · rw [h2, h3, a1]
    · rw [← h2] at h3
      simp [St.className, h3] at hc
  have hcid : c.id = cls := by
    simpa [St.className, hh, hc2] using hc
  obtain ⟨m2, b1, -, b2, -, b3⟩ := mgr_run env (.create mh kind src fault :: ops') hinv hm
  have e0 : run env (.create mh kind src fault :: ops') s = s2 := by rw [run, h1, h2]
  rw [e0] at b1
  have hmt : Mounts s2 c n := ⟨a3, m2, by rw [a4]; exact b1, by rw [b3, hlog], by rw [b2, hcont]⟩
  subst hcid
  have := ((C22_element_iff_alive env hw d _ s2 hrun hid hn p n c hc2 hmt ha hb).1 (Or.inl (contentOf_mem hh))).1
  have htx := text_run env (ops ++ .create mh kind src fault :: ops') (Inv.init d) (by simp [St.init]) c
    (by rw [← hrun]; exact List.mem_of_getElem? hc2)
  refine ⟨?_, ?_⟩
  · rw [this, Content.element, text_of_created htx a3 (kind := kind) (pref := m.pref) (ast := sh) (by rw [a5]; cases kind <;> rfl)]
  · intro x hx
    split at hx
    · cases hx
    · cases hx
      exact cleanClass_of_ident (hid c (List.mem_of_getElem? hc2)) hws

/-- **C69.** In a browser, in any history, a style is made from a css text in any layout
(`Layout css sh`) whose texts are whole, by a manager without static writer whose container
is in the page; nothing was loaded before. Then anything happens. As long as the `Style` or
`GlobalStyle` is held, the page has exactly one element for its class, and a browser reads
that element as exactly the declarations written in the css, in order, each under its
at-rules and its selector for this class (or for the page, if the style is global). (As in
C22: ids are css identifiers and unique, and no other code uses this one.) -/
theorem C69_css_on_page (env : Env) (hw : env.wasm = true) (d : Dom) (ops ops' : List Op) (s s1 s2 : St)
    (hs : s = run env ops (St.init d)) (hload : ∀ mh data, Op.load mh data ∉ ops) (mh h i n : Nat) (kind : Kind)
    (css : Str) (sh : Sheet) (hcss : Layout css sh) (hwhole : WholeSheet sh) (fault : Bool) (m : Mgr)
    (hi : s.mgrOf mh = some i) (hm : s.mgrs[i]? = some m) (hlog : m.log = none) (hcont : m.container = some n)
    (ha : Attached d n) (h1 : step env (.create mh kind (.text css) fault) s = (s1, .style h))
    (h2 : s2 = run env ops' s1) (hid : ∀ c ∈ s2.heap, cssIdent c.id = true) (hn : (s2.heap.map Content.id).Nodup)
    (cls : Str) (hc : s2.className h = some cls) (hws : ∀ c ∈ cls, Str.isWhitespace c = false)
    (hb : withId cls d.inDoc = []) :
    ∃ text, withId cls s2.dom.inDoc = [.style cls text] ∧
      browserReads text = some (decls (if kind.forPage then none else some cls) sh) := by
  obtain ⟨g1, g2⟩ := source_on_page env hw d ops ops' s s1 s2 hs hload mh h i n kind (.text css) sh (C59_layout_partial css sh hcss) fault m
    hi hm hlog hcont ha h1 h2 hid hn cls hc hws hb
  exact ⟨_, g1, C68_browser_reads sh _ g2 hwhole⟩

set_option maxRecDepth 16000 in
/-- Non-vacuity: the long layout of C59, in a browser, with another style before and after. -/
example : ∃ s s1 s2, s = run demoEnv (demoOps.take 3) (St.init demoPage) ∧
    step demoEnv (.create 1 .scoped (.text layoutLong) false) s = (s1, .style 1) ∧
    s2 = run demoEnv [.drop 0, .create 0 .global (.sheet demoRed) false] s1 ∧
    (∀ mh data, Op.load mh data ∉ demoOps.take 3) ∧ s.mgrOf 1 = some 1 ∧
    ((s.mgrs[1]?).map Mgr.log = some none) ∧ ((s.mgrs[1]?).map Mgr.container = some (some 1)) ∧
    Attached demoPage 1 ∧ (∀ c ∈ s2.heap, cssIdent c.id = true) ∧ (s2.heap.map Content.id).Nodup ∧
    s2.className 1 = some (c! "app-style-1") ∧ withId (c! "app-style-1") demoPage.inDoc = [] ∧
    Layout layoutLong layoutSheet ∧ WholeSheet layoutSheet ∧
    decls (some (c! "app-style-1")) layoutSheet =
      [ ⟨[c! ".app-style-1"], c! "color", c! "red"⟩,
        ⟨[c! ".app-style-1 .a, .app-style-1:hover"], c! "top", c! "0"⟩,
        ⟨[c! "@media print", c! ".app-style-1 .a, .app-style-1:hover"], c! "left", c! "1"⟩,
        ⟨[c! "@keyframes m", c! "from, 50%"], c! "top", c! "0"⟩ ] := by
  refine ⟨_, (step demoEnv (.create 1 .scoped (.text layoutLong) false) (run demoEnv (demoOps.take 3) (St.init demoPage))).1,
    _, rfl, Prod.ext rfl ?_, rfl, ?_, ?_, ?_, ?_, ⟨⟨true, []⟩, rfl, rfl⟩, ?_, ?_, ?_, ?_, layoutLong_ok, ?_, ?_⟩
  · decide +kernel
  · intro mh data
    simp [demoOps]
  all_goals decide +kernel

/-- The markup of a server has the text of the sheet of a style from any source. -/
theorem source_server (env : Env) (d : Dom) (ops ops' : List Op) (s s1 s2 : St)
    (hs : s = run env ops (St.init d)) (hload : ∀ mh data, Op.load mh data ∉ ops) (mh mh' h i l : Nat) (kind : Kind)
    (src : Source) (sh : Sheet) (hsrc : src.sheet? = some sh) (fault : Bool) (m : Mgr)
    (hi : s.mgrOf mh = some i) (hm : s.mgrs[i]? = some m) (hlog : m.log = some l)
    (h1 : step env (.create mh kind src fault) s = (s1, .style h)) (cls : Str) (hc : s1.className h = some cls)
    (h2 : s2 = run env ops' s1) (hid : ∀ c ∈ s2.heap, cssIdent c.id = true) (hn : (s2.heap.map Content.id).Nodup)
    (hws : ∀ c ∈ cls, Str.isWhitespace c = false) (hi2 : s2.mgrOf mh' = some i) (data : List Entry)
    (hd : (step env (.styleData mh') s2).2 = .data data)
    (esc : Str → Str) (hesc : ∀ t, Html.endTags (esc t) = 0) (hesc' : ∀ t, Html.endTags t = 0 → esc t = t)
    (hend : Html.endTags (sh.toStyleStr (if kind.forPage then none else some cls)) = 0) :
    ∃ els, Html.readStyles data.length (writeStaticMarkup esc data) = some els ∧
      els.filter (fun e => e.1 = cls) = [(cls, sh.toStyleStr (if kind.forPage then none else some cls))] ∧
      ∀ x ∈ (if kind.forPage then none else some cls), CleanClass x := by
  have hinv : Inv s := hs ▸ inv_run env ops (Inv.init d)
  have hs1 : s1 = (step env (.create mh kind src fault) s).1 := by rw [h1]
  have hinv1 : Inv s1 := hs1 ▸ inv_step env _ hinv
  obtain ⟨p, c, a1, a2, a3, a4, a5⟩ := create_created env d ops s s1 hs hload mh h i kind _ fault m sh hi hm hsrc h1
  have hrun : s2 = run env (ops ++ .create mh kind src fault :: ops') (St.init d) := by
    rw [run_append, ← hs, run, h1, h2]
  have hc2 : s2.heap[p]? = some c := by rw [h2]; exact heap_get_run env ops' hinv1 a2
  have hcid : c.id = cls := by simpa [St.className, a1, a2] using hc
  obtain ⟨m2, b1, -, b2, -, b3⟩ := mgr_run env (.create mh kind src fault :: ops') hinv hm
  have e0 : run env (.create mh kind src fault :: ops') s = s2 := by rw [run, h1, h2]
  rw [e0] at b1
  have hpage := C32_server_page env d _ s2 hrun esc hesc mh' i l m2 data hi2 b1 (by rw [b3, hlog]) hid hd
  have htx := text_run env (ops ++ .create mh kind src fault :: ops') (Inv.init d) (by simp [St.init]) c
    (by rw [← hrun]; exact List.mem_of_getElem? hc2)
  have htext := text_of_created htx a3 (kind := kind) (pref := m.pref) (ast := sh) (by rw [a5]; cases kind <;> rfl)
  subst hcid
  refine ⟨_, hpage, ?_, ?_⟩
  · have hmem : c ∈ createdBy i s2.heap :=
      List.mem_filter.2 ⟨List.mem_of_getElem? hc2, by simp [a3, a4]⟩
    have hsub : (createdBy i s2.heap).Sublist s2.heap := List.filter_sublist
    have hnod : ((createdBy i s2.heap).map Content.id).Nodup := (hsub.map Content.id).nodup hn
    have : ∀ L : List Content, c ∈ L → (L.map Content.id).Nodup →
        (L.map (fun c => (c.id, esc c.text))).filter (fun e => e.1 = c.id) = [(c.id, esc c.text)] := by
      intro L
      induction L with
      | nil => intro hc; cases hc
      | cons x L ih =>
        intro hcL hnd
        rw [List.map_cons, List.nodup_cons] at hnd
        by_cases hx : x.id = c.id
        · have hnone : c ∉ L := fun hcL' => hnd.1 (by rw [hx]; exact List.mem_map_of_mem hcL')
          have hxc : x = c := by
            rcases List.mem_cons.1 hcL with e | e
            · exact e.symm
            · exact absurd e hnone
          subst hxc
          rw [List.map_cons, List.filter_cons_of_pos (by simp)]
          congr 1
          rw [List.filter_eq_nil_iff]
          intro e he heq
          obtain ⟨y, hy, rfl⟩ := List.mem_map.1 he
          simp only [decide_eq_true_eq] at heq
          exact hnd.1 (by rw [← heq]; exact List.mem_map_of_mem hy)
        · rw [List.map_cons, List.filter_cons_of_neg (by simpa using hx)]
          refine ih ?_ hnd.2
          rcases List.mem_cons.1 hcL with e | e
          · rw [e] at hx; exact absurd rfl hx
          · exact e
    rw [this _ hmem hnod, hesc' c.text (by rw [htext]; exact hend), htext]
  · intro x hx
    split at hx
    · cases hx
    · cases hx
      exact cleanClass_of_ident (hid c (List.mem_of_getElem? hc2)) hws

/-- **C69** for a server: a static manager makes a style from a css text in any layout; then
anything happens; then its style data is written into a page. A browser finds exactly one
element with the class of the style in the markup and reads it as the declarations of the
css. The escaper leaves no `</style` in a text and does not change texts without one. -/
theorem C69_server (env : Env) (d : Dom) (ops ops' : List Op) (s s1 s2 : St)
    (hs : s = run env ops (St.init d)) (hload : ∀ mh data, Op.load mh data ∉ ops) (mh mh' h i l : Nat) (kind : Kind)
    (css : Str) (sh : Sheet) (hcss : Layout css sh) (hwhole : WholeSheet sh) (fault : Bool) (m : Mgr)
    (hi : s.mgrOf mh = some i) (hm : s.mgrs[i]? = some m) (hlog : m.log = some l)
    (h1 : step env (.create mh kind (.text css) fault) s = (s1, .style h)) (cls : Str) (hc : s1.className h = some cls)
    (h2 : s2 = run env ops' s1) (hid : ∀ c ∈ s2.heap, cssIdent c.id = true) (hn : (s2.heap.map Content.id).Nodup)
    (hws : ∀ c ∈ cls, Str.isWhitespace c = false) (hi2 : s2.mgrOf mh' = some i) (data : List Entry)
    (hd : (step env (.styleData mh') s2).2 = .data data)
    (esc : Str → Str) (hesc : ∀ t, Html.endTags (esc t) = 0) (hesc' : ∀ t, Html.endTags t = 0 → esc t = t)
    (hend : Html.endTags (sh.toStyleStr (if kind.forPage then none else some cls)) = 0) :
    ∃ els text, Html.readStyles data.length (writeStaticMarkup esc data) = some els ∧
      els.filter (fun e => e.1 = cls) = [(cls, text)] ∧
      browserReads text = some (decls (if kind.forPage then none else some cls) sh) := by
  obtain ⟨els, g1, g2, g3⟩ := source_server env d ops ops' s s1 s2 hs hload mh mh' h i l kind (.text css) sh (C59_layout_partial css sh hcss)
    fault m hi hm hlog h1 cls hc h2 hid hn hws hi2 data hd esc hesc hesc' hend
  exact ⟨els, _, g1, g2, C68_browser_reads sh _ g3 hwhole⟩

set_option maxRecDepth 16000 in
/-- Non-vacuity: the server of C31 makes another style from the long layout, global, then
one more style; the page has four elements. -/
example : ∃ s s1 s2, s = run serverEnv serverOps (St.init []) ∧
    step serverEnv (.create 0 .global (.text layoutLong) false) s = (s1, .style 4) ∧
    s2 = run serverEnv [.drop 4, .create 0 (.withPrefix (c! "b")) (.sheet demoRed) false] s1 ∧
    (∀ mh data, Op.load mh data ∉ serverOps) ∧ s.mgrOf 0 = some 0 ∧ ((s.mgrs[0]?).map Mgr.log = some (some 0)) ∧
    s1.className 4 = some (c! "stylist-global-style-3") ∧ (∀ c ∈ s2.heap, cssIdent c.id = true) ∧
    (s2.heap.map Content.id).Nodup ∧ s2.mgrOf 0 = some 0 ∧
    (∃ data, (step serverEnv (.styleData 0) s2).2 = .data data ∧ data.length = 5) ∧
    Layout layoutLong layoutSheet ∧ WholeSheet layoutSheet ∧ Html.endTags (Sheet.toStyleStr layoutSheet none) = 0 := by
  refine ⟨_, (step serverEnv (.create 0 .global (.text layoutLong) false) (run serverEnv serverOps (St.init []))).1,
    _, rfl, Prod.ext rfl ?_, rfl, ?_, ?_, ?_, ?_, ?_, ?_, ?_, ?_, layoutLong_ok, ?_, ?_⟩
  · decide +kernel
  · intro mh data
    simp [serverOps]
  · decide +kernel
  · decide +kernel
  · decide +kernel
  · decide +kernel
  · decide +kernel
  · decide +kernel
  · exact ⟨_, rfl, by decide +kernel⟩
  · decide +kernel
  · decide +kernel

/-- There is such an escaper: one that drops texts with an end tag. -/
example : ∃ esc : Str → Str, (∀ t, Html.endTags (esc t) = 0) ∧ ∀ t, Html.endTags t = 0 → esc t = t :=
  ⟨fun t => if Html.endTags t = 0 then t else [], fun t => by dsimp only; split <;> simp_all [Html.endTags],
    fun t ht => by simp [ht]⟩

end Manager

namespace Context
open Manager

/-- The class of a style from any source is on the page, with the text of its sheet. -/
theorem source_component (env : Env) (hwasm : env.wasm = true) (o : Bool) (d : Dom) (es es' : List Event) (a a1 a2 : App)
    (h : events env o es (App.init d) = some a) (w w' : Place) (src : Source) (sh : Sheet)
    (hsrc : src.sheet? = some sh) (fault : Bool) (cls : Str)
    (h1 : Gives env a w src fault a1 cls) (h2 : events env o es' a1 = some a2) (i n : Nat)
    (hw : ManagerAt a1 (given env o es (App.init d) []) w i)
    (hw' : ManagerAt a2 (given env o es' a1 (given env o es (App.init d) [])) w' i)
    (m : Mgr) (hm : a2.st.mgrs[i]? = some m) (hlog : m.log = none) (hcont : m.container = some n) (ha : Attached d n)
    (hun : AlongEvents env o (fun a ev => ¬ Unregs i (Kind.scoped.key m.pref sh) a ev) es' a1)
    (hload : ∀ c ∈ a2.st.heap, c.origin = .created)
    (hid : ∀ c ∈ a2.st.heap, cssIdent c.id = true) (hn : (a2.st.heap.map Content.id).Nodup)
    (hws : ∀ c ∈ cls, Str.isWhitespace c = false) (hb : withId cls d.inDoc = []) :
    withId cls a2.st.dom.inDoc = [.style cls (sh.toStyleStr (some cls))] ∧ ∀ x ∈ some cls, CleanClass x := by
  obtain ⟨c, b1, b2, b3, b4, b5⟩ := C65_stays_styled env hwasm o d es es' a a1 a2 h w w' src fault cls h1 h2 i hw hw'
    m hm sh hsrc hun hid hn
  subst b2
  have := b5 n ⟨hload c b1, m, by rw [b4]; exact hm, hlog, hcont⟩ ha hb
  have hreach : ∃ all, a2.st = run env all (St.init d) := by
    obtain ⟨hok, -, -, ops, hops, -⟩ := events_ok es (AppOk.init d) h
    obtain ⟨hk, t, u, mh, st, i', rest, c1, -, c3, -, c5, -, -⟩ := gives_ops hok h1
    obtain ⟨-, -, -, ops2, hops2, -⟩ := events_ok es' hk.ok h2
    refine ⟨ops ++ (c1.choose ++ (.create mh .scoped src fault :: (rest ++ ops2))), ?_⟩
    rw [run_append, show St.init d = (App.init d).st from rfl, ← hops, run_append, ← c1.choose_spec.1, run, c3,
      run_append, ← c5, hops2]
  obtain ⟨all, hall⟩ := hreach
  have htx := text_run env all (Inv.init d) (by simp [St.init]) c (by rw [← hall]; exact b1)
  refine ⟨by rw [this, Content.element, text_of_created htx (hload c b1) b3]; rfl, ?_⟩
  intro x hx
  cases hx
  exact cleanClass_of_ident (hid c b1) hws

/-- **C69** in components: the class that `css!` or `use_style` gives. As long as its manager
is that of some place and the style is not unregistered, nothing being hydrated, the page has
exactly one element for the class, and a browser reads it as the declarations written in the
css, each under its at-rules and its selector for this class. -/
theorem C69_component (env : Env) (hwasm : env.wasm = true) (o : Bool) (d : Dom) (es es' : List Event) (a a1 a2 : App)
    (h : events env o es (App.init d) = some a) (w w' : Place) (css : Str) (sh : Sheet) (hcss : Layout css sh)
    (hwhole : WholeSheet sh) (fault : Bool) (cls : Str)
    (h1 : Gives env a w (.text css) fault a1 cls) (h2 : events env o es' a1 = some a2) (i n : Nat)
    (hw : ManagerAt a1 (given env o es (App.init d) []) w i)
    (hw' : ManagerAt a2 (given env o es' a1 (given env o es (App.init d) [])) w' i)
    (m : Mgr) (hm : a2.st.mgrs[i]? = some m) (hlog : m.log = none) (hcont : m.container = some n) (ha : Attached d n)
    (hun : AlongEvents env o (fun a ev => ¬ Unregs i (Kind.scoped.key m.pref sh) a ev) es' a1)
    (hload : ∀ c ∈ a2.st.heap, c.origin = .created)
    (hid : ∀ c ∈ a2.st.heap, cssIdent c.id = true) (hn : (a2.st.heap.map Content.id).Nodup)
    (hws : ∀ c ∈ cls, Str.isWhitespace c = false) (hb : withId cls d.inDoc = []) :
    ∃ text, withId cls a2.st.dom.inDoc = [.style cls text] ∧
      browserReads text = some (decls (some cls) sh) := by
  obtain ⟨g1, g2⟩ := source_component env hwasm o d es es' a a1 a2 h w w' (.text css) sh (C59_layout_partial css sh hcss) fault cls h1 h2 i n
    hw hw' m hm hlog hcont ha hun hload hid hn hws hb
  exact ⟨_, g1, C68_browser_reads sh _ g2 hwhole⟩

set_option maxRecDepth 16000 in
/-- Non-vacuity: the client of C65 with the long layout of C59; other styles are made later. -/
example : ∃ a a1 a2, events demoEnv false demoClient (App.init demoPage) = some a ∧
    Gives demoEnv a (.below 0) (.text layoutLong) false a1 (c! "one-style-0") ∧
    events demoEnv false [ .classes (.below 0) (.text (c! "color: blue;")) false,
      .classes .outside (.text (c! "color: red;")) false ] a1 = some a2 ∧
    given demoEnv false demoClient (App.init demoPage) [] = [some 0] ∧
    given demoEnv false [ .classes (.below 0) (.text (c! "color: blue;")) false,
      .classes .outside (.text (c! "color: red;")) false ] a1 [some 0] = [some 0] ∧
    (a2.st.mgrs[0]?).map Mgr.log = some none ∧ (a2.st.mgrs[0]?).map Mgr.container = some (some 0) ∧
    Attached demoPage 0 ∧ (∀ c ∈ a2.st.heap, c.origin = .created) ∧
    (∀ c ∈ a2.st.heap, cssIdent c.id = true) ∧ (a2.st.heap.map Content.id).Nodup ∧
    withId (c! "one-style-0") demoPage.inDoc = [] := by
  let a := (events demoEnv false demoClient (App.init demoPage)).getD (App.init [])
  let a1 := ((classes demoEnv a (.below 0) (.text layoutLong) false).getD (App.init [], [])).1
  let a2 := (events demoEnv false [ .classes (.below 0) (.text (c! "color: blue;")) false,
      .classes .outside (.text (c! "color: red;")) false ] a1).getD (App.init [])
  refine ⟨a, a1, a2, ?_, Or.inr ?_, ?_, ?_, ?_, ?_, ?_, ⟨_, rfl, rfl⟩, ?_, ?_, ?_, ?_⟩ <;> decide +kernel

/-- Non-vacuity, the rest: neither event unregisters anything. -/
example (i : Nat) (k : Key) (a : App) : AlongEvents demoEnv false (fun a ev => ¬ Unregs i k a ev)
    [ .classes (.below 0) (.text (c! "color: blue;")) false, .classes .outside (.text (c! "color: red;")) false ] a := by
  simp only [AlongEvents, Unregs]
  grind

end Context
