import Verif.Proofs.Classes
import Verif.Props.Select

/-! # C97: an element is styled by exactly the styles that it is given -/

namespace Classes

open Spec Manager Select

/-- The class name of style `p` is a word of the class that a handle reads exactly if it is a
handle of `p`. -/
theorem handle_word (env : Env) (d : Dom) (ops : List Op) {s : St} (hs : s = run env ops (St.init d))
    (hid : ∀ c ∈ s.heap, cssIdent c.id = true ∧ NoSpace c.id) (hn : (s.heap.map Content.id).Nodup) {n h p : Nat}
    {c : Content} (hc : s.heap[p]? = some c) :
    WordOf Str.isWhitespace (((run env (ops.take n) (St.init d)).className h).getD []) c.id ↔
      (run env (ops.take n) (St.init d)).contentOf h = some p := by
  have hrun : s = run env (ops.drop n) (run env (ops.take n) (St.init d)) := by
    rw [← run_append, List.take_append_drop]; exact hs
  have hinv := inv_run env (ops.take n) (Inv.init d)
  cases hq : (run env (ops.take n) (St.init d)).contentOf h with
  | none => simp [St.className, hq, ClassesP.wordOf_nil]
  | some q =>
    cases hcq : (run env (ops.take n) (St.init d)).heap[q]? with
    | none =>
      simp only [St.className, hq, hcq, Option.bind_some, Option.map_none, Option.getD_none, ClassesP.wordOf_nil, false_iff]
      intro e
      cases e
      have hmem : some p ∈ (run env (ops.take n) (St.init d)).handles := by
        simp only [St.contentOf, Option.join_eq_some_iff] at hq
        exact List.mem_of_getElem? hq
      exact absurd (hinv.handle p hmem) (by simpa using hcq)
    | some c' =>
      have h1 : s.heap[q]? = some c' := by rw [hrun]; exact heap_get_run env _ hinv hcq
      have h2 := hid c' (List.mem_of_getElem? h1)
      have h3 : c'.id ≠ [] := by intro e; rw [e] at h2; exact absurd h2.1 (by decide)
      simp only [St.className, hq, hcq, Option.bind_some, Option.map_some, Option.getD_some]
      rw [ClassesP.wordOf_single h3 h2.2]
      constructor
      · intro e
        have h4 : (s.heap.map Content.id)[p]? = some c.id := by simp [hc]
        have h5 : (s.heap.map Content.id)[q]? = some c.id := by simp [h1, e]
        have := (List.getElem?_inj (by simpa using (List.getElem?_eq_some_iff.1 hc).1) hn).1 (h4.trans h5.symm)
        rw [this]
      · intro e
        cases e
        rw [hc] at h1; cases h1; rfl

/-- **C97.** In any reachable state with distinct ids that are css identifiers: an element has
the class of a style exactly if it was given the style, by any handle of it at any earlier time
and also if the handle is long gone, or if the user has written that word. This holds in builds
with and without locations in the attribute. -/
theorem C97_given (env : Env) (d : Dom) (ops : List Op) (s : St) (hs : s = run env ops (St.init d))
    (hid : ∀ c ∈ s.heap, cssIdent c.id = true ∧ NoSpace c.id) (hn : (s.heap.map Content.id).Nodup)
    (p : Nat) (c : Content) (hc : s.heap[p]? = some c) (debug : Bool) (pieces : List Piece)
    (hloc : ∀ n h loc, Piece.source n h loc ∈ pieces → NoSpace loc.file) :
    HasClass (classAttr debug (pieces.map (Piece.item env d ops))) c.id ↔
      (∃ x ∈ pieces, x.content env d ops = some p) ∨ ∃ t, Piece.text t ∈ pieces ∧ WordOf Str.isWhitespace t c.id := by
  have hcid := (hid c (List.mem_of_getElem? hc)).1
  rw [ClassesP.hasClass_attribute]
  constructor
  · rintro ⟨x', hx', hm⟩
    obtain ⟨x, hx, rfl⟩ := List.mem_map.1 hx'
    rw [ClassesP.mem_item] at hm
    cases x with
    | style n h => exact Or.inl ⟨_, hx, (handle_word env d ops hs hid hn hc).1 hm⟩
    | source n h loc =>
      rcases hm with hm | ⟨-, hm⟩
      · exact Or.inl ⟨_, hx, (handle_word env d ops hs hid hn hc).1 hm⟩
      · exact absurd hm (ClassesP.location_not_ident (hloc n h loc hx) hcid)
    | text t => exact Or.inr ⟨t, hx, hm⟩
  · rintro (⟨x, hx, hm⟩ | ⟨t, hx, hm⟩)
    · refine ⟨_, List.mem_map_of_mem hx, ?_⟩
      rw [ClassesP.mem_item]
      cases x with
      | style n h => exact (handle_word env d ops hs hid hn hc).2 hm
      | source n h loc => exact Or.inl ((handle_word env d ops hs hid hn hc).2 hm)
      | text t => cases hm
    · exact ⟨_, List.mem_map_of_mem hx, by rw [ClassesP.mem_item]; exact hm⟩

/-- **C97**, builds: a css class that can be written without escapes is in the attribute of a
build with locations exactly if it is in that of a build without. -/
theorem C97_debug_and_release (items : List Item) (hloc : ∀ cls loc, Item.source cls loc ∈ items → NoSpace loc.file)
    (x : Str) (hx : cssIdent x = true) : HasClass (classAttr true items) x ↔ HasClass (classAttr false items) x := by
  rw [ClassesP.hasClass_attribute, ClassesP.hasClass_attribute]
  refine ⟨fun ⟨i, hi, h⟩ => ⟨i, hi, ?_⟩, fun ⟨i, hi, h⟩ => ⟨i, hi, ?_⟩⟩ <;> rw [ClassesP.mem_item] at h ⊢
  · cases i with
    | style cls => exact h
    | text t => exact h
    | source cls loc => exact h.elim Or.inl (fun h => absurd h.2 (ClassesP.location_not_ident (hloc cls loc hi) hx))
  · cases i with
    | style cls => exact h
    | text t => exact h
    | source cls loc => exact h.elim Or.inl (fun h => absurd h.1 (by decide))

/-- Where a source was written. -/
def demoLoc : Location := { file := c! "src/main.rs", line := 12, column := 5 }

/-- Non-vacuity of `C97_given`: an element with the first style of the demo (twice), the second
as a source, and a word of the user. -/
example : (∀ c ∈ demoState.heap, cssIdent c.id = true ∧ NoSpace c.id) ∧ (demoState.heap.map Content.id).Nodup ∧
    NoSpace demoLoc.file ∧
    (demoState.heap[1]?).map Content.id = some (c! "app-style-1") ∧
    ([.style 3 0, .source 4 1 demoLoc, .text (c! "box  wide"), .style 6 3] : List Piece).map (Piece.content demoEnv demoPage demoOps) =
      [some 0, some 1, none, some 0] ∧
    classAttr true (([.style 3 0, .source 4 1 demoLoc, .text (c! "box  wide"), .style 6 3] : List Piece).map
      (Piece.item demoEnv demoPage demoOps)) = c! "stylist-style-0 app-style-1 src/main.rs:12:5 box wide" := by
  decide +kernel

/-- Non-vacuity of `C97_debug_and_release`. -/
example : (∀ cls loc, Item.source cls loc ∈ [Item.source (c! "a-style-0") demoLoc, .text (c! "b")] → NoSpace loc.file) ∧
    classAttr true [.source (c! "a-style-0") demoLoc, .text (c! "b")] = c! "a-style-0 src/main.rs:12:5 b" ∧
    classAttr false [.source (c! "a-style-0") demoLoc, .text (c! "b")] = c! "a-style-0 b" := by
  refine ⟨?_, by decide, by decide⟩
  intro cls loc h
  simp at h
  rw [h.2]; decide

/-- The limits of C97. With a space in the prefix, the class falls apart: the element does not
have it, and the selector of the style asks for an element named `app-style-0` below one with
the class `my`. With a space in the path of the source file, a build with locations gives the
element a class that a build without does not, here that of another style. -/
theorem C97_limit_space :
    ((run demoEnv [.newMgr (c! "my app") none true none, .create 0 .scoped (.sheet demoRed) false] (St.init demoPage)).className 0 =
        some (c! "my app-style-0") ∧
      classAttr false [.style (c! "my app-style-0")] = c! "my app-style-0" ∧
      ¬ HasClass (classAttr false [.style (c! "my app-style-0")]) (c! "my app-style-0") ∧
      readSelector (c! ".my app-style-0") = some [.simple (c! ".my"), .comb .below, .simple (c! "app-style-0")]) ∧
    (HasClass (classAttr true [.source (c! "app-style-1") { file := c! "app-style-0 x.rs", line := 1, column := 1 }]) (c! "app-style-0") ∧
      ¬ HasClass (classAttr false [.source (c! "app-style-1") { file := c! "app-style-0 x.rs", line := 1, column := 1 }])
        (c! "app-style-0")) := by
  refine ⟨⟨by decide +kernel, by decide, ?_, by decide +kernel⟩, ?_, ?_⟩
  · rintro ⟨-, h, -⟩
    exact absurd (h ' ' (by decide)) (by decide)
  · rw [ClassesP.hasClass_attribute]
    exact ⟨_, List.mem_singleton.2 rfl, by decide⟩
  · rw [ClassesP.hasClass_attribute]
    rintro ⟨i, hi, h⟩
    rw [List.mem_singleton] at hi
    subst hi
    exact absurd h (by decide)

end Classes

namespace Manager

open Spec Classes Select

variable {El : Type}

/-- **C97** on the page: a style is made from css as in C69, and elements are given styles, by
handles, by sources and as text. As long as the style is held, the page has one element for its
class, and a browser applies what stands there

* without selector, perhaps inside at-rules (but `@keyframes`), to exactly the elements that
  were given the style,
* under selectors that stay inside, to elements only that were given the style or are below one
  that was. -/
theorem C97_on_page (env : Env) (hw : env.wasm = true) (d : Dom) (ops ops' : List Op) (s s1 s2 : St)
    (hs : s = run env ops (St.init d)) (hload : ∀ mh data, Op.load mh data ∉ ops) (mh h i n : Nat) (kind : Kind)
    (hkind : kind.forPage = false)
    (css : Str) (sh : Sheet) (hcss : Layout css sh) (hwhole : WholeSheet sh)
    (hsel : SelectorsOf (fun x => PlainSelector x ∧ staysInside x = true) sh) (fault : Bool) (m : Mgr)
    (hi : s.mgrOf mh = some i) (hm : s.mgrs[i]? = some m) (hlog : m.log = none) (hcont : m.container = some n)
    (ha : Attached d n) (h1 : step env (.create mh kind (.text css) fault) s = (s1, .style h))
    (h2 : s2 = run env ops' s1) (hid : ∀ c ∈ s2.heap, cssIdent c.id = true ∧ NoSpace c.id)
    (hn : (s2.heap.map Content.id).Nodup) (p : Nat) (hp : s2.contentOf h = some p)
    (cls : Str) (hc : s2.className h = some cls) (hb : withId cls d.inDoc = [])
    (all : List Op) (hall : all = ops ++ .create mh kind (.text css) fault :: ops')
    (debug : Bool) (pieces : El → List Classes.Piece)
    (hloc : ∀ e n h loc, Classes.Piece.source n h loc ∈ pieces e → NoSpace loc.file)
    (htext : ∀ e t, Classes.Piece.text t ∈ pieces e → ¬ WordOf Str.isWhitespace t cls)
    (D : Doc El) (hD : ReadsClasses D (fun e => classAttr debug ((pieces e).map (Classes.Piece.item env d all)))) :
    ∃ text ds, withId cls s2.dom.inDoc = [.style cls text] ∧ browserReads text = some ds ∧ ds = decls (some cls) sh ∧
      (∀ x ∈ ds, ∀ rules, x.path = rules ++ ['.' :: cls] → (∀ r ∈ rules, ¬ c! "keyframes" <:+: r) →
        ∀ e, D.Applies x e ↔ ∃ y ∈ pieces e, y.content env d all = some p) ∧
      ∀ x ∈ ds, ∀ e, D.Applies x e → ∃ a, (e = a ∨ D.Below a e) ∧ ∃ y ∈ pieces a, y.content env d all = some p := by
  cases hcp : s2.heap[p]? with
  | none => simp [St.className, hp, hcp] at hc
  | some c =>
    simp only [St.className, hp, hcp, Option.bind_some, Option.map_some, Option.some.injEq] at hc
    subst hc
    have hcc := hid c (List.mem_of_getElem? hcp)
    have hrun : s2 = run env all (St.init d) := by
      rw [hall, run_append, ← hs, run, h1, h2]
    obtain ⟨text, ds, g1, g2, g3, g4⟩ := C71_on_page env hw d ops ops' s s1 s2 hs hload mh h i n kind hkind css sh hcss
      hwhole hsel fault m hi hm hlog hcont ha h1 h2 (fun c hc => (hid c hc).1) hn c.id
      (by simp [St.className, hp, hcp]) hcc.2 hb
    have hgiven : ∀ e, D.meets e ('.' :: c.id) ↔ ∃ y ∈ pieces e, y.content env d all = some p := by
      intro e
      rw [hD e c.id hcc.1, C97_given env d all s2 hrun hid hn p c hcp debug (pieces e) (hloc e)]
      exact ⟨fun h => h.elim id (fun ⟨t, ht, hw⟩ => absurd hw (htext e t ht)), Or.inl⟩
    refine ⟨text, ds, g1, g2, g3, ?_, ?_⟩
    · intro x _ rules hpath hk e
      rw [← hgiven e, applies_iff (cleanClass_of_ident hcc.1 hcc.2) (sels := []) (by simp) hk (by simpa [printedSelectors] using hpath) D e]
      simp
    · intro x hx e hap
      obtain ⟨a, ha1, ha2⟩ := g4 El D e x hx hap
      exact ⟨a, ha2, (hgiven a).1 ha1⟩

/-- A document of which the class attributes are known. -/
def attrDoc (attr : Nat → Str) : Doc Nat where
  parent := fun _ => none
  previous := fun _ => none
  meets := fun e x => ∃ y, x = '.' :: y ∧ HasClass (attr e) y

set_option maxRecDepth 16000 in
/-- Non-vacuity, beside that of C69: the history there, and elements that are given the style
as a handle or as a source, another style, and nothing. -/
example :
    (∀ attr, ReadsClasses (attrDoc attr) attr) ∧
    ∃ all, all = demoOps.take 3 ++ .create 1 .scoped (.text layoutLong) false :: [.drop 0, .create 0 .global (.sheet demoRed) false] ∧
      (run demoEnv all (St.init demoPage)).contentOf 1 = some 1 ∧
      (∀ c ∈ (run demoEnv all (St.init demoPage)).heap, cssIdent c.id = true ∧ NoSpace c.id) ∧
      ([[.style 4 1], [.style 4 0, .source 5 1 demoLoc], [.style 4 0], [.text (c! "box")]] : List (List Classes.Piece)).map
        (List.map (Classes.Piece.content demoEnv demoPage all)) = [[some 1], [some 0, some 1], [some 0], [none]] ∧
      ([[.style 4 1], [.style 4 0, .source 5 1 demoLoc], [.style 4 0], [.text (c! "box")]] : List (List Classes.Piece)).map
        (fun l => classAttr true (l.map (Classes.Piece.item demoEnv demoPage all))) =
        [c! "app-style-1", c! "stylist-style-0 app-style-1 src/main.rs:12:5", c! "stylist-style-0", c! "box"] := by
  refine ⟨fun attr e x _ => ⟨?_, fun h => ⟨x, rfl, h⟩⟩, _, rfl, ?_⟩
  · rintro ⟨y, h1, h2⟩
    cases h1
    exact h2
  · decide +kernel

end Manager
