import Verif.Proofs.FirstUses
import Verif.Props.WholePage

/-!
# Applications that only make styles

C101.
-/

namespace Manager

open Spec

/-! ## C101: the order of the first uses determines everything -/

theorem usesInv_init (env : Env) (d : Dom) (ops : List Op)
    (hs : Along env (Smooth env) ops (St.init d)) :
    UsesInv env (run env ops (St.init d)) (firstUses env ops (St.init d) []) :=
  UsesInv.run ops (Inv.init d) (UsesInv.init env d) hs

theorem classNo_chars {env : Env} {n : Nat} {u : Nat × Key} (he : ∀ x ∈ env.entropy n, Str.isWhitespace x = false)
    (h : ∀ x ∈ u.2.pref, Str.isWhitespace x = false) : ∀ x ∈ classNo env n u, Str.isWhitespace x = false := by
  intro x hx
  simp only [classNo, makeId] at hx
  split at hx <;> simp only [List.mem_append] at hx <;> rcases hx with (hx | hx) | hx
  · exact h x hx
  · revert x; decide
  · exact he x hx
  · exact h x hx
  · revert x; decide
  · exact he x hx

/-- **C101**, the page. A browser, ids that differ (`FreshIds`), no static writers,
prefixes that are css identifiers, all containers in the document and a page without style
elements before. Any history in which styles are made, cloned and dropped, but neither
unregistered nor loaded, every request for valid css is fulfilled and all managers are in use
at the end. Then the style elements of every container are those of the styles asked for
under its managers, each once, in the order of the first requests; the class is the prefix
with the value of `get_entropy` for the number of earlier first requests in the process. If the css is whole and the
prefixes have no white space, a browser reads exactly the declarations of these styles, in
this order. -/
theorem C101_page (env : Env) (hw : env.wasm = true) (d : Dom)
    (ops : List Op) (s : St) (hs : s = run env ops (St.init d)) (hsm : Along env (Smooth env) ops (St.init d))
    (uses : List (Nat × Key)) (huses : uses = firstUses env ops (St.init d) []) (hids : FreshIds env uses.length)
    (hal : ∀ j < s.mgrs.length, some j ∈ s.mgrHandles) (hpref : ∀ u ∈ uses, cssIdent u.2.pref = true)
    (hmgr : ∀ m ∈ s.mgrs, m.log = none ∧ ∃ i, m.container = some i ∧ Attached d i)
    (hd : ∀ x ∈ d.inDoc, x.isStyle = false) (i : Nat) (ha : Attached d i) :
    let here := uses.zipIdx.filter fun x => usesContainer s i x.1
    (s.dom.childrenOf i).filter Child.isStyle = here.map (fun x => .style (classNo env x.2 x.1) (textNo env x.2 x.1)) ∧
    ((∀ x ∈ here, WholeSheet x.1.2.ast ∧ ∀ ch ∈ x.1.2.pref, Str.isWhitespace ch = false) →
      pageReads (s.dom.childrenOf i) =
        some (here.flatMap fun x => decls (if x.1.2.isGlobal then none else some (classNo env x.2 x.1)) x.1.2.ast)) := by
  have hinv : Inv s := hs ▸ inv_run env ops (Inv.init d)
  have hu : UsesInv env s uses := by subst hs huses; exact usesInv_init env d ops hsm
  have hmem : ∀ c ∈ s.heap, ∃ n, ∃ u ∈ uses, c = madeNo env n u := by
    intro c hc
    rw [hu.heap] at hc
    obtain ⟨p, hp⟩ := List.getElem?_of_mem hc
    rw [allMade_get, Option.map_eq_some_iff] at hp
    obtain ⟨u, h1, h2⟩ := hp
    exact ⟨p, u, List.mem_of_getElem? h1, h2.symm⟩
  have hlive := hu.living hinv hal (fun m hm => (hmgr m hm).1) i
  obtain ⟨h1, h2⟩ := C89_application env hw d ops s hs (hu.ctr ▸ hids)
    (fun c hc => by obtain ⟨n, u, -, rfl⟩ := hmem c hc; rfl)
    (fun c hc => by obtain ⟨n, u, h, rfl⟩ := hmem c hc; exact hpref u h) hmgr hd i ha
  rw [hlive] at h1 h2
  refine ⟨by rw [h1, List.map_map]; rfl, fun hwh => ?_⟩
  rw [h2, List.flatMap_map]
  · rfl
  · intro c hc
    obtain ⟨x, hx, rfl⟩ := List.mem_map.1 hc
    refine ⟨(hwh x hx).1, classNo_chars (hids.notWhite ?_) (hwh x hx).2⟩
    have := List.snd_lt_of_mem_zipIdx (List.mem_filter.1 hx).1
    simpa using this

/-- **C101**, the classes. In such a history, on any target and with any manager, a request
that is fulfilled returns the class with the place of its style in the list of first
requests, so it depends on nothing else. -/
theorem C101_class (env : Env) (d : Dom) (ops : List Op) (s s' : St)
    (hs : s = run env ops (St.init d)) (mh : Nat) (kind : Kind) (src : Source) (fault : Bool)
    (hsm : Along env (Smooth env) (ops ++ [.create mh kind src fault]) (St.init d)) (h : Nat)
    (hc : step env (.create mh kind src fault) s = (s', .style h)) :
    ∃ u n, asks s (.create mh kind src fault) = some u ∧
      (firstUses env (ops ++ [.create mh kind src fault]) (St.init d) [])[n]? = some u ∧
      s'.className h = some (classNo env n u) ∧ s'.styleText h = some (textNo env n u) := by
  have hinv : Inv s := hs ▸ inv_run env ops (Inv.init d)
  have hu := usesInv_init env d _ hsm
  rw [run_append, ← hs, run, run, hc] at hu
  simp only at hu
  cases hm : s.mgrOf mh with
  | none => simp [step, create, hm] at hc
  | some i =>
    obtain ⟨m, hg⟩ := mgrOf_get hinv hm
    cases ha : src.sheet? with
    | none => simp [step, create, hm, hg, ha] at hc
    | some ast =>
      obtain ⟨p, c, m', a1, a2, -, -, -, a6, a7⟩ := create_style hinv hm hg ha (h := h) (by rw [hc])
      rw [hc] at a1 a2
      simp only at a1 a2
      have a2' := a2
      rw [hu.heap, allMade_get, Option.map_eq_some_iff] at a2'
      obtain ⟨u, h1, rfl⟩ := a2'
      have : u = (i, kind.key m.pref ast) := by
        cases u; simp only [madeNo] at a6 a7; rw [a6, a7]
      refine ⟨u, p, by simp [asks, hm, ha, hg, this], h1, ?_, ?_⟩
      · simp [St.className, a1, a2, madeNo]
      · simp [St.styleText, a1, a2, madeNo]

/-- **C101**, the server. In such a history the style data of a manager with a static writer
are the entries of the styles asked for under it, in the order of the first requests. -/
theorem C101_server (env : Env) (d : Dom) (ops : List Op) (s : St)
    (hs : s = run env ops (St.init d)) (hsm : Along env (Smooth env) ops (St.init d))
    (uses : List (Nat × Key)) (huses : uses = firstUses env ops (St.init d) [])
    (i l : Nat) (m : Mgr) (hm : s.mgrs[i]? = some m) (hlog : m.log = some l) :
    let data := (uses.zipIdx.filter fun x => x.1.1 = i).map fun x =>
      { key := x.1.2, id := classNo env x.2 x.1, text := textNo env x.2 x.1 : Entry }
    (∀ mh, s.mgrOf mh = some i → (step env (.styleData mh) s).2 = .data data) ∧
    (∀ log, s.logs[l]? = some log → log.readerTaken = false → (step env (.readData l) s).2 = .data data) := by
  have hu : UsesInv env s uses := by subst hs huses; exact usesInv_init env d ops hsm
  have key : (createdBy i s.heap).map Content.entry = (uses.zipIdx.filter fun x => x.1.1 = i).map fun x =>
      { key := x.1.2, id := classNo env x.2 x.1, text := textNo env x.2 x.1 : Entry } := by
    rw [hu.heap, createdBy, allMade, List.filter_map, List.map_map]
    have : (fun x : (Nat × Key) × Nat => decide (x.1.1 = i)) =
        ((fun c : Content => decide (c.mgr = i ∧ c.origin = .created)) ∘ fun x => madeNo env x.2 x.1) := by
      funext x; simp [madeNo]
    rw [← this]
    rfl
  obtain ⟨h1, h2⟩ := C31_read env d ops s hs i l m hm hlog
  rw [key] at h1 h2
  exact ⟨fun mh h => by rw [h1 mh h], h2⟩

/-- A history for the example: two managers, one of them for another container; `color: red;`
is asked for twice, cloned and dropped. -/
def useOps : List Op :=
  [ .newMgr (c! "stylist") none true none, .newMgr (c! "app") (some 1) true none,
    .create 0 .scoped (.text (c! "color: red;")) false, .create 1 .scoped (.text (c! "color: red;")) false,
    .create 0 .scoped (.text (c! "color: red")) false, .create 0 .global (.text (c! "top: 0;")) false, .clone 0, .drop 0,
    .create 0 .scoped (.text (c! "color: {")) false, .create 0 .scoped (.text (c! "color: red;")) false ]

set_option maxRecDepth 16000 in
/-- Non-vacuity, with the first uses and the page spelled out. -/
example : let s := run demoEnv useOps (St.init demoPage)
    demoEnv.wasm = true ∧ FreshIds demoEnv (firstUses demoEnv useOps (St.init demoPage) []).length ∧ Along demoEnv (Smooth demoEnv) useOps (St.init demoPage) ∧
    (firstUses demoEnv useOps (St.init demoPage) []).map (fun u => (u.1, u.2.isGlobal)) = [(0, false), (1, false), (0, true)] ∧
    (∀ j < s.mgrs.length, some j ∈ s.mgrHandles) ∧
    (∀ u ∈ firstUses demoEnv useOps (St.init demoPage) [], cssIdent u.2.pref = true ∧ WholeSheet u.2.ast ∧
      ∀ ch ∈ u.2.pref, Str.isWhitespace ch = false) ∧
    (∀ m ∈ s.mgrs, m.log = none ∧ (m.container = some 0 ∨ m.container = some 1)) ∧
    Attached demoPage 0 ∧ Attached demoPage 1 ∧ (∀ x ∈ demoPage.inDoc, x.isStyle = false) ∧
    pageReads (s.dom.childrenOf 0) = some
      [⟨[c! ".stylist-style-0"], c! "color", c! "red"⟩, ⟨[c! ":root"], c! "top", c! "0"⟩] ∧
    pageReads (s.dom.childrenOf 1) = some [⟨[c! ".app-style-1"], c! "color", c! "red"⟩] := by
  refine ⟨rfl, freshIds_counter rfl (by decide +kernel), ?_, by decide +kernel, by decide +kernel, by decide +kernel, by decide +kernel, ⟨_, rfl, rfl⟩, ⟨_, rfl, rfl⟩,
    by decide +kernel, by decide +kernel, by decide +kernel⟩
  refine along_of_bool _ _ ?_
  decide +kernel

/-- A history for a server: two managers with static writers. -/
def serveOps : List Op :=
  [ .renderStatic, .renderStatic, .newMgr (c! "stylist") none true (some 0), .newMgr (c! "app") none true (some 1),
    .create 0 .scoped (.text (c! "color: red;")) false, .create 1 .scoped (.text (c! "color: blue;")) false,
    .create 0 .scoped (.text (c! "top: 0;")) false, .create 0 .scoped (.text (c! "color: red;")) false ]

set_option maxRecDepth 16000 in
/-- Non-vacuity for a server: the classes that the two managers hand out. -/
example : let env : Env := { demoEnv with wasm := false }
    let s := run env serveOps (St.init [])
    Along env (Smooth env) serveOps (St.init []) ∧ (s.mgrs[0]?).map (fun m => m.log) = some (some 0) ∧ s.mgrOf 0 = some 0 ∧
    ((firstUses env serveOps (St.init []) []).zipIdx.filter (fun x => x.1.1 = 0)).map (fun x => classNo env x.2 x.1) =
      [c! "stylist-style-0", c! "stylist-style-2"] ∧
    s.className 3 = some (c! "stylist-style-0") := by
  refine ⟨along_of_bool _ _ ?_, by decide +kernel, by decide +kernel, by decide +kernel, by decide +kernel⟩
  decide +kernel

/-- Unregistering ends the correspondence: a style that is asked for again afterwards gets
another class and another element. -/
theorem C101_limit_unregister :
    let ops : List Op := [.newMgr (c! "stylist") none true none, .create 0 .scoped (.text (c! "color: red;")) false,
      .unregister 0, .create 0 .scoped (.text (c! "color: red;")) false]
    let s := run demoEnv ops (St.init demoPage)
    (firstUses demoEnv ops (St.init demoPage) []).length = 1 ∧
    s.className 0 = some (c! "stylist-style-0") ∧ s.className 1 = some (c! "stylist-style-1") ∧
    ((s.dom.childrenOf 0).filter Child.isStyle).length = 2 := by
  decide +kernel

/-- So does a request that fails: it has used up a number. -/
theorem C101_limit_fail :
    let ops : List Op := [.newMgr (c! "stylist") none true none, .create 0 .scoped (.text (c! "top: 0;")) true,
      .create 0 .scoped (.text (c! "color: red;")) false]
    let s := run demoEnv ops (St.init demoPage)
    s.className 0 = some (c! "stylist-style-1") := by
  decide +kernel

end Manager
