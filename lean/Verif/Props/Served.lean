import Verif.Proofs.Served
import Verif.Props.Requests
import Verif.Props.Compact
import Verif.Props.Hydrated

/-!
# Pages that a server with threads sends and a browser hydrates

C119, and C92 for a server with threads.
-/

namespace Locks

open Manager
open Storage (TEntry)
open Spec

/-- The last call of a history of threads, as a call of one thread. -/
theorem last_call' {env : Env} {d : Dom} {x : Sys} (h : J env d x) {b : List Done} {e : Done} (hb : x.done = b ++ [e]) :
    ∃ (π : Nat → Nat) (k : Nat), (∀ a b, π a = π b → a = b) ∧ (∀ a < k, π a < x.st.ctr) ∧ Manager.step (env.reordered π) e.op (Manager.run (env.reordered π) (b.map Done.op) (St.init d)) =
      ({ x.st with ctr := k }, e.out) := by
  obtain ⟨sched, calls, hs⟩ := h.sim
  obtain ⟨π, hinj, houts, k, -, hrun, hlt, -⟩ := C67_sequential env d sched (abs x calls) hs.symm
  refine ⟨π, k, hinj, hlt, ?_⟩
  have hd : (abs x calls).done = b ++ [e] := hb
  rw [hd, List.map_append] at hrun houts
  rw [Manager.run_append] at hrun
  rw [outs_append, List.map_append] at houts
  have hlen : ∀ (ops : List Op) (s : St), (outs (env.reordered π) ops s).length = ops.length := by
    intro ops
    induction ops with
    | nil => intro s; rfl
    | cons o ops ih => intro s; simp [outs, ih]
  have h2 := (List.append_inj houts (by rw [hlen]; simp)).2
  simp only [List.map_cons, List.map_nil, outs, List.cons.injEq, and_true] at h2
  simp only [List.map_cons, List.map_nil, Manager.run] at hrun
  exact Prod.ext hrun h2

theorem last_call {env : Env} {d : Dom} {x : Sys} (h : J env d x) {b : List Done} {e : Done} (hb : x.done = b ++ [e]) :
    ∃ (π : Nat → Nat) (k : Nat), Manager.step (env.reordered π) e.op (Manager.run (env.reordered π) (b.map Done.op) (St.init d)) =
      ({ x.st with ctr := k }, e.out) := by
  obtain ⟨π, k, -, -, h⟩ := last_call' h hb
  exact ⟨π, k, h⟩

/-- **C119**, what is sent. Whatever the schedule of whatever other threads: in the state `x` a thread
`t` gets a style from its manager that writes to the style data `l`, with the class `id` and the text
`text`; `t` neither unregisters styles nor loads data. If the data are read in any later state `y`, in
any thread, then the class, with this css and this text, is in them. -/
theorem C119_sent (env : Env) (d : Dom) (sched sched' : List (Nat × Op)) (x y : Sys)
    (hx : x = (Sys.init d).run env sched) (hy : y = x.run env sched')
    (b : List Done) (t mh h : Nat) (kind : Kind) (src : Source) (ast : Sheet) (fault : Bool)
    (hb : x.done = b ++ [⟨t, .create mh kind src fault, .style h⟩]) (hsrc : src.sheet? = some ast)
    (id text : Str) (hid : x.st.className h = some id) (htext : x.st.styleText h = some text)
    (l : Nat) (a : Asked) (ha : (b.filter (fun e => e.t = t)).foldl (heard l) none = some a) (hmh : mh ∈ a.values)
    (hplain : ∀ e ∈ y.done, e.t = t → e.Plain) (u : Nat) (es : List Entry)
    (hread : (y.step env (u, .readData l)).done = y.done ++ [⟨u, .readData l, .data es⟩]) :
    { key := kind.key a.pref ast, id, text : Entry } ∈ es := by
  have hJ : J env d x := hx ▸ (J.init env d).run sched
  have hJy : J env d y := hy ▸ hJ.run sched'
  have hkept : Kept x y := hy ▸ hJ.kept_run sched'
  have hJy' := hJy.step (u, .readData l)
  have hkept' := hkept.trans (hJy.kept (u, .readData l))
  generalize hy' : y.step env (u, .readData l) = y' at hread hJy' hkept'
  -- The manager
  obtain ⟨ts, calls, hs⟩ := hJ.sim
  obtain ⟨hr, hm⟩ := all_run (env := env) ts (TInv.init env d) (all_init d).1 (all_init d).2
  rw [hs] at hr hm
  change RightAll x.st x.owner x.done at hr
  change MadeBy x.st x.owner x.done at hm
  rcases foldl_heard_made _ ha with h0 | ⟨f, hf, hfm⟩
  · exact absurd rfl h0
  obtain ⟨hfb, hft⟩ := List.mem_filter.1 hf
  simp only [decide_eq_true_eq] at hft
  obtain ⟨i, m, h1, h2, h3⟩ := hm f (by rw [hb]; exact List.mem_append_left _ hfb) l hfm
  rw [hft] at h3
  obtain ⟨a', h4, h5⟩ := hr i m l h1 h2 (fun e he ht => hplain e (hkept.done.subset he) (ht.trans h3))
  rw [h3, hb, List.filter_append, List.foldl_append, ha] at h4
  have h6 : a'.values = a.values ∧ a'.pref = a.pref := by
    simp only [decide_true, List.filter_cons_of_pos, List.filter_nil, List.foldl_cons, List.foldl_nil, heard,
      Option.map_some, hsrc, Option.some.injEq] at h4
    split at h4 <;> subst h4 <;> exact ⟨rfl, rfl⟩
  -- The style
  obtain ⟨π, k, hstep⟩ := last_call hJ hb
  simp only at hstep
  have hinv : Inv (Manager.run (env.reordered π) (b.map Done.op) (St.init d)) := inv_run _ _ (Inv.init d)
  generalize Manager.run (env.reordered π) (b.map Done.op) (St.init d) = sb at hstep hinv
  have hmhs : x.st.mgrHandles = sb.mgrHandles := by
    have := Context.create_mgrHandles (env := env.reordered π) hinv (mh := mh) (kind := kind) (src := src) (fault := fault)
    rw [hstep] at this
    exact this
  cases hj : sb.mgrOf mh with
  | none => simp [Manager.step, create, hj] at hstep
  | some j =>
    have hji : j = i := by
      have hxj : x.st.mgrOf mh = some j := by simp only [St.mgrOf, hmhs]; exact hj
      exact (h5.iff hxj).1 (by rw [h6.1]; exact hmh)
    subst hji
    obtain ⟨m0, hg⟩ := mgrOf_get hinv hj
    obtain ⟨p, c, m', c1, c2, c3, c4, -, c5, c6⟩ := create_style hinv hj hg hsrc (h := h) (by rw [hstep])
    rw [hstep] at c1 c2 c3
    simp only at c2 c3
    have c1 : x.st.contentOf h = some p := c1
    rw [h1] at c3
    cases c3
    have hpref : m0.pref = a.pref := by
      obtain ⟨m1, g1, -, g2, -⟩ := h5.mgr
      rw [h1] at g1
      cases g1
      rw [← h6.2, ← g2]
      exact c4.1.symm
    have hcid : c.id = id := by simpa [St.className, c1, c2] using hid
    have hctx : c.text = text := by simpa [St.styleText, c1, c2] using htext
    have hor := h5.made c (List.mem_of_getElem? c2) c6
    -- The data
    obtain ⟨π', k', hstep'⟩ := last_call hJy' hread
    generalize hsyd : Manager.run (env.reordered π') (y.done.map Done.op) (St.init d) = sy at hstep'
    obtain ⟨m2, h7, h8⟩ := hkept'.mgrs j m h1
    have hsame : y'.st.heap = sy.heap ∧ y'.st.mgrs = sy.mgrs ∧ ∃ log, sy.logs[l]? = some log ∧ log.readerTaken = false := by
      simp only [Manager.step] at hstep'
      cases hl : sy.logs[l]? with
      | none => rw [hl] at hstep'; simp at hstep'
      | some log =>
        rw [hl] at hstep'
        simp only at hstep'
        cases ht : log.readerTaken with
        | true => rw [ht] at hstep'; simp at hstep'
        | false =>
          rw [ht] at hstep'
          simp only [Bool.false_eq_true, if_false, Prod.mk.injEq] at hstep'
          have h9 := congrArg St.heap hstep'.1
          have h10 := congrArg St.mgrs hstep'.1
          exact ⟨h9.symm, h10.symm, log, rfl, ht⟩
    obtain ⟨e1, e2, log, e3, e4⟩ := hsame
    have hdata := (C31_read (env.reordered π') d _ sy hsyd.symm j l m2 (by rw [← e2]; exact h7) (h8.trans h2)).2 log e3 e4
    rw [hstep'] at hdata
    simp only [Out.data.injEq] at hdata
    rw [hdata, ← e1]
    have hcy : c ∈ createdBy j y'.st.heap := by
      refine List.mem_filter.2 ⟨hkept'.heap.subset (List.mem_of_getElem? c2), by simp [c6, hor]⟩
    refine List.mem_map.2 ⟨c, hcy, ?_⟩
    simp [Content.entry, c5, hcid, hctx, hpref]

/-- The state in which thread 1 gets its style; thread 2 is inside of the creation of the same css. -/
def gotten : List (Nat × Op) := startBoth ++ more 2 2 ++ more 1 3 ++ more 2 4 ++ more 1 13

/-- Non-vacuity: thread 1 gets its style, then thread 2 goes on, and thread 3 reads. -/
example : let x := (Sys.init []).run checkedServer gotten
    let y := x.run checkedServer (more 2 10)
    (x.done.getLast?).map (fun e => (e.t, e.op, e.out)) =
      some (1, .create 0 .scoped (.text (c! "color:red;")) false, .style 0) ∧
    x.st.className 0 = some (c! "a-style-0") ∧ x.st.styleText 0 = some (c! ".a-style-0 {\n    color: red;\n}\n") ∧
    ((x.done.dropLast.filter (fun e => e.t = 1)).foldl (heard 0) none).map (fun a => (a.pref, a.values)) = some (c! "a", [0]) ∧
    (y.done.length = 6 ∧ x.done.length = 5) ∧
    ((y.step checkedServer (3, .readData 0)).done.getLast?).map (fun e => (e.t, e.op, e.out)) =
      some (3, .readData 0, .data [⟨⟨false, c! "a", demoRed⟩, c! "a-style-0", c! ".a-style-0 {\n    color: red;\n}\n"⟩]) := by
  decide +kernel

theorem zipWith_keys (env : Env) : ∀ (keys : List Key) (ns : List Nat), ns.length = keys.length →
    (List.zipWith (entryNo env) keys ns).map Entry.key = keys
  | [], _, _ => by simp
  | _ :: _, [], h => by simp at h
  | k :: keys, n :: ns, h => by
    simp only [List.length_cons, Nat.add_right_cancel_iff] at h
    simp [zipWith_keys env keys ns h, entryNo]

/-- The read data have every style once, and the texts are those of the css. -/
theorem read_once {env : Env} {d : Dom} {y : Sys} {sched : List (Nat × Op)} (hy : y = (Sys.init d).run env sched) {t u l : Nat}
    {es : List Entry} (hread : (y.step env (u, .readData l)).done = y.done ++ [⟨u, .readData l, .data es⟩])
    (hmade : ∃ e ∈ y.done, e.t = t ∧ e.MakesFor l) (hplain : ∀ e ∈ y.done, e.t = t → e.Plain) :
    (es.map Entry.key).Nodup ∧ ∀ e ∈ es, e.text = e.key.ast.toStyleStr (if e.key.isGlobal then none else some e.id) := by
  have hrun : y.step env (u, .readData l) = (Sys.init d).run env (sched ++ [(u, .readData l)]) := by
    have happ : ∀ (a : List (Nat × Op)) (z : Sys), z.run env (a ++ [(u, .readData l)]) = (z.run env a).step env (u, .readData l) := by
      intro a
      induction a with
      | nil => intro z; rfl
      | cons c a ih => intro z; exact ih _
    rw [happ, hy]
  obtain ⟨ns, h1, -, -, h2⟩ := C117_page env d _ _ hrun y.done [] _ hread l es rfl rfl t hmade hplain
  constructor
  · rw [h2, zipWith_keys env _ ns h1]
    exact keysAsked_nodup _ _
  · intro e he
    rw [h2] at he
    obtain ⟨p, hp⟩ := List.getElem?_of_mem he
    rw [List.getElem?_zipWith] at hp
    split at hp
    · cases hp; rfl
    · cases hp

/-- **C119**, the page. A browser that reads the markup written from these data finds a style element
for the class, with the escaped text of the style. -/
theorem C119_page (env : Env) (d : Dom) (sched sched' : List (Nat × Op)) (x y : Sys)
    (hx : x = (Sys.init d).run env sched) (hy : y = x.run env sched')
    (b : List Done) (t mh h : Nat) (kind : Kind) (src : Source) (ast : Sheet) (fault : Bool)
    (hb : x.done = b ++ [⟨t, .create mh kind src fault, .style h⟩]) (hsrc : src.sheet? = some ast)
    (id text : Str) (hid : x.st.className h = some id) (htext : x.st.styleText h = some text)
    (l : Nat) (a : Asked) (ha : (b.filter (fun e => e.t = t)).foldl (heard l) none = some a) (hmh : mh ∈ a.values)
    (hplain : ∀ e ∈ y.done, e.t = t → e.Plain) (u : Nat) (es : List Entry)
    (hread : (y.step env (u, .readData l)).done = y.done ++ [⟨u, .readData l, .data es⟩])
    (esc : Str → Str) (hesc : ∀ s, Html.endTags (esc s) = 0) (hq : ∀ e ∈ es, '"' ∉ e.id) :
    (id, esc text) ∈ Html.readCut es.length (writeStaticMarkup esc es) := by
  have := C119_sent env d sched sched' x y hx hy b t mh h kind src ast fault hb hsrc id text hid htext l a ha hmh hplain u es hread
  rw [C115_whole_page esc es hesc hq]
  exact List.mem_map.2 ⟨_, this, rfl⟩

/-- **C119**, the browser. The data are sent in the compact format and loaded there by a manager
without styles, on any page and after anything else. Then they are read, loading does not panic and
leaves the page alone, and after anything except unregistering the style, asking for the same style
(kind, prefix and css) gives the class that the thread of the server got and leaves the page alone.
The style has the text it had on the server, if it is not global (for global ones see C34). -/
theorem C119_hydration (env : Env) (d : Dom) (sched sched' : List (Nat × Op)) (x y : Sys)
    (hx : x = (Sys.init d).run env sched) (hy : y = x.run env sched')
    (b : List Done) (t mh h : Nat) (kind : Kind) (src : Source) (ast : Sheet) (fault : Bool)
    (hb : x.done = b ++ [⟨t, .create mh kind src fault, .style h⟩]) (hsrc : src.sheet? = some ast)
    (id text : Str) (hid : x.st.className h = some id) (htext : x.st.styleText h = some text)
    (l : Nat) (a : Asked) (ha : (b.filter (fun e => e.t = t)).foldl (heard l) none = some a) (hmh : mh ∈ a.values)
    (hplain : ∀ e ∈ y.done, e.t = t → e.Plain) (u : Nat) (es : List Entry)
    (hread : (y.step env (u, .readData l)).done = y.done ++ [⟨u, .readData l, .data es⟩])
    -- Transport.
    (stored : List TEntry) (hst : stored.map TEntry.erase = es) (limit : Nat) (hl : limit ≤ 2 ^ 64)
    (hfit : (Compact.write stored).length < limit) (rest : Compact.Bytes)
    -- The browser.
    (cenv : Env) (cd : Dom) (cops : List Op) (s : St) (hs : s = run cenv cops (St.init cd)) (ch j : Nat) (m : Mgr)
    (hj : s.mgrOf ch = some j) (hm : s.mgrs[j]? = some m) (hempty : m.reg = []) :
    ∃ received s1, Compact.read limit (Compact.write stored ++ rest) = some received ∧
      step cenv (.load ch (received.map TEntry.erase)) s = (s1, .unit) ∧ s1.dom = s.dom ∧
      ∀ (cops' : List Op) (s2 : St), s2 = run cenv cops' s1 →
        Along cenv (fun s op => ¬ Unregisters op s j (kind.key a.pref ast)) cops' s1 →
        ∀ (ch' : Nat) (m' : Mgr) (kind' : Kind) (src' : Source) (ast' : Sheet) (fault' : Bool), s2.mgrOf ch' = some j →
          s2.mgrs[j]? = some m' → src'.sheet? = some ast' → kind'.key m'.pref ast' = kind.key a.pref ast →
          ∃ s3 h', step cenv (.create ch' kind' src' fault') s2 = (s3, .style h') ∧ s3.className h' = some id ∧
            s3.dom = s2.dom ∧ (kind ≠ .global → s3.styleText h' = some text) := by
  have hsent := C119_sent env d sched sched' x y hx hy b t mh h kind src ast fault hb hsrc id text hid htext l a ha hmh hplain u es
    hread
  have hJ : J env d x := hx ▸ (J.init env d).run sched
  have hkept : Kept x y := hy ▸ hJ.kept_run sched'
  have hyr : y = (Sys.init d).run env (sched ++ sched') := by
    have happ : ∀ (p q : List (Nat × Op)) (z : Sys), z.run env (p ++ q) = (z.run env p).run env q := by
      intro p q
      induction p with
      | nil => intro z; rfl
      | cons c p ih => intro z; exact ih _
    rw [happ, ← hx, hy]
  have hmade : ∃ e ∈ y.done, e.t = t ∧ e.MakesFor l := by
    rcases foldl_heard_made _ ha with h0 | ⟨f, hf, hfm⟩
    · exact absurd rfl h0
    obtain ⟨hfb, hft⟩ := List.mem_filter.1 hf
    simp only [decide_eq_true_eq] at hft
    exact ⟨f, hkept.done.subset (by rw [hb]; exact List.mem_append_left _ hfb), hft, hfm⟩
  obtain ⟨hn, htx⟩ := read_once hyr hread hmade hplain
  obtain ⟨⟨received, hrec, her⟩, -⟩ := Compact.C113_roundtrip limit hl stored hfit rest
  rw [hst] at her
  have hload : (step cenv (.load ch (received.map TEntry.erase)) s).2 = .unit := by
    rw [(C35_panics_iff_conflict cenv cd cops s hs ch j hj _).2, her]
    have hk : ∀ k, s.registeredId j k = none := by
      intro k
      rw [registeredId_eq hm, hempty]; rfl
    have key : ∀ (l : List Entry), (l.map Entry.key).Nodup → ∀ e ∈ l, l.find? (fun x => x.key = e.key) = some e := by
      intro l
      induction l with
      | nil => intro _ e he; cases he
      | cons x xs ih =>
        intro hn e he
        simp only [List.map_cons, List.nodup_cons] at hn
        rcases List.mem_cons.1 he with rfl | he
        · simp
        · have : ¬ x.key = e.key := by
            intro h; exact hn.1 (by rw [h]; exact List.mem_map.2 ⟨e, he, rfl⟩)
          simp only [List.find?_cons]
          rw [show decide (x.key = e.key) = false from decide_eq_false this]
          exact ih hn.2 e he
    intro e he
    rw [firstId, hk, key _ ?_ e he]
    · rfl
    · rw [List.map_map]
      exact hn
  generalize hr : step cenv (.load ch (received.map TEntry.erase)) s = r at hload
  obtain ⟨s1, out⟩ := r
  simp only at hload
  subst hload
  obtain ⟨-, hdom, -⟩ := C35_effect cenv cd cops s s1 hs ch j hj _ hr
  refine ⟨received, s1, hrec, hr, hdom, ?_⟩
  intro cops' s2 h2 hun ch' m' kind' src' ast' fault' hj2 hm' hsrc' hkey
  have hmem : (⟨kind.key a.pref ast, id, []⟩ : Entry) ∈ received.map TEntry.erase := by
    rw [her]
    exact List.mem_map.2 ⟨_, hsent, rfl⟩
  obtain ⟨h', e1, e2, e3⟩ := C33_loaded_class cenv cd cops cops' s s1 s2 _ hs ch ch' j hj _ hr _ hmem h2 hun hj2 m' hm' kind' src'
    ast' fault' hsrc' hkey rfl
  generalize hr3 : step cenv (.create ch' kind' src' fault') s2 = r at e1 e2 e3
  obtain ⟨s3, out⟩ := r
  simp only at e1 e2 e3
  subst e1
  refine ⟨s3, h', rfl, e2, e3, fun hk => ?_⟩
  have htt : ∃ text', s3.styleText h' = some text' := by
    simp only [St.className, Option.bind_eq_some_iff, Option.map_eq_some_iff] at e2
    obtain ⟨p, hp, c, hc, -⟩ := e2
    exact ⟨c.text, by simp [St.styleText, hp, hc]⟩
  obtain ⟨text', htt⟩ := htt
  have hrun : s2 = run cenv (cops ++ .load ch (received.map TEntry.erase) :: cops') (St.init cd) := by
    rw [run_append, ← hs, run, hr, h2]
  have hk' : kind' ≠ .global := by
    rintro rfl
    have := congrArg Key.isGlobal hkey
    cases kind with
    | global => exact hk rfl
    | _ => cases this
  have x2 := C37_scoped_text cenv cd _ [] ch' j h' kind' src' fault' ast' s2 s3 s3 m' hrun hj2 hm' hk' hsrc' hr3 rfl id text'
    e2 htt
  have hast : ast' = ast := by
    have := congrArg Key.ast hkey
    cases kind <;> cases kind' <;> exact this
  have htext' := htx _ hsent
  simp only at htext'
  have hg : (kind.key a.pref ast).isGlobal = false ∧ (kind.key a.pref ast).ast = ast := by
    cases kind with
    | global => exact absurd rfl hk
    | _ => exact ⟨rfl, rfl⟩
  rw [hg.1, hg.2] at htext'
  rw [htt, x2, hast, htext']
  rfl

/-- What thread 3 read, as it is stored. -/
def readByThree : TEntry :=
  { key := { isGlobal := false, pref := ⟨.owned, c! "a"⟩
             ast := ⟨.owned, [.block ⟨.owned, []⟩ .owned [.attr ⟨.owned, c! "color"⟩ ⟨.owned, [⟨⟨.owned, c! "red"⟩⟩]⟩]]⟩ }
    id := c! "a-style-0", text := c! ".a-style-0 {\n    color: red;\n}\n" }

set_option maxRecDepth 16000 in
/-- Non-vacuity: these are the data; a browser with 32 bits gets the class with a manager of the same
prefix. -/
example : let s := run demoEnv [.newMgr (c! "a") none true none] (St.init demoPage)
    let s' := run demoEnv [.load 0 [{ readByThree.erase with text := [] }], .create 0 .scoped (.text (c! "top: 0;")) false,
      .create 0 .scoped (.text (c! "color :red;")) false] s
    [readByThree].map TEntry.erase = [⟨⟨false, c! "a", demoRed⟩, c! "a-style-0", c! ".a-style-0 {\n    color: red;\n}\n"⟩] ∧
    (Compact.write [readByThree]).length < 2 ^ 32 ∧ s.mgrOf 0 = some 0 ∧ (s.mgrs[0]?).map Mgr.reg = some [] ∧
    s'.className 1 = some (c! "a-style-0") ∧ s'.styleText 1 = some (c! ".a-style-0 {\n    color: red;\n}\n") := by
  decide +kernel

/-- The hypothesis on the thread is needed: if it unregisters a style and makes it again, the data
have it twice, with two classes, and loading them panics. -/
theorem C119_limit_unregister :
    let red : List (Nat × Op) := (1, .create 0 .scoped (.sheet demoRed) false) :: more 1 4
    let x := (Sys.init []).run serverEnv ([(1, .renderStatic), (1, .newMgr (c! "a") none true (some 0))] ++ red ++
      [(1, .unregister 0)] ++ red ++ [(1, .readData 0)])
    let s := run demoEnv [.newMgr (c! "a") none true none] (St.init demoPage)
    (x.done.getLast?).map (fun e => match e.out with | .data es => (step demoEnv (.load 0 es) s).2 | _ => .invalid) =
      some .panic := by decide +kernel

/-! ## C92 for a server with threads -/

/-- **C92** for a server with threads, the part that holds. Whatever the schedule of whatever threads:
`es` are the data read from the reader `l`, for which a thread has made a manager. The client's page has
the markup of them in container `k`, and otherwise no style elements. The client does what it likes, but
loads style data once, with the keys and classes of `es`. Random strings are alphanumeric and, as far as
they have been used, all different, also across the processes. Then `es` are the entries of styles of
the server, and in every reachable state of the client the style elements of container `k` are those of
`es`, in their order, without those of styles that the client has dropped, and then those of the living
styles that the client created. In other containers there are only the latter. If the sheets are whole
and escaping changes nothing, a browser reads the declarations of these styles, and decides between
them as the styles say. Missing: see `C92_application_partial`. -/
theorem C92_threads_partial {El : Type} (senv : Env) (sd : Dom) (sched : List (Nat × Op)) (y : Sys)
    (hy : y = (Sys.init sd).run senv sched) (b : List Done) (u l : Nat) (es : List Entry)
    (hread : y.done = b ++ [⟨u, .readData l, .data es⟩]) (hmade : ∃ e ∈ b, e.MakesFor l)
    (esc : Str → Str) (hesc : ∀ t, Html.endTags (esc t) = 0)
    (env : Env) (hw : env.wasm = true) (d : Dom) (k : Nat) (hk : Attached d k)
    (hpage : Html.readStyles es.length (writeStaticMarkup esc es) = some ((d.childrenOf k).filterMap Child.pair?))
    (hrest : ∀ j, j ≠ k → ∀ x ∈ d.childrenOf j, x.isStyle = false)
    (pre post : List Op) (ch : Nat) (data : List Entry)
    (hload : ∀ mh data, Op.load mh data ∉ pre ∧ Op.load mh data ∉ post)
    (hdata : data.map (fun e => (e.key, e.id)) = es.map (fun e => (e.key, e.id)))
    (s : St) (hs : s = run env (pre ++ .load ch data :: post) (St.init d))
    (hal : ∀ n, (∀ x ∈ senv.entropy n, x.isAlphanum = true) ∧ ∀ x ∈ env.entropy n, x.isAlphanum = true)
    (hdis : ∀ a b, a < y.st.ctr → b < y.st.ctr → senv.entropy a = senv.entropy b → a = b)
    (hdis' : ∀ a b, a < s.ctr → b < s.ctr → env.entropy a = env.entropy b → a = b)
    (hcross : ∀ a b, a < y.st.ctr → b < s.ctr → senv.entropy a ≠ env.entropy b)
    (hpref : (∀ e ∈ es, cssIdent e.key.pref = true) ∧ ∀ c ∈ s.heap, cssIdent c.key.pref = true) :
    ∃ cs : List Content, cs.map Content.entry = es ∧
    let served := undropped s cs
    ((s.dom.childrenOf k).filter Child.isStyle =
        served.map (fun c => .style c.id (esc c.text)) ++ (living s k).map Content.element) ∧
    (∀ j, j ≠ k → Attached d j → (s.dom.childrenOf j).filter Child.isStyle = (living s j).map Content.element) ∧
    ((∀ c ∈ served, esc c.text = c.text) → (∀ c ∈ served ++ living s k, WholeSheet c.key.ast ∧ CleanClass c.id) →
      pageReads (s.dom.childrenOf k) = some ((served ++ living s k).flatMap Content.decls) ∧
      ((∀ c ∈ served ++ living s k, SelectorsOf (SelectorFor c.cls) c.key.ast) →
        ∀ (S : Setting El) (e : El) (key : Str) (n : Nat),
          S.Wins ((served ++ living s k).flatMap Content.decls) e key n ↔
            S.ShouldWin ((served ++ living s k).flatMap Content.said) e key n)) := by
  have hJ : J senv sd y := hy ▸ (J.init senv sd).run sched
  obtain ⟨ts, calls, hsim⟩ := hJ.sim
  obtain ⟨-, hm⟩ := all_run (env := senv) ts (TInv.init senv sd) (all_init sd).1 (all_init sd).2
  rw [hsim] at hm
  change MadeBy y.st y.owner y.done at hm
  obtain ⟨e, he, hel⟩ := hmade
  obtain ⟨i, m, h1, h2, -⟩ := hm e (by rw [hread]; exact List.mem_append_left _ he) l hel
  obtain ⟨π, k', hinj, hlt, hstep⟩ := last_call' hJ hread
  simp only at hstep
  generalize hserver : Manager.run (senv.reordered π) (b.map Done.op) (St.init sd) = server at hstep
  have hsame : server.mgrs = y.st.mgrs ∧ server.ctr = k' := by
    simp only [Manager.step] at hstep
    cases hl : server.logs[l]? with
    | none => rw [hl] at hstep; simp at hstep
    | some log =>
      rw [hl] at hstep
      simp only at hstep
      cases ht : log.readerTaken with
      | true => rw [ht] at hstep; simp at hstep
      | false =>
        rw [ht] at hstep
        simp only [Bool.false_eq_true, if_false, Prod.mk.injEq] at hstep
        have h9 := congrArg St.mgrs hstep.1
        have h10 := congrArg St.ctr hstep.1
        exact ⟨h9, h10⟩
  rw [← hsame.1] at h1
  rw [← hsame.2] at hlt
  have hdata' : (step (senv.reordered π) (.readData l) server).2 = .data es := by rw [hstep]
  have hes : es = (createdBy i server.heap).map Content.entry :=
    data_read (senv.reordered π) sd _ server hserver.symm i l m h1 h2 es (Or.inr hdata')
  refine ⟨createdBy i server.heap, hes.symm, ?_⟩
  exact C92_application_partial (senv.reordered π) sd _ server hserver.symm i l m h1 h2 es (Or.inr hdata') esc hesc env hw d k
    hk hpage hrest pre post ch data hload hdata s hs (fun n => ⟨(hal (π n)).1, (hal n).2⟩)
    (fun a b ha hb hab => hinj a b (hdis _ _ (hlt a ha) (hlt b hb) hab)) hdis'
    (fun a b ha hb => hcross _ _ (hlt a ha) hb)
    (fun c hc => (List.mem_append.1 hc).elim
      (fun h => hpref.1 c.entry (hes ▸ List.mem_map.2 ⟨c, h, rfl⟩)) (fun h => hpref.2 c h))

/-- A server with threads and random ids. -/
def hydChecked : Env := { checkedServer with entropy := hydServerEnv.entropy }

/-- Threads 1 and 2 create the same css at the same time, then thread 1 creates a global style and
thread 3 reads the data of thread 1. -/
def hydSched : List (Nat × Op) :=
  gotten ++ more 2 10 ++ [(1, .create 0 .global (.sheet demoRed) false)] ++ more 1 10 ++ [(3, .readData 0)]

/-- What it reads. -/
def hydRead : List Entry :=
  [ ⟨⟨false, c! "a", demoRed⟩, c! "a-s", c! ".a-s {\n    color: red;\n}\n"⟩,
    ⟨⟨true, c! "a", demoRed⟩, c! "a-global-sss", c! ":root {\n    color: red;\n}\n"⟩ ]

/-- The page with them. -/
def hydReadPage : Dom := [⟨true, .other 7 :: hydRead.map (fun e => .style e.id (hydEsc e.text))⟩, ⟨true, []⟩]

/-- The client: it drops the style of the server and makes another one. -/
def hydReadPost : List Op :=
  [ .create 0 .scoped (.text (c! "top: 1px;")) false, .create 0 .scoped (.text (c! "color: red;")) false,
    .unregister 1, .drop 1 ]

set_option maxRecDepth 16000 in
/-- Non-vacuity: the hypotheses that depend on the case, and the page spelled out. For the others see
the example of `C92_application_partial`, which has the same random strings. -/
example : let y := (Sys.init []).run hydChecked hydSched
    let s := run hydEnv ([.newMgr (c! "a") none true none] ++ .load 0 hydRead :: hydReadPost) (St.init hydReadPage)
    (y.done.getLast?).map (fun e => (e.t, e.op, e.out)) = some (3, .readData 0, .data hydRead) ∧
    (y.done.dropLast.map (fun e => (e.t, e.op, e.out)))[2]? =
      some (1, .newMgr (c! "a") none true (some 0), .mgr 0) ∧
    hydChecked.entropy = hydServerEnv.entropy ∧
    Html.readStyles hydRead.length (writeStaticMarkup hydEsc hydRead) =
      some ((hydReadPage.childrenOf 0).filterMap Child.pair?) ∧
    (∀ e ∈ hydRead, cssIdent e.key.pref = true) ∧ (∀ c ∈ s.heap, cssIdent c.key.pref = true) ∧
    (s.dom.childrenOf 0).filter Child.isStyle =
      [ .style (c! "a-global-sss") (c! ":root {\n    color: red;\n}\n"), .style (c! "a-c") (c! ".a-c {\n    top: 1px;\n}\n") ] := by
  refine ⟨by decide +kernel, by decide +kernel, rfl, by decide +kernel, by decide +kernel, by decide +kernel, by decide +kernel⟩

end Locks
