import Verif.Props.Served
import Verif.Proofs.Entropy

/-!
# From the css of a request to what its page says

C120: a request of a server with threads, from the css that its thread gave to the declarations that
a browser reads from its page.
-/

namespace Locks

open Manager Spec

/-- The class of the style `k`, unless it is for the whole page. -/
def scopeOf (cls : Key → Str) (k : Key) : Option Str := if k.isGlobal then none else some (cls k)

theorem find_key : ∀ (l : List Entry), (l.map Entry.key).Nodup → ∀ e ∈ l, l.find? (fun x => x.key = e.key) = some e := by
  intro l
  induction l with
  | nil => intro _ e he; cases he
  | cons x xs ih =>
    intro hn e he
    simp only [List.map_cons, List.nodup_cons] at hn
    rcases List.mem_cons.1 he with rfl | he
    · simp
    · have : ¬ x.key = e.key := by
        intro h; exact hn.1 (by rw [h]; exact List.mem_map.2 ⟨e, he, rfl⟩)
      simp only [List.find?_cons]
      rw [show decide (x.key = e.key) = false from decide_eq_false this]
      exact ih hn.2 e he

/-- Declarations of styles are decided as the styles say. -/
theorem wins_keys {El : Type} (cls : Key → Str) (ks : List Key)
    (h : ∀ k ∈ ks, CleanClass (cls k) ∧ SelectorsOf (SelectorFor (scopeOf cls k)) k.ast) (S : Setting El) (e : El) (p : Str)
    (n : Nat) : S.Wins (ks.flatMap fun k => decls (scopeOf cls k) k.ast) e p n ↔
      S.ShouldWin (ks.flatMap fun k => (said k.ast).map fun x => (scopeOf cls k, x)) e p n := by
  have := wins_contents (ks.map fun k => (⟨cls k, k, [], 0, .created⟩ : Content)) (by
    intro c hc
    obtain ⟨k, hk, rfl⟩ := List.mem_map.1 hc
    exact h k hk) S e p n
  rw [List.flatMap_map, List.flatMap_map] at this
  exact this

theorem run_append (env : Env) : ∀ (p q : List (Nat × Op)) (z : Sys), z.run env (p ++ q) = (z.run env p).run env q
  | [], _, _ => rfl
  | c :: p, q, z => run_append env p q (z.step env c)

/-- **C120**. Whatever the schedule of whatever other threads: thread `t` has made the manager that writes
to the style data `l`, and neither unregisters styles nor loads data. In the state `y` the data are read,
by any thread; classes differ as far as they are used (`FreshIds`), and the prefixes are css identifiers
without white space. `keys` are the styles that `t` got from its manager, each once, in the order in which
it got them first. Then there are classes for these styles, all different, such that

* whenever `t` got one of the styles, it got it with this class;
* the page, read by a browser, has a style element for each of them, in this order, with its class and
  the escaped text of its css under the class, and no other style element;
* if the sheets are whole and escaping does not change the texts, a browser reads from the page the
  declarations of these styles under their classes, in this order, and nothing else;
* if the selectors are those of C70 and C75, it decides between them as the styles say. -/
theorem C120_request {El : Type} (env : Env) (d : Dom) (sched : List (Nat × Op)) (y z : Sys)
    (hy : y = (Sys.init d).run env sched) (t u l : Nat) (es : List Entry) (hz : z = y.step env (u, .readData l))
    (hread : z.done = y.done ++ [⟨u, .readData l, .data es⟩])
    (hmade : ∃ e ∈ y.done, e.t = t ∧ e.MakesFor l) (hplain : ∀ e ∈ y.done, e.t = t → e.Plain)
    (hids : FreshIds env z.st.ctr)
    (hpref : ∀ k ∈ keysAsked l (y.done.filter (fun e => e.t = t)),
      cssIdent k.pref = true ∧ ∀ x ∈ k.pref, Str.isWhitespace x = false)
    (esc : Str → Str) (hesc : ∀ s, Html.endTags (esc s) = 0) :
    let keys := keysAsked l (y.done.filter (fun e => e.t = t))
    ∃ cls : Key → Str,
      (∀ k ∈ keys, ∀ k' ∈ keys, cls k = cls k' → k = k') ∧
      (∀ (s1 s2 : List (Nat × Op)) (b : List Done) (mh h : Nat) (kind : Kind) (src : Source) (ast : Sheet) (fault : Bool)
        (id : Str) (a : Asked), sched = s1 ++ s2 →
        ((Sys.init d).run env s1).done = b ++ [⟨t, .create mh kind src fault, .style h⟩] → src.sheet? = some ast →
        ((Sys.init d).run env s1).st.className h = some id →
        (b.filter (fun e => e.t = t)).foldl (heard l) none = some a → mh ∈ a.values →
        kind.key a.pref ast ∈ keys ∧ id = cls (kind.key a.pref ast)) ∧
      Html.readStyles es.length (writeStaticMarkup esc es) =
        some (keys.map fun k => (cls k, esc (k.ast.toStyleStr (scopeOf cls k)))) ∧
      ((∀ k ∈ keys, WholeSheet k.ast ∧ esc (k.ast.toStyleStr (scopeOf cls k)) = k.ast.toStyleStr (scopeOf cls k)) →
        ∀ page : List Child,
          Html.readStyles es.length (writeStaticMarkup esc es) = some (page.filterMap Child.pair?) →
          pageReads page = some (keys.flatMap fun k => decls (scopeOf cls k) k.ast) ∧
          ((∀ k ∈ keys, SelectorsOf (SelectorFor (scopeOf cls k)) k.ast) →
            ∀ (S : Setting El) (e : El) (p : Str) (n : Nat),
              S.Wins (keys.flatMap fun k => decls (scopeOf cls k) k.ast) e p n ↔
                S.ShouldWin (keys.flatMap fun k => (said k.ast).map fun x => (scopeOf cls k, x)) e p n)) := by
  intro keys
  have hzr : z = (Sys.init d).run env (sched ++ [(u, .readData l)]) := by
    rw [run_append, ← hy, hz]; rfl
  obtain ⟨ns, hlen, hnd, hlt, hes⟩ := C117_page env d _ z hzr y.done [] _ hread l es rfl rfl t hmade hplain
  have hkeys : es.map Entry.key = keys := by rw [hes, zipWith_keys env _ ns hlen]
  have hkn : (es.map Entry.key).Nodup := by rw [hkeys]; exact keysAsked_nodup _ _
  let cls : Key → Str := fun k => ((es.find? (fun x => x.key = k)).map Entry.id).getD []
  have hcls : ∀ e ∈ es, cls e.key = e.id := by
    intro e he
    simp only [cls, find_key es hkn e he]
    rfl
  have hget : ∀ (p : Nat) (e : Entry), es[p]? = some e → ∃ n, ns[p]? = some n ∧ n < z.st.ctr ∧
      e.id = makeId e.key (env.entropy n) ∧ e.text = e.key.ast.toStyleStr (scopeOf cls e.key) := by
    intro p e hp
    have hmem := List.mem_of_getElem? hp
    have h0 := hcls e hmem
    rw [hes, List.getElem?_zipWith] at hp
    split at hp
    · rename_i k n _ h2
      cases hp
      refine ⟨n, h2, hlt n (List.mem_of_getElem? h2), rfl, ?_⟩
      simp only [scopeOf, h0]
      rfl
    · cases hp
  have hclean : ∀ e ∈ es, CleanClass e.id := by
    intro e he
    obtain ⟨p, hp⟩ := List.getElem?_of_mem he
    obtain ⟨n, -, h2, h3, -⟩ := hget p e hp
    have hk := hpref e.key (by
      show e.key ∈ keys
      rw [← hkeys]; exact List.mem_map.2 ⟨e, he, rfl⟩)
    rw [h3]
    refine cleanClass_of_ident (hids.ident h2 hk.1) ?_
    intro x hx
    have hw := hids.notWhite h2
    have h4 : ∀ x ∈ c! "-global-", Str.isWhitespace x = false := by decide
    have h5 : ∀ x ∈ c! "-", Str.isWhitespace x = false := by decide
    simp only [makeId] at hx
    split at hx
    · rcases List.mem_append.1 hx with hx | hx
      · rcases List.mem_append.1 hx with hx | hx
        · exact hk.2 x hx
        · exact h4 x hx
      · exact hw x hx
    · rcases List.mem_append.1 hx with hx | hx
      · rcases List.mem_append.1 hx with hx | hx
        · exact hk.2 x hx
        · exact h5 x hx
      · exact hw x hx
  have hkey : ∀ k ∈ keys, ∃ e ∈ es, e.key = k := by
    intro k hk
    rw [← hkeys] at hk
    exact List.mem_map.1 hk
  have hpairs : Html.readStyles es.length (writeStaticMarkup esc es) =
      some (keys.map fun k => (cls k, esc (k.ast.toStyleStr (scopeOf cls k)))) := by
    rw [C32_markup_reads_back esc es hesc (by
      intro e he hq
      have := ((hclean e he).2 _ hq).1
      revert this; decide), ← hkeys, List.map_map]
    congr 1
    apply List.map_congr_left
    intro e he
    obtain ⟨p, hp⟩ := List.getElem?_of_mem he
    obtain ⟨n, -, -, -, h4⟩ := hget p e hp
    simp only [Function.comp_apply, hcls e he, ← h4]
  refine ⟨cls, ?_, ?_, hpairs, ?_⟩
  · intro k hk k' hk' he
    obtain ⟨e1, h1, rfl⟩ := hkey k hk
    obtain ⟨e2, h2, rfl⟩ := hkey k' hk'
    rw [hcls e1 h1, hcls e2 h2] at he
    obtain ⟨p, hp⟩ := List.getElem?_of_mem h1
    obtain ⟨q, hq⟩ := List.getElem?_of_mem h2
    obtain ⟨n, a1, a2, a3, -⟩ := hget p e1 hp
    obtain ⟨m, b1, b2, b3, -⟩ := hget q e2 hq
    rw [a3, b3] at he
    have hnm := hids.inj a2 b2 he
    subst hnm
    have hpq : p = q :=
      (List.getElem?_inj (List.getElem?_eq_some_iff.1 a1).1 hnd).1 (a1.trans b1.symm)
    subst hpq
    rw [hp] at hq
    cases hq; rfl
  · intro s1 s2 b mh h kind src ast fault id a hs hb hsrc hid ha hmh
    have htext : ∃ text, ((Sys.init d).run env s1).st.styleText h = some text := by
      simp only [St.className, Option.bind_eq_some_iff, Option.map_eq_some_iff] at hid
      obtain ⟨p, hp, c, hc, -⟩ := hid
      exact ⟨c.text, by simp [St.styleText, hp, hc]⟩
    obtain ⟨text, htext⟩ := htext
    have hsent := C119_sent env d s1 s2 _ y rfl (by rw [hy, hs, run_append]) b t mh h kind src ast fault hb hsrc id text hid
      htext l a ha hmh hplain u es (hz ▸ hread)
    have h1 := hcls _ hsent
    refine ⟨?_, h1.symm⟩
    rw [← hkeys]
    exact List.mem_map.2 ⟨_, hsent, rfl⟩
  · intro hwhole page hpage
    have hcl : ∀ k ∈ keys, CleanClass (cls k) := by
      intro k hk
      obtain ⟨e, he, rfl⟩ := hkey k hk
      rw [hcls e he]
      exact hclean e he
    constructor
    · rw [hpairs, Option.some.injEq] at hpage
      rw [← pageReads_isStyle, filter_pair page _ hpage.symm, List.map_map]
      have hreads : ∀ k ∈ keys, browserReads (esc (k.ast.toStyleStr (scopeOf cls k))) = some (decls (scopeOf cls k) k.ast) := by
        intro k hk
        rw [(hwhole k hk).2]
        refine C68_browser_reads _ _ ?_ (hwhole k hk).1
        intro c hc
        simp only [scopeOf] at hc
        split at hc
        · cases hc
        · cases hc; exact hcl k hk
      clear_value keys
      clear hkeys hes hpairs hpage
      revert hreads
      generalize keys = ks
      intro hreads
      induction ks with
      | nil => rfl
      | cons k ks ih =>
        rw [List.map_cons, Function.comp_apply, pageReads, hreads k (by simp), ih (fun k' hk' => hreads k' (by simp [hk']))]
        rfl
    · intro hsel S e p n
      exact wins_keys cls keys (fun k hk => ⟨hcl k hk, hsel k hk⟩) S e p n

/-- Thread 1 gets two styles, one of them twice, and one for the whole page; thread 2 creates styles in
between, one of them with the same css, and is not ready with the other one in the end. -/
def answerSched : List (Nat × Op) :=
  gotten ++ more 2 10 ++
  [(1, .create 0 .scoped (.text (c! "top: 0; &:hover { left: 0; }")) false)] ++ more 1 8 ++
  [(2, .create 1 .scoped (.text (c! "top: 1px;")) false)] ++ more 1 10 ++ more 2 3 ++
  [(1, .create 0 .scoped (.sheet demoRed) false)] ++ more 1 4 ++
  [(1, .create 0 .global (.sheet demoRed) false)] ++ more 1 2 ++ more 2 4 ++ more 1 10

set_option maxRecDepth 16000 in
/-- Non-vacuity: the hypotheses of C120 and what a browser reads. -/
example : let y := (Sys.init []).run checkedServer answerSched
    let z := y.step checkedServer (3, .readData 0)
    let keys := keysAsked 0 (y.done.filter (fun e => e.t = 1))
    let top : Sheet := [.block [] [.attr (c! "top") [c! "0"]], .block [[c! "&:hover"]] [.attr (c! "left") [c! "0"]]]
    (z.done.getLast?).map (fun e => (e.t, e.op)) = some (3, .readData 0) ∧ z.done.length = y.done.length + 1 ∧
    (y.done[2]?).map (fun e => (e.t, e.op, e.out)) = some (1, .newMgr (c! "a") none true (some 0), .mgr 0) ∧
    y.done.all (fun e => match e.op with | .unregister _ | .load _ _ => false | _ => true) = true ∧ FreshIds checkedServer z.st.ctr ∧
    keys = [⟨false, c! "a", demoRed⟩, ⟨false, c! "a", top⟩, ⟨true, c! "a", demoRed⟩] ∧
    (∀ k ∈ keys, cssIdent k.pref = true ∧ ∀ x ∈ k.pref, Str.isWhitespace x = false) ∧
    (∀ k ∈ keys, WholeSheet k.ast ∧ SelectorsOf (SelectorFor (some [])) k.ast) ∧
    (z.done.getLast?).map (fun e => match e.out with
      | .data es => (es.map Entry.id, pageReads (es.map fun e => .style e.id (hydEsc e.text)))
      | _ => ([], none)) =
      some ([c! "a-style-0", c! "a-style-2", c! "a-global-style-3"],
        some [ ⟨[c! ".a-style-0"], c! "color", c! "red"⟩, ⟨[c! ".a-style-2"], c! "top", c! "0"⟩,
          ⟨[c! ".a-style-2:hover"], c! "left", c! "0"⟩, ⟨[c! ":root"], c! "color", c! "red"⟩ ]) := by
  refine ⟨by decide +kernel, by decide +kernel, by decide +kernel, by decide +kernel, Or.inl ⟨rfl, by decide +kernel⟩,
    by decide +kernel, by decide +kernel, by decide +kernel, by decide +kernel⟩

end Locks
