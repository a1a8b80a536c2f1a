import Verif.Props.Manager
import Verif.Proofs.Load
import Verif.Proofs.Storage
import Verif.Proofs.Html

/-!
# Properties of server-side rendering and hydration

C32 – C36, C54, C57 and C58.
-/

namespace Manager

open Storage (TEntry TKey TSheet TRBC TScope Cow Loc Frag Sel)

/-! ## C32: static markup -/

/-- **C32.** A browser reads the markup back as exactly one style element per entry, in
order, with the id and the escaped text, provided the escaper leaves no `</style` in a
text and no id contains a quote. -/
theorem C32_markup_reads_back (esc : Str → Str) (data : List Entry) (hesc : ∀ t, Html.endTags (esc t) = 0)
    (hid : ∀ e ∈ data, '"' ∉ e.id) :
    Html.readStyles data.length (writeStaticMarkup esc data) = some (data.map (fun e => (e.id, esc e.text))) :=
  Html.readStyles_markup esc data _ (Nat.le_refl _) (fun e he => ⟨hid e he, hesc _⟩)

/-- **C32**, counting: as many `</style` as entries. -/
theorem C32_one_end_tag_each (esc : Str → Str) (data : List Entry) (hesc : ∀ t, Html.endTags (esc t) = 0)
    (hid : ∀ e ∈ data, '<' ∉ e.id) : Html.endTags (writeStaticMarkup esc data) = data.length :=
  Html.endTags_markup esc data (fun e he => ⟨hid e he, hesc _⟩)

theorem cssIdent_mem {id : Str} (h : cssIdent id = true) : ∀ c ∈ id, cssChar c = true := by
  intro c hc
  unfold cssIdent at h
  split at h
  · cases h
  · rename_i s
    rw [Bool.and_eq_true] at h
    rcases List.mem_cons.1 hc with rfl | hc
    · decide
    · exact List.all_eq_true.1 h.2 c hc
  · rename_i c' s _
    rw [Bool.and_eq_true] at h
    rcases List.mem_cons.1 hc with rfl | hc
    · simp [cssChar, h.1]
    · exact List.all_eq_true.1 h.2 c hc

/-- **C32** for a server: what a static manager has recorded in any reachable state, all
ids being CSS identifiers (as they are with an identifier as prefix), is what a browser
finds on the page. -/
theorem C32_server_page (env : Env) (d : Dom) (ops : List Op) (s : St) (hs : s = run env ops (St.init d))
    (esc : Str → Str) (hesc : ∀ t, Html.endTags (esc t) = 0) (mh i l : Nat) (m : Mgr) (data : List Entry)
    (hi : s.mgrOf mh = some i) (hm : s.mgrs[i]? = some m) (hlog : m.log = some l)
    (hid : ∀ c ∈ s.heap, cssIdent c.id = true) (hd : (step env (.styleData mh) s).2 = .data data) :
    Html.readStyles data.length (writeStaticMarkup esc data) =
      some ((createdBy i s.heap).map (fun c => (c.id, esc c.text))) := by
  rw [(C31_read env d ops s hs i l m hm hlog).1 mh hi] at hd
  cases hd
  rw [C32_markup_reads_back esc _ hesc]
  · simp [List.map_map, Function.comp_def, Content.entry]
  · intro e he hq
    obtain ⟨c, hc, rfl⟩ := List.mem_map.1 he
    have h1 : c ∈ s.heap := (List.mem_filter.1 hc).1
    have := cssIdent_mem (hid c h1) _ hq
    exact absurd this (by decide)

/-- Non-vacuity: an escaper, and what the demo server sends. -/
example : (writeStaticMarkup (fun t => t) [⟨⟨false, c! "a", demoRed⟩, c! "a-style-0", c! ".a {}"⟩]) =
    c! "<style data-style=\"a-style-0\">.a {}</style>" := by decide

example : ∀ t, Html.endTags ((fun t : Str => t.filter (· != '<')) t) = 0 := by
  intro t
  have := Html.endTags_free (s := t.filter (· != '<')) [] (by simp)
  simpa [Html.endTags] using this

example : (∀ c ∈ serverState.heap, cssIdent c.id = true) ∧ serverState.mgrOf 0 = some 0 := by decide

/-- The hypothesis on ids is needed: a prefix may break out of the attribute (the code
says so in a comment). -/
theorem C32_limit_prefix :
    Html.readStyles 5 (writeStaticMarkup (fun _ => []) [⟨⟨false, c! "\"", []⟩, c! "\"-style-0", []⟩]) = none := by
  decide

/-! ## C35: conflicts -/

/-- **C35.** Loading panics exactly if some entry disagrees with the class its key has
already, or got from an earlier entry. -/
theorem C35_panics_iff_conflict (env : Env) (d : Dom) (ops : List Op) (s : St) (hs : s = run env ops (St.init d))
    (mh i : Nat) (hi : s.mgrOf mh = some i) (data : List Entry) :
    ((step env (.load mh data) s).2 = .panic ↔ ∃ e ∈ data, firstId (s.registeredId i) data e.key ≠ some e.id) ∧
    ((step env (.load mh data) s).2 = .unit ↔ ∀ e ∈ data, firstId (s.registeredId i) data e.key = some e.id) := by
  have hinv : Inv s := hs ▸ inv_run env ops (Inv.init d)
  obtain ⟨s', r, hr, h1⟩ := step_load env hinv hi data
  obtain ⟨h2, -⟩ := hr.ids (fun m hm e he => hinv.reg_lt (List.mem_of_getElem? hm) he)
  rw [h1]
  rcases h2 with ⟨rfl, h2⟩ | ⟨rfl, e, he, h2⟩
  · refine ⟨⟨(fun h => by cases h), ?_⟩, fun _ => h2, fun _ => rfl⟩
    rintro ⟨e, he, h3⟩
    exact absurd (h2 e he) h3
  · refine ⟨⟨fun _ => ⟨e, he, h2⟩, fun _ => rfl⟩, ⟨(fun h => by cases h), ?_⟩⟩
    intro h
    exact absurd (h e he) h2

/-- **C35**, the effect: after loading without panic every key has the class it had or that
of its entry, all other things are as before, and loading again does nothing. -/
theorem C35_effect (env : Env) (d : Dom) (ops : List Op) (s s' : St) (hs : s = run env ops (St.init d))
    (mh i : Nat) (hi : s.mgrOf mh = some i) (data : List Entry) (h1 : step env (.load mh data) s = (s', .unit)) :
    (∀ k, s'.registeredId i k = firstId (s.registeredId i) data k) ∧
    s'.dom = s.dom ∧ s'.handles = s.handles ∧ s'.mgrHandles = s.mgrHandles ∧ s'.logs = s.logs ∧
    (∀ j, j ≠ i → s'.mgrs[j]? = s.mgrs[j]?) ∧
    step env (.load mh data) s' = (s', .unit) := by
  have hinv : Inv s := hs ▸ inv_run env ops (Inv.init d)
  obtain ⟨s1, r, hr, h2⟩ := step_load env hinv hi data
  obtain ⟨h3, h4⟩ := hr.ids (fun m hm e he => hinv.reg_lt (List.mem_of_getElem? hm) he)
  rw [h1] at h2
  have hok : r = .ok () ∧ s1 = s' := by
    rcases h3 with ⟨rfl, -⟩ | ⟨rfl, -⟩
    · exact ⟨rfl, (congrArg Prod.fst h2).symm⟩
    · cases congrArg Prod.snd h2
  obtain ⟨rfl, rfl⟩ := hok
  obtain ⟨e1, e2, e3, e4⟩ := hr.mgrs
  obtain ⟨news, f1, f2, f3, -⟩ := hr.eff
  refine ⟨h4 rfl, f2, f3, e1, e2, ?_, ?_⟩
  · intro j hj
    cases hmj : s.mgrs[j]? with
    | some mj => exact hr.other hmj hj
    | none => rw [List.getElem?_eq_none_iff] at hmj ⊢; rw [hr.mgrs_length]; exact hmj
  have hinv' : Inv s1 := by
    have := inv_step env (.load mh data) hinv
    rw [h1] at this; exact this
  have hi' : s1.mgrOf mh = some i := by simp only [St.mgrOf, e1]; exact hi
  obtain ⟨s2, r2, hr2, h5⟩ := step_load env hinv' hi' data
  have hag := hr2.again (by
    intro e he
    rw [h4 rfl]
    rcases h3 with ⟨-, h3⟩ | ⟨h3, -⟩
    · exact h3 e he
    · cases h3)
  obtain ⟨rfl, rfl⟩ := hag
  exact h5

/-- Non-vacuity: data that loads, and data that does not. -/
example :
    let s := run demoEnv [.newMgr (c! "stylist") none true none] (St.init demoPage)
    let e : Entry := ⟨⟨false, c! "stylist", demoRed⟩, c! "stylist-x", []⟩
    s.mgrOf 0 = some 0 ∧ (step demoEnv (.load 0 [e, e]) s).2 = .unit ∧
    (step demoEnv (.load 0 [e, { e with id := c! "stylist-y" }]) s).2 = .panic := by decide

/-! ## C33: hydration reuses the server's classes -/

/-- What is behind the handle of a style whose key was loaded. -/
theorem loaded_handle (env : Env) (d : Dom) (ops ops' : List Op) (s s1 s2 s3 : St)
    (hs : s = run env ops (St.init d)) (mh mh' i : Nat) (hi : s.mgrOf mh = some i) (data : List Entry)
    (h1 : step env (.load mh data) s = (s1, .unit)) (e : Entry) (he : e ∈ data) (h2 : s2 = run env ops' s1)
    (hun : Along env (fun t op => ¬ Unregisters op t i e.key) ops' s1)
    (hi2 : s2.mgrOf mh' = some i) (m : Mgr) (hm : s2.mgrs[i]? = some m) (kind : Kind) (src : Source) (ast : Sheet)
    (fault : Bool) (hsrc : src.sheet? = some ast) (hkey : kind.key m.pref ast = e.key)
    (h3 : s3 = (step env (.create mh' kind src fault) s2).1) :
    ∃ h c, (step env (.create mh' kind src fault) s2).2 = .style h ∧ c ∈ s1.heap ∧ c.id = e.id ∧ c.key = e.key ∧
      s3.className h = some c.id ∧ s3.styleText h = some c.text ∧ s3.dom = s2.dom := by
  have hinv : Inv s := hs ▸ inv_run env ops (Inv.init d)
  have hinv1 : Inv s1 := by
    have := inv_step env (.load mh data) hinv
    rw [h1] at this; exact this
  have hinv2 : Inv s2 := h2 ▸ inv_run env ops' hinv1
  obtain ⟨c1, -⟩ := C35_effect env d ops s s1 hs mh i hi data h1
  have c2 := (C35_panics_iff_conflict env d ops s hs mh i hi data).2.1 (by rw [h1]) e he
  rw [← c1] at c2
  obtain ⟨m1, hm1, c2⟩ := Option.bind_eq_some_iff.1 c2
  obtain ⟨p, hp, c2⟩ := Option.bind_eq_some_iff.1 c2
  obtain ⟨c, hc, hcid⟩ := Option.map_eq_some_iff.1 c2
  obtain ⟨m2, a1, a2, a3⟩ := reg_run env ops' hinv1 hm1 hp hun (by rw [← h2]; exact mgrOf_mem hi2)
  rw [← h2, hm] at a1; cases a1
  have hit := create_hit env hinv2 fault hi2 hm hsrc (by rw [hkey]; exact a3)
  have hc2 : s2.heap[p]? = some c := by rw [h2]; exact heap_get_run env ops' hinv1 hc
  obtain ⟨c', k1, k2, -⟩ := hinv1.reg i m1 hm1 _ (regGet_mem hp)
  rw [hc] at k1
  cases k1
  rw [hit] at h3
  refine ⟨s2.handles.length, c, by rw [hit], List.mem_of_getElem? hc, hcid, k2, ?_, ?_, by rw [h3]⟩
  · rw [h3]
    simp [St.className, St.contentOf, hc2]
  · rw [h3]
    simp [St.styleText, St.contentOf, hc2]

/-- **C33** for given data: data is loaded without panic, then anything happens except
unregistering; creating a style with the key of an entry then gives the class of the
entry and does not touch the page. -/
theorem C33_loaded_class (env : Env) (d : Dom) (ops ops' : List Op) (s s1 s2 s3 : St)
    (hs : s = run env ops (St.init d)) (mh mh' i : Nat) (hi : s.mgrOf mh = some i) (data : List Entry)
    (h1 : step env (.load mh data) s = (s1, .unit)) (e : Entry) (he : e ∈ data) (h2 : s2 = run env ops' s1)
    (hun : Along env (fun t op => ¬ Unregisters op t i e.key) ops' s1)
    (hi2 : s2.mgrOf mh' = some i) (m : Mgr) (hm : s2.mgrs[i]? = some m) (kind : Kind) (src : Source) (ast : Sheet)
    (fault : Bool) (hsrc : src.sheet? = some ast) (hkey : kind.key m.pref ast = e.key)
    (h3 : s3 = (step env (.create mh' kind src fault) s2).1) :
    ∃ h, (step env (.create mh' kind src fault) s2).2 = .style h ∧ s3.className h = some e.id ∧ s3.dom = s2.dom := by
  obtain ⟨h, c, e1, -, e2, -, e3, -, e4⟩ := loaded_handle env d ops ops' s s1 s2 s3 hs mh mh' i hi data h1 e he h2 hun hi2 m hm
    kind src ast fault hsrc hkey h3
  exact ⟨h, e1, by rw [e3, e2], e4⟩

/-- An entry is recorded for every style created by a static manager, and stays. -/
theorem recorded (env : Env) (d : Dom) (ops ops' : List Op) (s s1 s2 : St) (hs : s = run env ops (St.init d))
    (mh i l h : Nat) (m : Mgr) (kind : Kind) (src : Source) (ast : Sheet) (fault : Bool)
    (hi : s.mgrOf mh = some i) (hm : s.mgrs[i]? = some m) (hlog : m.log = some l) (hsrc : src.sheet? = some ast)
    (hload : ∀ mh data, Op.load mh data ∉ ops)
    (h1 : step env (.create mh kind src fault) s = (s1, .style h)) (id text : Str) (hc : s1.className h = some id)
    (ht : s1.styleText h = some text) (h2 : s2 = run env ops' s1) (out : List Entry)
    (hout : (∃ mh', s2.mgrOf mh' = some i ∧ (step env (.styleData mh') s2).2 = .data out) ∨
      (step env (.readData l) s2).2 = .data out) :
    ⟨kind.key m.pref ast, id, text⟩ ∈ out := by
  have hinv : Inv s := hs ▸ inv_run env ops (Inv.init d)
  have hinv1 : Inv s1 := by
    have := inv_step env (.create mh kind src fault) hinv
    rw [h1] at this; exact this
  have hrun1 : s1 = run env (ops ++ [.create mh kind src fault]) (St.init d) := by
    rw [run_append, ← hs, run, run, h1]
  have hrun2 : s2 = run env (ops ++ .create mh kind src fault :: ops') (St.init d) := by
    rw [run_append, ← hs, run, h1, h2]
  obtain ⟨c, hmem, rfl, rfl, hk, hci, -⟩ :=
    created_content env d ops [] mh i h kind src fault ast s s1 s1 m hs hi hm hsrc h1 rfl id text hc ht
  have ho : c.origin = .created := by
    cases ho : c.origin with
    | created => rfl
    | hydrated =>
      exfalso
      rcases hydrated_run env _ (Inv.init d) c (by rw [← hrun1]; exact hmem) ho with h | ⟨mh', data, e, h3, -⟩
      · simp [St.init] at h
      · simp only [List.mem_append, List.mem_cons, List.not_mem_nil, or_false, reduceCtorEq] at h3
        exact hload _ _ h3
  obtain ⟨news, hnews⟩ := heap_run env ops' hinv1
  rw [← h2] at hnews
  have hcm : c ∈ createdBy i s2.heap := by
    simp only [createdBy, List.mem_filter, decide_eq_true_eq]
    exact ⟨by rw [hnews]; exact List.mem_append_left _ hmem, hci, ho⟩
  have ht1 := step_tr env hinv (.create mh kind src fault)
  rw [h1] at ht1
  obtain ⟨m1, hm1, hsame1, -⟩ := ht1.mgr hm
  obtain ⟨m2, hm2, hsame2⟩ := mgr_run env ops' hinv1 hm1
  rw [← h2] at hm2
  have hlog2 : m2.log = some l := by rw [hsame2.2.2.2, hsame1.2.2.2]; exact hlog
  obtain ⟨r1, r2⟩ := C31_read env d _ s2 hrun2 i l m2 hm2 hlog2
  have : (createdBy i s2.heap).map Content.entry = out := by
    rcases hout with ⟨mh', g1, g2⟩ | g
    · rw [r1 mh' g1] at g2
      cases g2; rfl
    · cases hl : s2.logs[l]? with
      | none => simp [step, hl] at g
      | some log =>
        cases hrt : log.readerTaken with
        | true => simp [step, hl, hrt] at g
        | false =>
          rw [r2 log hl hrt] at g
          cases g; rfl
  rw [← this]
  refine List.mem_map.2 ⟨c, hcm, ?_⟩
  simp [Content.entry, hk]

/-- **C33.** A server creates a style with a static manager (no data was loaded there) and
gets the class `id`. Later the data of that manager is read, stored in any way (`stored`),
serialized, deserialized and loaded by a manager on a client, without panic. Then anything
happens on the client except unregistering. Creating the same style there (same kind,
prefix and sheet) gives the class `id` and leaves the page alone. -/
theorem C33_hydration
    -- The server.
    (env : Env) (d : Dom) (ops ops' : List Op) (s s1 s2 : St) (hs : s = run env ops (St.init d))
    (mh i l h : Nat) (m : Mgr) (kind : Kind) (src : Source) (ast : Sheet) (fault : Bool)
    (hi : s.mgrOf mh = some i) (hm : s.mgrs[i]? = some m) (hlog : m.log = some l) (hsrc : src.sheet? = some ast)
    (hload : ∀ mh data, Op.load mh data ∉ ops)
    (h1 : step env (.create mh kind src fault) s = (s1, .style h)) (id : Str) (hc : s1.className h = some id)
    (h2 : s2 = run env ops' s1) (out : List Entry)
    (hout : (∃ mh', s2.mgrOf mh' = some i ∧ (step env (.styleData mh') s2).2 = .data out) ∨
      (step env (.readData l) s2).2 = .data out)
    -- Transport.
    (stored received : List TEntry) (hst : stored.map TEntry.erase = out)
    (hrec : Storage.decode (Storage.encData stored) = some received)
    -- The client.
    (env' : Env) (d' : Dom) (cops cops' : List Op) (t t1 t2 t3 : St) (ht : t = run env' cops (St.init d'))
    (ch ch' j : Nat) (hj : t.mgrOf ch = some j)
    (ht1 : step env' (.load ch (received.map TEntry.erase)) t = (t1, .unit))
    (ht2 : t2 = run env' cops' t1)
    (hun : Along env' (fun t op => ¬ Unregisters op t j (kind.key m.pref ast)) cops' t1)
    (hj2 : t2.mgrOf ch' = some j) (m' : Mgr) (hm' : t2.mgrs[j]? = some m')
    (kind' : Kind) (src' : Source) (ast' : Sheet) (fault' : Bool) (hsrc' : src'.sheet? = some ast')
    (hkey : kind'.key m'.pref ast' = kind.key m.pref ast)
    (ht3 : t3 = (step env' (.create ch' kind' src' fault') t2).1) :
    ∃ h', (step env' (.create ch' kind' src' fault') t2).2 = .style h' ∧ t3.className h' = some id ∧
      t3.dom = t2.dom := by
  have htx : ∃ text, s1.styleText h = some text := by
    simp only [St.className, Option.bind_eq_some_iff, Option.map_eq_some_iff] at hc
    obtain ⟨p, hp, c, hc, -⟩ := hc
    exact ⟨c.text, by simp [St.styleText, hp, hc]⟩
  obtain ⟨text, htx⟩ := htx
  have hmem := recorded env d ops ops' s s1 s2 hs mh i l h m kind src ast fault hi hm hlog hsrc hload h1 id text hc htx
    h2 out hout
  rw [Storage.decode_enc] at hrec
  cases hrec
  rw [← hst] at hmem
  obtain ⟨te, hte, he⟩ := List.mem_map.1 hmem
  have hmem2 : (⟨kind.key m.pref ast, id, []⟩ : Entry) ∈
      (stored.map (fun e => (⟨Storage.ownKey e.key, e.id, []⟩ : TEntry))).map TEntry.erase := by
    refine List.mem_map.2 ⟨⟨Storage.ownKey te.key, te.id, []⟩, List.mem_map.2 ⟨te, hte, rfl⟩, ?_⟩
    simp only [TEntry.erase, Entry.mk.injEq] at he
    simp [TEntry.erase, Storage.eraseKey_own, he.1, he.2.1]
  exact C33_loaded_class env' d' cops cops' t t1 t2 t3 ht ch ch' j hj _ ht1 _ hmem2 ht2 hun hj2 m' hm' kind' src' ast'
    fault' hsrc' hkey ht3

/-! ## C34: hydrated styles have the server's text -/

/-- **C34** for scoped styles, in the setting of `C33_hydration`: the style created on the
client has the text the server had. Missing: global styles, for which it is false. -/
theorem C34_scoped_partial (env : Env) (d : Dom) (ops ops' : List Op) (s s1 s2 : St) (hs : s = run env ops (St.init d))
    (mh i l h : Nat) (m : Mgr) (kind : Kind) (hk : kind ≠ .global) (src : Source) (ast : Sheet) (fault : Bool)
    (hi : s.mgrOf mh = some i) (hm : s.mgrs[i]? = some m) (hlog : m.log = some l) (hsrc : src.sheet? = some ast)
    (hload : ∀ mh data, Op.load mh data ∉ ops)
    (h1 : step env (.create mh kind src fault) s = (s1, .style h)) (id text : Str) (hc : s1.className h = some id)
    (htx : s1.styleText h = some text)
    (h2 : s2 = run env ops' s1) (out : List Entry)
    (hout : (∃ mh', s2.mgrOf mh' = some i ∧ (step env (.styleData mh') s2).2 = .data out) ∨
      (step env (.readData l) s2).2 = .data out)
    (stored received : List TEntry) (hst : stored.map TEntry.erase = out)
    (hrec : Storage.decode (Storage.encData stored) = some received)
    (env' : Env) (d' : Dom) (cops cops' : List Op) (t t1 t2 t3 : St) (ht : t = run env' cops (St.init d'))
    (ch ch' j : Nat) (hj : t.mgrOf ch = some j)
    (ht1 : step env' (.load ch (received.map TEntry.erase)) t = (t1, .unit))
    (ht2 : t2 = run env' cops' t1)
    (hun : Along env' (fun t op => ¬ Unregisters op t j (kind.key m.pref ast)) cops' t1)
    (hj2 : t2.mgrOf ch' = some j) (m' : Mgr) (hm' : t2.mgrs[j]? = some m')
    (kind' : Kind) (src' : Source) (ast' : Sheet) (fault' : Bool) (hsrc' : src'.sheet? = some ast')
    (hkey : kind'.key m'.pref ast' = kind.key m.pref ast)
    (ht3 : t3 = (step env' (.create ch' kind' src' fault') t2).1) :
    ∃ h', (step env' (.create ch' kind' src' fault') t2).2 = .style h' ∧ t3.styleText h' = some text := by
  obtain ⟨h', e1, e2, -⟩ := C33_hydration env d ops ops' s s1 s2 hs mh i l h m kind src ast fault hi hm hlog hsrc hload h1 id hc
    h2 out hout stored received hst hrec env' d' cops cops' t t1 t2 t3 ht ch ch' j hj ht1 ht2 hun hj2 m' hm' kind' src' ast'
    fault' hsrc' hkey ht3
  refine ⟨h', e1, ?_⟩
  have hstep : step env' (.create ch' kind' src' fault') t2 = (t3, .style h') := by rw [ht3, ← e1]
  have htt : ∃ text', t3.styleText h' = some text' := by
    simp only [St.className, Option.bind_eq_some_iff, Option.map_eq_some_iff] at e2
    obtain ⟨p, hp, c, hc, -⟩ := e2
    exact ⟨c.text, by simp [St.styleText, hp, hc]⟩
  obtain ⟨text', htt⟩ := htt
  have hrun : t2 = run env' (cops ++ .load ch (received.map TEntry.erase) :: cops') (St.init d') := by
    rw [run_append, ← ht, run, ht1, ht2]
  have hk' : kind' ≠ .global := by
    rintro rfl
    have := congrArg Key.isGlobal hkey
    cases kind with
    | global => exact hk rfl
    | _ => cases this
  have x1 := C37_scoped_text env d ops [] mh i h kind src fault ast s s1 s1 m hs hi hm hk hsrc h1 rfl id text hc htx
  have x2 := C37_scoped_text env' d' _ [] ch' j h' kind' src' fault' ast' t2 t3 t3 m' hrun hj2 hm' hk' hsrc' hstep rfl id text'
    e2 htt
  have hast : ast' = ast := by
    have := congrArg Key.ast hkey
    cases kind <;> cases kind' <;> exact this
  rw [htt, x2, x1, hast]

/-- **C34** for global styles, in the setting of `C33_hydration`, on a client on which nothing
is created before the data is loaded: what the style has there instead. The server has the
global rendering of the sheet; the client has the rendering under a class, and that class is
the id of the style. -/
theorem C34_global_partial (env : Env) (d : Dom) (ops ops' : List Op) (s s1 s2 : St) (hs : s = run env ops (St.init d))
    (mh i l h : Nat) (m : Mgr) (src : Source) (ast : Sheet) (fault : Bool)
    (hi : s.mgrOf mh = some i) (hm : s.mgrs[i]? = some m) (hlog : m.log = some l) (hsrc : src.sheet? = some ast)
    (hload : ∀ mh data, Op.load mh data ∉ ops)
    (h1 : step env (.create mh .global src fault) s = (s1, .style h)) (id text : Str) (hc : s1.className h = some id)
    (htx : s1.styleText h = some text)
    (h2 : s2 = run env ops' s1) (out : List Entry)
    (hout : (∃ mh', s2.mgrOf mh' = some i ∧ (step env (.styleData mh') s2).2 = .data out) ∨
      (step env (.readData l) s2).2 = .data out)
    (stored received : List TEntry) (hst : stored.map TEntry.erase = out)
    (hrec : Storage.decode (Storage.encData stored) = some received)
    (env' : Env) (d' : Dom) (cops cops' : List Op) (t t1 t2 t3 : St) (ht : t = run env' cops (St.init d'))
    (hcops : ∀ ch kind src fault, Op.create ch kind src fault ∉ cops)
    (ch ch' j : Nat) (hj : t.mgrOf ch = some j)
    (ht1 : step env' (.load ch (received.map TEntry.erase)) t = (t1, .unit))
    (ht2 : t2 = run env' cops' t1)
    (hun : Along env' (fun t op => ¬ Unregisters op t j (Kind.global.key m.pref ast)) cops' t1)
    (hj2 : t2.mgrOf ch' = some j) (m' : Mgr) (hm' : t2.mgrs[j]? = some m')
    (src' : Source) (fault' : Bool) (hsrc' : src'.sheet? = some ast) (hpref : m'.pref = m.pref)
    (ht3 : t3 = (step env' (.create ch' .global src' fault') t2).1) :
    ∃ h', (step env' (.create ch' .global src' fault') t2).2 = .style h' ∧
      t3.styleText h' = some (ast.toStyleStr (some id)) ∧ text = ast.toStyleStr none := by
  have hmem := recorded env d ops ops' s s1 s2 hs mh i l h m .global src ast fault hi hm hlog hsrc hload h1 id text hc htx
    h2 out hout
  rw [Storage.decode_enc] at hrec
  cases hrec
  rw [← hst] at hmem
  obtain ⟨te, hte, he⟩ := List.mem_map.1 hmem
  have hmem2 : (⟨Kind.global.key m.pref ast, id, []⟩ : Entry) ∈
      (stored.map (fun e => (⟨Storage.ownKey e.key, e.id, []⟩ : TEntry))).map TEntry.erase := by
    refine List.mem_map.2 ⟨⟨Storage.ownKey te.key, te.id, []⟩, List.mem_map.2 ⟨te, hte, rfl⟩, ?_⟩
    simp only [TEntry.erase, Entry.mk.injEq] at he
    simp [TEntry.erase, Storage.eraseKey_own, he.1, he.2.1]
  obtain ⟨h', c, e1, e2, e3, e4, -, e5, -⟩ := loaded_handle env' d' cops cops' t t1 t2 t3 ht ch ch' j hj _ ht1 _ hmem2 ht2 hun
    hj2 m' hm' .global src' ast fault' hsrc' (by rw [hpref]) ht3
  refine ⟨h', e1, ?_, C37_global_text env d ops [] mh i h src fault ast s s1 s1 m hs hi hm (fun mh data _ hl => absurd hl (hload mh data)) hsrc h1 rfl id
    text hc htx⟩
  have hrun : t1 = run env' (cops ++ [.load ch ((stored.map (fun e => (⟨Storage.ownKey e.key, e.id, []⟩ : TEntry))).map TEntry.erase)])
      (St.init d') := by rw [run_append, ← ht, run, run, ht1]
  have hto := text_run env' _ (Inv.init d') (by simp [St.init]) c (by rw [← hrun]; exact e2)
  have ho : c.origin ≠ .created := by
    intro ho
    have := noCreate_run env' (cops ++ [.load ch ((stored.map (fun e => (⟨Storage.ownKey e.key, e.id, []⟩ : TEntry))).map TEntry.erase)])
      (Inv.init d') (by simpa using hcops) c (by rw [← hrun]; exact e2) ho
    simp [St.init] at this
  rw [e5, hto, e4, e3, if_neg (fun h => ho h.2)]
  rfl

/-- What the demo server sends. -/
def serverData : List Entry :=
  match (step serverEnv (.readData 0) serverState).2 with
  | .data es => es
  | _ => []

/-- A client that loads it. -/
def clientState : St :=
  run demoEnv [.newMgr (c! "stylist") none true none, .load 0 serverData] (St.init demoPage)

/-- **C34 is false for global styles.** The demo server has a global style with the text
`:root { … }`; on the client the style has the server's id, but its text is
`.stylist-global-style-2 { … }`, which applies to nothing. (The page is right, since no
element is mounted for it; `get_style_str` is wrong.) -/
theorem C34_false_global :
    let s := step demoEnv (.create 0 .global (.sheet demoRed) false) clientState
    s.2 = .style 0 ∧ s.1.className 0 = some (c! "stylist-global-style-2") ∧
    s.1.styleText 0 = some (c! ".stylist-global-style-2 {\n    color: red;\n}\n") ∧
    serverState.className 3 = some (c! "stylist-global-style-2") ∧
    serverState.styleText 3 = some (c! ":root {\n    color: red;\n}\n") := by decide

/-- Non-vacuity of C33 and `C34_scoped_partial`: the demo server and client. -/
example :
    (step serverEnv (.create 0 (.withPrefix (c! "app")) (.text (c! "color: red;")) false)
      (run serverEnv (serverOps.take 4) (St.init []))).2 = .style 2 ∧
    (run serverEnv (serverOps.take 5) (St.init [])).className 2 = some (c! "app-style-1") ∧
    (step demoEnv (.load 0 serverData) (run demoEnv [.newMgr (c! "stylist") none true none] (St.init demoPage))).2 = .unit ∧
    clientState.mgrOf 0 = some 0 ∧
    (step demoEnv (.create 0 (.withPrefix (c! "app")) (.text (c! "color: red;")) false) clientState).1.className 0 =
      some (c! "app-style-1") := by decide

/-- Non-vacuity of `C34_global_partial`: the same. -/
example :
    (step serverEnv (.create 0 .global (.sheet demoRed) false) (run serverEnv (serverOps.take 5) (St.init []))).2 = .style 3 ∧
    (∀ mh data, Op.load mh data ∉ serverOps.take 5) ∧
    (∀ ch kind src fault, Op.create ch kind src fault ∉ [Op.newMgr (c! "stylist") none true none]) ∧
    (clientState.mgrs[0]?).map Mgr.pref = some (c! "stylist") ∧ (serverState.mgrs[0]?).map Mgr.pref = some (c! "stylist") ∧
    (step demoEnv (.create 0 .global (.sheet demoRed) false) clientState).1.styleText 0 =
      some (Sheet.toStyleStr demoRed (some (c! "stylist-global-style-2"))) := by
  refine ⟨by decide, by simp [serverOps], by simp, by decide, by decide, by decide⟩

/-! ## C36: serialization -/

/-- **C36.** Deserializing serialized style data succeeds and gives the same keys and ids in
the same order, without the texts. -/
theorem C36_roundtrip (data : List TEntry) :
    ∃ data', Storage.decode (Storage.encData data) = some data' ∧
      data'.map TEntry.erase = (data.map TEntry.erase).map (fun e => { e with text := [] }) := by
  refine ⟨_, Storage.decode_enc data, ?_⟩
  simp [List.map_map, Function.comp_def, TEntry.erase, Storage.eraseKey_own]

/-- **C36** through any data format that reads back what it writes. -/
theorem C36_format {β : Type} (write : Storage.Value → β) (read : β → Option Storage.Value)
    (hfmt : ∀ v, read (write v) = some v) (data : List TEntry) :
    ∃ data', (read (write (Storage.encData data))).bind Storage.decode = some data' ∧
      data'.map TEntry.erase = (data.map TEntry.erase).map (fun e => { e with text := [] }) := by
  rw [hfmt]
  exact C36_roundtrip data

/-- **C36**: for loading, this is as good as the original. -/
theorem C36_load_same (env : Env) (mh : Nat) (data data' : List TEntry) (s : St)
    (h : Storage.decode (Storage.encData data) = some data') :
    step env (.load mh (data'.map TEntry.erase)) s = step env (.load mh (data.map TEntry.erase)) s := by
  rw [Storage.decode_enc] at h
  cases h
  have hc : ∀ i s, loadBody i ((data.map (fun e => (⟨Storage.ownKey e.key, e.id, []⟩ : TEntry))).map TEntry.erase) s =
      loadBody i (data.map TEntry.erase) s := by
    intro i s
    apply loadBody_congr
    simp [List.map_map, Function.comp_def, TEntry.erase, Storage.eraseKey_own]
  simp only [step]
  cases s.mgrOf mh with
  | none => rfl
  | some i =>
    simp only [loadStyleData]
    have : loadBody i ((data.map (fun e => (⟨Storage.ownKey e.key, e.id, []⟩ : TEntry))).map TEntry.erase) =
        loadBody i (data.map TEntry.erase) := funext (hc i)
    rw [this]

/-- A sheet with all kinds of content, partly borrowed. -/
def demoStored : TSheet :=
  ⟨.borrowed, [.block ⟨.borrowed, [⟨⟨.owned, [⟨⟨.borrowed, c! "&:hover"⟩⟩]⟩⟩]⟩ .owned
    [.attr ⟨.borrowed, c! "color"⟩ ⟨.borrowed, [⟨⟨.owned, c! "red"⟩⟩]⟩,
     .rule .borrowed ⟨.owned, [⟨⟨.borrowed, c! "@media print"⟩⟩]⟩ .borrowed []]]⟩

/-- Non-vacuity: the entry of that sheet. -/
example : ((Storage.decode (Storage.encData [⟨⟨false, ⟨.borrowed, c! "a"⟩, demoStored⟩, c! "a-0", c! "x"⟩])).map
    (fun d => d.map TEntry.erase)) = some [⟨⟨false, c! "a",
      [.block [[c! "&:hover"]] [.attr (c! "color") [c! "red"], .rule [c! "@media print"] []]]⟩, c! "a-0", []⟩] := by
  decide

/-! ## C54: storage does not matter -/

/-- **C54.** Sheets compare equal exactly if they are equal up to storage. -/
theorem C54_equal (a b : TSheet) : Storage.eqSheet a b = true ↔ Storage.eraseSheet a = Storage.eraseSheet b :=
  Storage.eqSheet_iff a b

/-- **C54**: keys that compare equal hash equal, as `HashMap` requires. -/
theorem C54_hash (a b : TKey) (h : Storage.eqKey a b = true) : Storage.hashKey a = Storage.hashKey b := by
  rw [Storage.hashKey_eq, Storage.hashKey_eq, (Storage.eqKey_iff a b).1 h]

/-- **C54**: looking a style up in a registry gives the same with and without storage, for
any hash function, so the manager treats sheets that differ in storage only as the same
style. -/
theorem C54_lookup (hasher : List Storage.Tok → Nat) (reg : List (TKey × Nat)) (k : TKey) :
    Storage.hashGet hasher reg k = regGet (reg.map (fun e => (e.1.erase, e.2))) k.erase := by
  have hP : (fun e : TKey × Nat => (hasher (Storage.hashKey e.1) == hasher (Storage.hashKey k)) &&
      Storage.eqKey e.1 k) = (fun e : TKey × Nat => decide (e.1.erase = k.erase)) := by
    funext e
    cases he : Storage.eqKey e.1 k with
    | true =>
      rw [C54_hash _ _ he]
      simp [(Storage.eqKey_iff _ _).1 he]
    | false =>
      have : ¬ e.1.erase = k.erase := by
        intro h; rw [(Storage.eqKey_iff _ _).2 h] at he; cases he
      simp [this]
  simp only [Storage.hashGet, regGet, hP]
  induction reg with
  | nil => rfl
  | cons e es ih =>
    by_cases h : e.1.erase = k.erase
    · simp [h]
    · simpa [h] using ih

/-- Non-vacuity: the demo sheet, partly borrowed and all owned. -/
example : Storage.eqSheet demoStored (Storage.ownSheet demoStored) = true ∧
    (demoStored.loc, (Storage.ownSheet demoStored).loc) = (.borrowed, .owned) := by decide

/-! ## C57: hydrated and new styles -/

/-- **C57 is false with counter entropy** (feature `random` off): the counters of the
server and of the client both start at 0, so a style that is new on the client gets the
class of a different, hydrated one. -/
theorem C57_false_counter :
    let s := run demoEnv [.create 0 .scoped (.text (c! "color: red;")) false,
      .create 0 .scoped (.text (c! "color: blue;")) false] clientState
    s.className 0 = some (c! "stylist-style-0") ∧ s.className 1 = some (c! "stylist-style-0") ∧
    s.styleText 0 ≠ s.styleText 1 := by decide

/-- Of the styles of a client, loaded or new, those with the same class are the same. -/
theorem same_id_same_key
    (senv : Env) (sd : Dom) (sops : List Op) (server : St) (hserver : server = run senv sops (St.init sd))
    (env : Env) (d : Dom) (ops : List Op) (s : St) (hs : s = run env ops (St.init d))
    (hdash : ∀ n, '-' ∉ senv.entropy n ∧ '-' ∉ env.entropy n)
    (hdis : ∀ a b, a < server.ctr → b < server.ctr → senv.entropy a = senv.entropy b → a = b)
    (hdis' : ∀ a b, a < s.ctr → b < s.ctr → env.entropy a = env.entropy b → a = b)
    (hcross : ∀ a b, a < server.ctr → b < s.ctr → senv.entropy a ≠ env.entropy b)
    (hload : ∀ mh data, Op.load mh data ∈ ops → ∀ e ∈ data, ∃ c ∈ server.heap, c.origin = .created ∧
      e.key = c.key ∧ e.id = c.id)
    (p p' : Nat) (c c' : Content) (hc : s.heap[p]? = some c) (hc' : s.heap[p']? = some c') (hid : c.id = c'.id) :
    c.key = c'.key := by
  have last : ∀ (env : Env) (k : Key) (n : Nat), '-' ∉ env.entropy n →
      lastPart (makeId k (env.entropy n)) = env.entropy n := by
    intro env k n hn
    obtain ⟨x, hx⟩ := makeId_shape k (env.entropy n)
    rw [hx, lastPart_append _ hn]
  have hyd : ∀ c : Content, c ∈ s.heap → c.origin = .hydrated →
      ∃ sc ∈ server.heap, sc.origin = .created ∧ c.key = sc.key ∧ c.id = sc.id := by
    intro c hm ho
    rcases hydrated_run env ops (Inv.init d) c (by rw [← hs]; exact hm) ho with h | ⟨mh, data, e, h1, h2, h3⟩
    · simp [St.init] at h
    · obtain ⟨sc, e1, e2, e3, e4⟩ := hload mh data h1 e h2
      exact ⟨sc, e1, e2, by rw [h3]; exact e3, by rw [h3]; exact e4⟩
  have snum : ∀ sc : Content, sc ∈ server.heap → sc.origin = .created →
      ∃ n, n < server.ctr ∧ lastPart sc.id = senv.entropy n := by
    intro sc hm ho
    obtain ⟨q, hq⟩ := List.getElem?_of_mem hm
    obtain ⟨num, hn⟩ := numbered_run senv sops (Inv.init sd) (numbered_init senv sd)
    obtain ⟨h0, this⟩ := hn.id q sc (by rw [← hserver]; exact hq) ho
    exact ⟨num q, by rw [hserver]; exact h0, by rw [this, last senv _ _ (hdash _).1]⟩
  have cnum : ∀ c : Content, c ∈ s.heap → c.origin = .created →
      ∃ n, n < s.ctr ∧ lastPart c.id = env.entropy n := by
    intro c hm ho
    obtain ⟨q, hq⟩ := List.getElem?_of_mem hm
    obtain ⟨num, hn⟩ := numbered_run env ops (Inv.init d) (numbered_init env d)
    obtain ⟨h0, this⟩ := hn.id q c (by rw [← hs]; exact hq) ho
    exact ⟨num q, by rw [hs]; exact h0, by rw [this, last env _ _ (hdash _).2]⟩
  have mixed : ∀ c c' : Content, c ∈ s.heap → c' ∈ s.heap → c.origin = .created → c'.origin = .hydrated →
      c.id = c'.id → False := by
    intro c c' hm hm' ho ho' hid
    obtain ⟨n, hl, hn⟩ := cnum c hm ho
    obtain ⟨sc, f1, f2, -, f4⟩ := hyd c' hm' ho'
    obtain ⟨n', hl', hn'⟩ := snum sc f1 f2
    rw [hid, f4, hn'] at hn
    exact hcross _ _ hl' hl hn
  have hm := List.mem_of_getElem? hc
  have hm' := List.mem_of_getElem? hc'
  cases ho : c.origin with
  | created =>
    cases ho' : c'.origin with
    | created =>
      have := C21_random env d ops s hs (fun n _ => (hdash n).2) hdis' p p' c c' hc hc' ho ho' hid
      subst this
      rw [hc] at hc'; cases hc'; rfl
    | hydrated => exact (mixed c c' hm hm' ho ho' hid).elim
  | hydrated =>
    cases ho' : c'.origin with
    | created => exact (mixed c' c hm' hm ho' ho hid.symm).elim
    | hydrated =>
      obtain ⟨sc, f1, f2, f3, f4⟩ := hyd c hm ho
      obtain ⟨sc', g1, g2, g3, g4⟩ := hyd c' hm' ho'
      obtain ⟨q, hq⟩ := List.getElem?_of_mem f1
      obtain ⟨q', hq'⟩ := List.getElem?_of_mem g1
      have := C21_random senv sd sops server hserver (fun n _ => (hdash n).1) hdis q q' sc sc' hq hq'
        f2 g2 (by rw [← f4, ← g4, hid])
      subst this
      rw [hq] at hq'; cases hq'
      rw [f3, g3]

/-- **C57**, the part that holds: two processes with random entropy, whose strings are
alphanumeric and, as far as they have been used, all different, also across the processes.
The client loads only entries of styles created by the server. Then styles with the same class are the same style (kind,
prefix and sheet) on the client, whether loaded or new. Missing: entropy that is only
unique within the process, which is what the counter gives. -/
theorem C57_random_partial
    (senv : Env) (sd : Dom) (sops : List Op) (server : St) (hserver : server = run senv sops (St.init sd))
    (env : Env) (d : Dom) (ops : List Op) (s : St) (hs : s = run env ops (St.init d))
    (hdash : ∀ n, '-' ∉ senv.entropy n ∧ '-' ∉ env.entropy n)
    (hdis : ∀ a b, a < server.ctr → b < server.ctr → senv.entropy a = senv.entropy b → a = b)
    (hdis' : ∀ a b, a < s.ctr → b < s.ctr → env.entropy a = env.entropy b → a = b)
    (hcross : ∀ a b, a < server.ctr → b < s.ctr → senv.entropy a ≠ env.entropy b)
    (hload : ∀ mh data, Op.load mh data ∈ ops → ∀ e ∈ data, ∃ c ∈ server.heap, c.origin = .created ∧
      e.key = c.key ∧ e.id = c.id)
    (h h' p p' : Nat) (c c' : Content) (hp : s.contentOf h = some p) (hp' : s.contentOf h' = some p')
    (hc : s.heap[p]? = some c) (hc' : s.heap[p']? = some c') (hcls : s.className h = s.className h') :
    c.key = c'.key := by
  have hid : c.id = c'.id := by
    simpa [St.className, hp, hp', hc, hc'] using hcls
  exact same_id_same_key senv sd sops server hserver env d ops s hs hdash hdis hdis' hcross hload p p' c c' hc hc' hid

/-- The class of a style that a call has made. -/
theorem create_new {env : Env} {s s1 : St} (hinv : Inv s) {mh i h : Nat} {kind : Kind} {src : Source} {fault : Bool} {m : Mgr}
    {ast : Sheet} (hi : s.mgrOf mh = some i) (hm : s.mgrs[i]? = some m) (hsrc : src.sheet? = some ast)
    (h1 : step env (.create mh kind src fault) s = (s1, .style h)) (hnew : s1.ctr ≠ s.ctr) :
    s1.className h = some (makeId (kind.key m.pref ast) (env.entropy s.ctr)) := by
  have ht := step_tr env hinv (.create mh kind src fault)
  rw [h1] at ht
  simp only at ht
  cases ht with
  | createHit _ _ _ _ _ i' m' ast' p => exact absurd rfl hnew
  | createStatic _ _ _ _ _ i' m' ast' l log c a1 a2 a3 a4 a5 =>
    rw [hi] at a1; cases a1
    rw [hm] at a2; cases a2
    rw [hsrc] at a3; cases a3
    subst a5
    simp [St.className, St.contentOf, St.modReg, St.modMgr, newContent]
  | createMount _ _ _ _ _ i' m' ast' c d a1 a2 a3 a4 a5 =>
    rw [hi] at a1; cases a1
    rw [hm] at a2; cases a2
    rw [hsrc] at a3; cases a3
    subst a5
    simp [St.className, St.contentOf, St.modReg, St.modMgr, newContent]

/-- **C57 with the counter, exactly.** A server and a client both make a new style, in any of
their states, each with its own counter. The classes coincide if and only if the two processes
have handed out the same number of ids before (modulo 2^64) and the words in front of the number
are the same: the prefixes, and `global` for both or none (a prefix can contain that word). -/
theorem C57_counter_exactly
    (senv : Env) (hsent : senv.entropy = counterEntropy) (sd : Dom) (sops : List Op) (t t1 : St)
    (ht : t = run senv sops (St.init sd)) (env : Env) (hent : env.entropy = counterEntropy) (d : Dom) (ops : List Op)
    (s s1 : St) (hs : s = run env ops (St.init d))
    (smh si sh : Nat) (skind : Kind) (ssrc : Source) (sfault : Bool) (sm : Mgr) (sast : Sheet)
    (hsi : t.mgrOf smh = some si) (hsm : t.mgrs[si]? = some sm) (hssrc : ssrc.sheet? = some sast)
    (h1 : step senv (.create smh skind ssrc sfault) t = (t1, .style sh)) (hnew1 : t1.ctr ≠ t.ctr)
    (mh i h : Nat) (kind : Kind) (src : Source) (fault : Bool) (m : Mgr) (ast : Sheet)
    (hi : s.mgrOf mh = some i) (hm : s.mgrs[i]? = some m) (hsrc : src.sheet? = some ast)
    (h2 : step env (.create mh kind src fault) s = (s1, .style h)) (hnew2 : s1.ctr ≠ s.ctr) :
    t1.className sh = s1.className h ↔ t.ctr % 2 ^ 64 = s.ctr % 2 ^ 64 ∧
      skind.prefixOr sm.pref ++ (if skind.forPage then c! "-global" else []) =
        kind.prefixOr m.pref ++ (if kind.forPage then c! "-global" else []) := by
  have shape : ∀ (kind : Kind) (pref : Str) (ast : Sheet) (n : Nat), makeId (kind.key pref ast) (counterEntropy n) =
      (kind.prefixOr pref ++ (if kind.forPage then c! "-global" else [])) ++ (c! "-style-" ++ decimal (n % 2 ^ 64)) := by
    intro kind pref ast n
    cases kind <;> simp [makeId, Kind.key, Kind.prefixOr, Kind.forPage, counterEntropy]
  rw [create_new (ht ▸ inv_run senv sops (Inv.init sd)) hsi hsm hssrc h1 hnew1,
    create_new (hs ▸ inv_run env ops (Inv.init d)) hi hm hsrc h2 hnew2, hsent, hent]
  simp only [Option.some.injEq]
  constructor
  · intro e
    have h3 : t.ctr % 2 ^ 64 = s.ctr % 2 ^ 64 := by
      have h4 := congrArg lastPart e
      rw [lastPart_counter, lastPart_counter] at h4
      exact decimal_inj h4
    refine ⟨h3, ?_⟩
    rw [shape, shape, h3] at e
    exact List.append_cancel_right e
  · rintro ⟨h3, h4⟩
    rw [shape, shape, h3, h4]

/-- Non-vacuity: two processes, the first style of each. -/
example : ∃ t t1 s s1, t = run demoEnv (demoOps.take 2) (St.init demoPage) ∧
    step demoEnv (.create 0 .scoped (.sheet demoRed) false) t = (t1, .style 0) ∧ t1.ctr ≠ t.ctr ∧
    s = run demoEnv (demoOps.take 2) (St.init demoPage) ∧
    step demoEnv (.create 0 .scoped (.text (c! "color: blue;")) false) s = (s1, .style 0) ∧ s1.ctr ≠ s.ctr ∧
    t1.className 0 = s1.className 0 ∧ demoEnv.entropy = counterEntropy :=
  ⟨_, _, _, _, rfl, Prod.ext rfl (by decide), by decide, rfl, Prod.ext rfl (by decide), by decide, by decide, rfl⟩

/-- Non-vacuity of `C57_random_partial`: entropies as required (unary numbers, with different letters). -/
example : (∀ n : Nat, '-' ∉ List.replicate n 's' ++ ['s'] ∧ '-' ∉ List.replicate n 'c' ++ ['c']) ∧
    (∀ a b : Nat, List.replicate a 's' ++ ['s'] = List.replicate b 's' ++ ['s'] → a = b) ∧
    (∀ a b : Nat, List.replicate a 's' ++ ['s'] ≠ List.replicate b 'c' ++ ['c']) := by
  refine ⟨fun n => by simp [List.mem_replicate], fun a b h => ?_, fun a b h => ?_⟩
  · have := congrArg List.length h
    simpa using this
  · have := congrArg List.getLast? h
    simp at this

/-! ## C58: data of a server can be loaded -/

/-- **C58 is false**: a server that creates, unregisters and creates a style again sends
data that panics on loading. -/
theorem C58_false_unregister :
    let server := run serverEnv [.renderStatic, .newMgr (c! "stylist") none true (some 0),
      .create 0 .scoped (.sheet demoRed) false, .unregister 0, .create 0 .scoped (.sheet demoRed) false] (St.init [])
    ∃ data, (step serverEnv (.readData 0) server).2 = .data data ∧
      (step demoEnv (.load 0 data) (run demoEnv [.newMgr (c! "stylist") none true none] (St.init demoPage))).2 =
        .panic :=
  ⟨_, rfl, by decide⟩

/-- **C58**, the part that holds: if the server unregisters no style of the manager, its
data loads into any manager that has no style yet. Missing: servers that unregister, and
managers that already have styles. -/
theorem C58_loads_partial (env : Env) (d : Dom) (ops : List Op) (s : St) (hs : s = run env ops (St.init d))
    (mh i l : Nat) (m : Mgr) (hi : s.mgrOf mh = some i) (hm : s.mgrs[i]? = some m) (hlog : m.log = some l)
    (hu : Along env (fun t op => ∀ k, ¬ Unregisters op t i k) ops (St.init d)) (out : List Entry)
    (hout : (step env (.styleData mh) s).2 = .data out)
    (env' : Env) (d' : Dom) (cops : List Op) (t : St) (ht : t = run env' cops (St.init d'))
    (ch j : Nat) (m' : Mgr) (hj : t.mgrOf ch = some j) (hm' : t.mgrs[j]? = some m') (hempty : m'.reg = []) :
    (step env' (.load ch out) t).2 = .unit := by
  rw [(C35_panics_iff_conflict env' d' cops t ht ch j hj out).2]
  have hn := C31_once env d ops s hs i l m hm hlog hu
  rw [(C31_read env d ops s hs i l m hm hlog).1 mh hi] at hout
  cases hout
  have hk : ∀ k, t.registeredId j k = none := by
    intro k
    rw [registeredId_eq hm', hempty]; rfl
  have key : ∀ (l : List Content), (l.map Content.key).Nodup → ∀ c ∈ l,
      (l.map Content.entry).find? (fun e => e.key = c.key) = some c.entry := by
    intro l
    induction l with
    | nil => intro _ c hc; cases hc
    | cons x xs ih =>
      intro hn c hc
      simp only [List.map_cons, List.nodup_cons] at hn
      rcases List.mem_cons.1 hc with rfl | hc
      · simp [Content.entry]
      · have : ¬ x.key = c.key := by
          intro h; exact hn.1 (by rw [h]; exact List.mem_map.2 ⟨c, hc, rfl⟩)
        simp only [List.map_cons, List.find?_cons]
        rw [show decide (x.entry.key = c.key) = false from decide_eq_false this]
        exact ih hn.2 c hc
  intro e he
  obtain ⟨c, hc, rfl⟩ := List.mem_map.1 he
  rw [firstId, hk, show (c.entry.key) = c.key from rfl, key _ hn c hc]
  rfl

/-- **C58**, exactly when: the data of a server, whose ids are distinct, panics on loading into
a manager without styles if and only if the manager of the server created two styles of the
same kind, prefix and css. -/
theorem C58_panics_iff_partial (env : Env) (d : Dom) (ops : List Op) (s : St) (hs : s = run env ops (St.init d))
    (mh i l : Nat) (m : Mgr) (hi : s.mgrOf mh = some i) (hm : s.mgrs[i]? = some m) (hlog : m.log = some l)
    (hn : ((createdBy i s.heap).map Content.id).Nodup) (out : List Entry)
    (hout : (step env (.styleData mh) s).2 = .data out)
    (env' : Env) (d' : Dom) (cops : List Op) (t : St) (ht : t = run env' cops (St.init d'))
    (ch j : Nat) (m' : Mgr) (hj : t.mgrOf ch = some j) (hm' : t.mgrs[j]? = some m') (hempty : m'.reg = []) :
    (step env' (.load ch out) t).2 = .panic ↔
      ∃ (p q : Nat) (c c' : Content), p ≠ q ∧ s.heap[p]? = some c ∧ s.heap[q]? = some c' ∧ c.mgr = i ∧ c'.mgr = i ∧
        c.origin = .created ∧ c'.origin = .created ∧ c.key = c'.key := by
  rw [(C35_panics_iff_conflict env' d' cops t ht ch j hj out).1]
  rw [(C31_read env d ops s hs i l m hm hlog).1 mh hi] at hout
  cases hout
  have hk : ∀ k, t.registeredId j k = none := by
    intro k
    rw [registeredId_eq hm', hempty]; rfl
  have hmem : ∀ c, c ∈ createdBy i s.heap ↔ c ∈ s.heap ∧ c.mgr = i ∧ c.origin = .created := by
    intro c; simp [createdBy, List.mem_filter]
  constructor
  · rintro ⟨e, he, hne⟩
    obtain ⟨c, hc, rfl⟩ := List.mem_map.1 he
    rw [firstId, hk, Option.none_or] at hne
    cases hf : ((createdBy i s.heap).map Content.entry).find? (fun x => x.key = c.entry.key) with
    | none =>
      have := List.find?_eq_none.1 hf _ he
      simp at this
    | some e' =>
      rw [hf] at hne
      obtain ⟨c', hc', rfl⟩ := List.mem_map.1 (List.mem_of_find?_eq_some hf)
      have hkey : c'.key = c.key := by
        have := List.find?_some hf
        exact of_decide_eq_true this
      obtain ⟨h1, h2, h3⟩ := (hmem c).1 hc
      obtain ⟨h1', h2', h3'⟩ := (hmem c').1 hc'
      obtain ⟨p, hp⟩ := List.getElem?_of_mem h1
      obtain ⟨q, hq⟩ := List.getElem?_of_mem h1'
      refine ⟨p, q, c, c', ?_, hp, hq, h2, h2', h3, h3', hkey.symm⟩
      rintro rfl
      rw [hp] at hq; cases hq
      exact hne rfl
  · rintro ⟨p, q, c, c', hpq, hp, hq, h2, h2', h3, h3', hkey⟩
    have hc := (hmem c).2 ⟨List.mem_of_getElem? hp, h2, h3⟩
    have hc' := (hmem c').2 ⟨List.mem_of_getElem? hq, h2', h3'⟩
    have hids : c.id ≠ c'.id := by
      intro hid
      have key : ∀ (hp : List Content) (p q : Nat), ((createdBy i hp).map Content.id).Nodup → hp[p]? = some c →
          hp[q]? = some c' → p < q → False := by
        intro hp
        induction hp with
        | nil => intro p q _ h; simp at h
        | cons x xs ih =>
          intro p q hn e1 e2 hlt
          cases q with
          | zero => omega
          | succ q =>
            simp only [List.getElem?_cons_succ] at e2
            cases p with
            | zero =>
              simp only [List.getElem?_cons_zero, Option.some.injEq] at e1
              subst e1
              have hx : createdBy i (x :: xs) = x :: createdBy i xs := by
                rw [createdBy, List.filter_cons_of_pos (by simp [h2, h3])]; rfl
              rw [hx, List.map_cons, List.nodup_cons] at hn
              refine hn.1 (List.mem_map.2 ⟨c', ?_, hid.symm⟩)
              exact List.mem_filter.2 ⟨List.mem_of_getElem? e2, by simp [h2', h3']⟩
            | succ p =>
              simp only [List.getElem?_cons_succ] at e1
              refine ih p q ?_ e1 e2 (by omega)
              rw [createdBy, List.filter_cons] at hn
              split at hn
              · exact (List.nodup_cons.1 hn).2
              · exact hn
      have key' : ∀ (hp : List Content) (p q : Nat), ((createdBy i hp).map Content.id).Nodup → hp[p]? = some c →
          hp[q]? = some c' → q < p → False := by
        intro hp
        induction hp with
        | nil => intro p q _ h; simp at h
        | cons x xs ih =>
          intro p q hn e1 e2 hlt
          cases p with
          | zero => omega
          | succ p =>
            simp only [List.getElem?_cons_succ] at e1
            cases q with
            | zero =>
              simp only [List.getElem?_cons_zero, Option.some.injEq] at e2
              subst e2
              have hx : createdBy i (x :: xs) = x :: createdBy i xs := by
                rw [createdBy, List.filter_cons_of_pos (by simp [h2', h3'])]; rfl
              rw [hx, List.map_cons, List.nodup_cons] at hn
              refine hn.1 (List.mem_map.2 ⟨c, ?_, hid⟩)
              exact List.mem_filter.2 ⟨List.mem_of_getElem? e1, by simp [h2, h3]⟩
            | succ q =>
              simp only [List.getElem?_cons_succ] at e2
              refine ih p q ?_ e1 e2 (by omega)
              rw [createdBy, List.filter_cons] at hn
              split at hn
              · exact (List.nodup_cons.1 hn).2
              · exact hn
      rcases Nat.lt_or_gt_of_ne hpq with h | h
      · exact key s.heap p q hn hp hq h
      · exact key' s.heap p q hn hp hq h
    -- The first entry with the key has only one of the two ids.
    cases hf : ((createdBy i s.heap).map Content.entry).find? (fun x => x.key = c.key) with
    | none =>
      have := List.find?_eq_none.1 hf c.entry (List.mem_map.2 ⟨c, hc, rfl⟩)
      simp [Content.entry] at this
    | some e =>
      by_cases h : e.id = c.id
      · refine ⟨c'.entry, List.mem_map.2 ⟨c', hc', rfl⟩, ?_⟩
        rw [firstId, hk, Option.none_or, show c'.entry.key = c.key from hkey.symm, hf]
        simp only [Option.map_some, ne_eq, Option.some.injEq, h]
        exact hids
      · refine ⟨c.entry, List.mem_map.2 ⟨c, hc, rfl⟩, ?_⟩
        rw [firstId, hk, Option.none_or, show c.entry.key = c.key from rfl, hf]
        simp only [Option.map_some, ne_eq, Option.some.injEq]
        exact h

/-- Non-vacuity of `C58_loads_partial`. -/
example : (serverState.mgrs[0]?).map Mgr.log = some (some 0) ∧ serverState.mgrOf 0 = some 0 ∧
    serverData.length = 3 := by decide

/-- Non-vacuity of `C58_panics_iff_partial`: the server of `C58_false_unregister` has distinct
ids and two styles of the same kind, prefix and css; the demo server has distinct ids too. -/
example :
    let server := run serverEnv [.renderStatic, .newMgr (c! "stylist") none true (some 0),
      .create 0 .scoped (.sheet demoRed) false, .unregister 0, .create 0 .scoped (.sheet demoRed) false] (St.init [])
    ((createdBy 0 server.heap).map Content.id).Nodup ∧ (createdBy 0 server.heap).length = 2 ∧
    ((createdBy 0 serverState.heap).map Content.id).Nodup := by decide

/-! ## From the server to the client, for the demo -/

/-- An instance: the demo server, and an escaper that removes `<`. -/
example : Html.readStyles 3 (writeStaticMarkup (fun t => t.filter (· != '<')) serverData) =
    some ((createdBy 0 serverState.heap).map (fun c => (c.id, c.text.filter (· != '<')))) :=
  C32_server_page serverEnv [] serverOps serverState rfl (fun t => t.filter (· != '<'))
    (fun t => by
      have := Html.endTags_free (s := t.filter (· != '<')) [] (by simp)
      simpa [Html.endTags] using this) 0 0 0 _ serverData rfl rfl rfl (by decide) rfl

/-- The sheet of the demo, as a macro stores it. -/
def storedRed : TSheet :=
  ⟨.borrowed, [.block ⟨.borrowed, []⟩ .borrowed [.attr ⟨.borrowed, c! "color"⟩ ⟨.borrowed, [⟨⟨.borrowed, c! "red"⟩⟩]⟩]]⟩

/-- What the demo server sends, stored. -/
def storedData : List TEntry :=
  [⟨⟨false, ⟨.borrowed, c! "stylist"⟩, storedRed⟩, c! "stylist-style-0", c! ".stylist-style-0 {\n    color: red;\n}\n"⟩,
   ⟨⟨false, ⟨.owned, c! "app"⟩, storedRed⟩, c! "app-style-1", c! ".app-style-1 {\n    color: red;\n}\n"⟩,
   ⟨⟨true, ⟨.borrowed, c! "stylist"⟩, storedRed⟩, c! "stylist-global-style-2", c! ":root {\n    color: red;\n}\n"⟩]

/-- An instance of the whole way: the demo server makes a style with its own prefix, and one more; its data is
read, stored, written, read and loaded by the client, which makes a style of its own and then the one of the server. -/
example : ∃ received h', Storage.decode (Storage.encData storedData) = some received ∧
    let t1 := (step demoEnv (.load 0 (received.map TEntry.erase))
      (run demoEnv [.newMgr (c! "stylist") none true none] (St.init demoPage))).1
    let t2 := run demoEnv [.create 0 .scoped (.text (c! "top: 0;")) false] t1
    let r := step demoEnv (.create 0 (.withPrefix (c! "app")) (.text (c! "color: red;")) false) t2
    r.2 = .style h' ∧ r.1.className h' = some (c! "app-style-1") ∧ r.1.dom = t2.dom := by
  have hdec : ∃ received, Storage.decode (Storage.encData storedData) = some received := by
    obtain ⟨r, hr, -⟩ := C36_roundtrip storedData
    exact ⟨r, hr⟩
  obtain ⟨received, hrec⟩ := hdec
  have hl := C36_load_same demoEnv 0 storedData received
    (run demoEnv [.newMgr (c! "stylist") none true none] (St.init demoPage)) hrec
  have hlu : step demoEnv (.load 0 (received.map TEntry.erase))
      (run demoEnv [.newMgr (c! "stylist") none true none] (St.init demoPage)) =
      ((step demoEnv (.load 0 (received.map TEntry.erase))
      (run demoEnv [.newMgr (c! "stylist") none true none] (St.init demoPage))).1, .unit) := by
    rw [hl]; exact Prod.ext rfl (by decide)
  obtain ⟨h', h⟩ := C33_hydration serverEnv [] (serverOps.take 4) [.create 0 .global (.sheet demoRed) false] _ _ serverState rfl
    0 0 0 2 _ (.withPrefix (c! "app")) (.text (c! "color: red;")) demoRed false rfl rfl rfl (by decide)
    (by simp [serverOps]) rfl (c! "app-style-1") (by decide) rfl serverData (.inr rfl) storedData received (by decide) hrec
    demoEnv demoPage [.newMgr (c! "stylist") none true none] [.create 0 .scoped (.text (c! "top: 0;")) false] _ _ _ _ rfl
    0 0 0 rfl hlu rfl (by simp [Along, Unregisters]) (by rw [hl]; decide) _ (by rw [hl]; rfl)
    (.withPrefix (c! "app")) (.text (c! "color: red;")) demoRed false (by decide) (by decide) rfl
  exact ⟨received, h', hrec, h⟩

/-- An instance: the data of the demo server loads. -/
example : (step demoEnv (.load 0 serverData) (run demoEnv [.newMgr (c! "stylist") none true none] (St.init demoPage))).2 =
    .unit :=
  C58_loads_partial serverEnv [] serverOps serverState rfl 0 0 0 _ rfl rfl rfl (by simp [serverOps, Along, Unregisters])
    serverData rfl demoEnv demoPage [.newMgr (c! "stylist") none true none] _ rfl 0 0 _ rfl rfl rfl

end Manager
