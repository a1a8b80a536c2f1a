import Verif.Proofs.Context
import Verif.Props.Yew
import Verif.Props.Hydration

/-!
# Properties of providers, of the default manager and of style sources

C61 – C65.
-/

namespace Context

open Manager
open Yew (mgrOf_lt mgrOf_step)

/-- A handle of the manager that counts at a place. -/
theorem place_handle_ok {env : Env} {a : App} {w : Place} {i : Nat} (hw : ManagerAt a (givenOf a) w i) :
    ∃ h0, contextMgr env a w = cloneMgr env a h0 ∧ a.st.mgrOf h0 = some i ∧ h0 ∈ a.own := by
  cases w with
  | outside =>
    obtain ⟨mh, h1, h2⟩ := hw
    exact ⟨mh, by simp [contextMgr, defaultMgr, h1], h2, mem_own.2 (Or.inl h1)⟩
  | below j =>
    simp only [ManagerAt] at hw
    rw [givenOf, List.getElem?_map] at hw
    cases hp : a.provs[j]? with
    | none => rw [hp] at hw; cases hw
    | some op =>
      rw [hp] at hw
      cases op with
      | none => cases hw
      | some p =>
        simp only [Option.map_some, Option.bind_some, Option.some.injEq] at hw
        exact ⟨p.ctx, by simp [contextMgr, hp], hw, mem_own.2 (Or.inr ⟨j, p, hp, by simp [Prov.handles]⟩)⟩

theorem place_handle {env : Env} {o : Bool} {d : Dom} {es : List Event} {a : App}
    (h : events env o es (App.init d) = some a) {w : Place} {i : Nat}
    (hw : ManagerAt a (given env o es (App.init d) []) w i) :
    ∃ h0, contextMgr env a w = cloneMgr env a h0 ∧ a.st.mgrOf h0 = some i ∧ h0 ∈ a.own := by
  obtain ⟨-, hg, -⟩ := events_ok es (AppOk.init d) h
  have hg0 : givenOf (App.init d) = [] := rfl
  rw [hg0] at hg
  exact place_handle_ok (hg ▸ hw)

/-- What a component gets is what `Style::new_with_manager` gives. -/
theorem gives_of_create {env : Env} {a : App} (hinv : Inv a.st) {w : Place} {h0 i st : Nat} {s : St} {src : Source} {fault : Bool}
    {cls : Str} (hc : contextMgr env a w = cloneMgr env a h0) (h1 : a.st.mgrOf h0 = some i)
    (hs : step env (.create h0 .scoped src fault) a.st = (s, .style st)) (hcls : s.className st = some cls) :
    (∃ a3, Gives env a w src fault a3 cls) ∧
    (∀ a3 cls', Gives env a w src fault a3 cls' → cls' = cls ∧ a3.st.dom = s.dom) := by
  have hu := (useStyle_eq hinv hc h1 h1 src fault).1 s st hs
  refine ⟨⟨_, Or.inl ⟨st, hu, hcls⟩⟩, ?_⟩
  rintro a3 cls' (⟨st', h2, h3⟩ | h2)
  · rw [hu] at h2; cases h2
    have : s.className st = some cls' := h3
    rw [hcls] at this
    exact ⟨(Option.some.inj this).symm, rfl⟩
  · have hcl : ({ s with mgrHandles := s.mgrHandles ++ [none] } : St).className st = some cls := hcls
    simp only [classes, hu, hcl, Option.some.injEq, Prod.mk.injEq] at h2
    obtain ⟨rfl, rfl⟩ := h2
    refine ⟨rfl, ?_⟩
    obtain ⟨m, hm⟩ := mgrOf_get hinv h1
    have hsrc : ∃ ast, src.sheet? = some ast := by
      cases hast : src.sheet? with
      | some ast => exact ⟨ast, rfl⟩
      | none => simp [step, create, h1, hm, hast] at hs
    obtain ⟨ast, hast⟩ := hsrc
    obtain ⟨p, c, m', g1, g2, g3, -, g5, -⟩ := create_style hinv h1 hm hast (h := st) (by rw [hs])
    rw [hs] at g1 g3
    have hd := drop_registered (env := env) (s := withMh (s.mgrHandles ++ [none]) s) g1 g3 (regGet_mem g5)
    simp only [withMh] at hd
    simp only [hd]

/-! ## C61: the nearest provider decides -/

/-- **C61.** In any reachable state, `use_style` below a provider does what
`Style::new_with_manager` with the manager last given to that provider does, with the same
style, the same changes of the page and of everything else, and it panics exactly if that
fails. Outside of providers this holds with the default manager. (`mh` is any handle of that
manager; the additional `none` is the clone that was dropped.) -/
theorem C61_use_style (env : Env) (o : Bool) (d : Dom) (es : List Event) (a : App)
    (h : events env o es (App.init d) = some a) (w : Place) (i : Nat)
    (hw : ManagerAt a (given env o es (App.init d) []) w i) (mh : Nat) (hmh : a.st.mgrOf mh = some i)
    (src : Source) (fault : Bool) :
    (∀ s st, step env (.create mh .scoped src fault) a.st = (s, .style st) →
      useStyle env a w src fault = some ({ a with st := { s with mgrHandles := s.mgrHandles ++ [none] } }, st)) ∧
    ((∀ st, (step env (.create mh .scoped src fault) a.st).2 ≠ .style st) → useStyle env a w src fault = none) := by
  obtain ⟨h0, h1, h2, -⟩ := place_handle h hw
  exact useStyle_eq (events_ok es (AppOk.init d) h).1.inv h1 h2 hmh src fault

/-- **C61** for `css!` in a styled component, and for plain `css!` outside: the class is that
of the style that `Style::new_with_manager` makes, and the `Style` is dropped. -/
theorem C61_classes (env : Env) (o : Bool) (d : Dom) (es : List Event) (a : App)
    (h : events env o es (App.init d) = some a) (w : Place) (i : Nat)
    (hw : ManagerAt a (given env o es (App.init d) []) w i) (mh : Nat) (hmh : a.st.mgrOf mh = some i)
    (src : Source) (fault : Bool) :
    (∀ s st, step env (.create mh .scoped src fault) a.st = (s, .style st) →
      ∃ cls, s.className st = some cls ∧ classes env a w src fault =
        some ({ a with st := (step env (.drop st) { s with mgrHandles := s.mgrHandles ++ [none] }).1 }, cls)) ∧
    ((∀ st, (step env (.create mh .scoped src fault) a.st).2 ≠ .style st) → classes env a w src fault = none) := by
  have hinv := (events_ok es (AppOk.init d) h).1.inv
  obtain ⟨h1, h2⟩ := C61_use_style env o d es a h w i hw mh hmh src fault
  refine ⟨fun s st hs => ?_, fun hn => by simp [classes, h2 hn]⟩
  obtain ⟨m, hm⟩ := mgrOf_get hinv hmh
  have hsrc : ∃ ast, src.sheet? = some ast := by
    cases hast : src.sheet? with
    | some ast => exact ⟨ast, rfl⟩
    | none => simp [step, create, hmh, hm, hast] at hs
  obtain ⟨ast, hast⟩ := hsrc
  obtain ⟨p, c, m', c1, c2, -⟩ := create_style hinv hmh hm hast (h := st) (by rw [hs])
  rw [hs] at c1 c2
  have hcls : s.className st = some c.id := by simp only [St.className] ; simp only at c1 c2; rw [c1]; simp [c2]
  refine ⟨c.id, hcls, ?_⟩
  have : ({ s with mgrHandles := s.mgrHandles ++ [none] } : St).className st = some c.id := hcls
  simp only [classes, h1 s st hs, this]

/-- A page with two providers, the second inside the first, and a component outside. -/
def demoEvents : List Event :=
  [ .other (.newMgr (c! "one") none true none),
    .other (.newMgr (c! "two") none true none),
    .mount 0 none,
    .mount 1 none,
    .useStyle .outside (.text (c! "color: red;")) false,
    .rerender 0 0 ]

/-- Non-vacuity: the contexts, the default manager, and the classes at the three places. -/
example : ∃ a, events demoEnv false demoEvents (App.init demoPage) = some a ∧
    given demoEnv false demoEvents (App.init demoPage) [] = [some 0, some 1] ∧ a.isDefault 2 ∧ a.st.mgrOf 0 = some 0 ∧
    (classes demoEnv a (.below 0) (.text (c! "color: red;")) false).map Prod.snd = some (c! "one-style-1") ∧
    (classes demoEnv a (.below 1) (.text (c! "color: red;")) false).map Prod.snd = some (c! "two-style-1") ∧
    (classes demoEnv a .outside (.text (c! "color: red;")) false).map Prod.snd = some (c! "stylist-style-0") := by
  refine ⟨(events demoEnv false demoEvents (App.init demoPage)).getD (App.init []), ?_, ?_, ⟨6, ?_, ?_⟩, ?_, ?_, ?_, ?_⟩ <;>
  decide +kernel

/-! ## C62: children of a hydrated provider -/

theorem events_append {env : Env} {o : Bool} : ∀ (es es' : List Event) {a a1 : App}, events env o es a = some a1 →
    events env o (es ++ es') a = events env o es' a1
  | [], _, _, _, h => by cases h; rfl
  | e :: es, es', a, a1, h => by
    simp only [events, List.cons_append, Option.bind_eq_some_iff] at h ⊢
    obtain ⟨a2, h1, h2⟩ := h
    rw [h1, Option.bind_some]
    exact events_append es es' h2

/-- After the data was loaded. -/
theorem loaded_children {env : Env} {d : Dom} {ops ops' : List Op} {s s2 : St} {a2 : App} {memo i : Nat} {data : List Entry}
    (hrun : s = run env ops (St.init d)) (hmemo : s.mgrOf memo = some i) (hload : step env (.load memo data) s = (s2, .unit))
    {e : Entry} (he : e ∈ data) (h2 : a2.st = run env ops' s2)
    (hun : Along env (fun t op => ¬ Unregisters op t i e.key) ops' s2) (hinv2 : Inv a2.st) {w : Place} {h0 : Nat}
    (hp1 : contextMgr env a2 w = cloneMgr env a2 h0) (hp2 : a2.st.mgrOf h0 = some i) {m : Mgr} (hm : a2.st.mgrs[i]? = some m)
    {src : Source} {ast : Sheet} {fault : Bool} (hsrc : src.sheet? = some ast) (hkey : Kind.scoped.key m.pref ast = e.key) :
    (∃ a3 st, useStyle env a2 w src fault = some (a3, st) ∧ a3.st.className st = some e.id ∧ a3.st.dom = a2.st.dom) ∧
    (∃ a3, classes env a2 w src fault = some (a3, e.id) ∧ a3.st.dom = a2.st.dom) := by
  obtain ⟨st, c1, c2, c3⟩ := C33_loaded_class env d ops ops' s s2 a2.st _ hrun memo h0 i hmemo data hload
    e he h2 hun hp2 m hm .scoped src ast fault hsrc hkey rfl
  have hstep : step env (.create h0 .scoped src fault) a2.st = ((step env (.create h0 .scoped src fault) a2.st).1, .style st) := by
    rw [← c1]
  have f1 := (useStyle_eq hinv2 hp1 hp2 hp2 src fault).1 _ st hstep
  have hcl : ({ (step env (.create h0 .scoped src fault) a2.st).1 with
      mgrHandles := (step env (.create h0 .scoped src fault) a2.st).1.mgrHandles ++ [none] } : St).className st = some e.id := c2
  refine ⟨⟨_, st, f1, c2, c3⟩, ?_⟩
  have f2 : ∃ a3, classes env a2 w src fault = some (a3, e.id) := by
    simp only [classes, f1, hcl]; exact ⟨_, rfl⟩
  obtain ⟨a3, f2⟩ := f2
  exact ⟨a3, f2, ((gives_of_create hinv2 hp1 hp2 hstep c2).2 a3 e.id (Or.inr f2)).2.trans c3⟩

/-- **C62.** A provider is mounted with the data of the server, in any reachable state; then
anything happens except that the style is unregistered. A component at a place where this
manager counts that uses the css of an entry (with the prefix of the manager) gets the class of
that entry, by `use_style` and by `css!`, and the page does not change. -/
theorem C62_children (env : Env) (o : Bool) (d : Dom) (es es' : List Event) (a a1 a2 : App)
    (h : events env o es (App.init d) = some a) (mh i : Nat) (hi : a.st.mgrOf mh = some i) (data : List Entry)
    (h1 : event env o a (.mount mh (some data)) = some a1) (h2 : events env o es' a1 = some a2) (e : Entry) (he : e ∈ data)
    (hun : AlongEvents env o (fun a ev => ¬ Unregs i e.key a ev) es' a1) (w : Place)
    (hw : ManagerAt a2 (given env o (es ++ .mount mh (some data) :: es') (App.init d) []) w i) (m : Mgr)
    (hm : a2.st.mgrs[i]? = some m) (src : Source) (ast : Sheet) (fault : Bool) (hsrc : src.sheet? = some ast)
    (hkey : Kind.scoped.key m.pref ast = e.key) :
    (∃ a3 st, useStyle env a2 w src fault = some (a3, st) ∧ a3.st.className st = some e.id ∧ a3.st.dom = a2.st.dom) ∧
    (∃ a3, classes env a2 w src fault = some (a3, e.id) ∧ a3.st.dom = a2.st.dom) := by
  obtain ⟨hok, -, -, ops, hops, -⟩ := events_ok es (AppOk.init d) h
  have hok1 := event_ok hok h1
  obtain ⟨hok2, -, -, ops2, hops2, hun2⟩ := events_ok es' hok1.1 h2
  have hall : events env o (es ++ .mount mh (some data) :: es') (App.init d) = some a2 := by
    rw [events_append es _ h, events, h1]; exact h2
  obtain ⟨h0, hp1, hp2, -⟩ := place_handle hall hw
  -- The steps of the mount.
  simp only [event, mount] at h1
  split at h1
  · cases h1
  rename_i b1 memo g1
  split at h1
  · cases h1
  rename_i b2 g2
  split at h1
  · cases h1
  rename_i b3 ctx g3
  cases h1
  obtain ⟨i', k1, -, -, k4, k5, -⟩ := cloneMgr_ok g1
  rw [hi] at k1; cases k1
  obtain ⟨opsc, ec, -⟩ := k5
  simp only [load] at g2
  split at g2
  case h_2 => cases g2
  rename_i s2 hload
  cases g2
  obtain ⟨_, -, -, -, -, q5, -⟩ := cloneMgr_ok g3
  obtain ⟨opsd, ed, hund⟩ := q5.along
  simp only at ed hund hops2 hun2
  have hrun : b1.st = run env (ops ++ opsc) (St.init d) := by rw [run_append]; rw [ec, hops]; rfl
  exact loaded_children hrun k4 hload he (ops' := opsd ++ ops2) (by rw [run_append, ← ed, hops2])
    (along_append _ _ (hund i e.key) (ed ▸ hun2 i e.key hun)) hok2.inv hp1 hp2 hm hsrc hkey

/-- **C62**, another manager: a hydrated provider is rendered with another manager. From then
on (until the style is unregistered) the css of an entry has the class of that entry with the
new manager, too. -/
theorem C62_other_manager (env : Env) (o : Bool) (d : Dom) (es es' : List Event) (a a1 a2 : App)
    (h : events env o es (App.init d) = some a) (j : Nat) (p : Prov) (hj : a.provs[j]? = some (some p)) (data : List Entry)
    (hdata : p.data = some data) (mh i : Nat) (hi : a.st.mgrOf mh = some i)
    (hne : (given env o es (App.init d) [])[j]? ≠ some (some i))
    (h1 : event env o a (.rerender j mh) = some a1) (h2 : events env o es' a1 = some a2) (e : Entry) (he : e ∈ data)
    (hun : AlongEvents env o (fun a ev => ¬ Unregs i e.key a ev) es' a1) (w : Place)
    (hw : ManagerAt a2 (given env o (es ++ .rerender j mh :: es') (App.init d) []) w i) (m : Mgr)
    (hm : a2.st.mgrs[i]? = some m) (src : Source) (ast : Sheet) (fault : Bool) (hsrc : src.sheet? = some ast)
    (hkey : Kind.scoped.key m.pref ast = e.key) :
    (∃ a3 st, useStyle env a2 w src fault = some (a3, st) ∧ a3.st.className st = some e.id ∧ a3.st.dom = a2.st.dom) ∧
    (∃ a3, classes env a2 w src fault = some (a3, e.id) ∧ a3.st.dom = a2.st.dom) := by
  obtain ⟨hok, hgv, -, ops, hops, -⟩ := events_ok es (AppOk.init d) h
  rw [show givenOf (App.init d) = [] from rfl] at hgv
  have hok1 := event_ok hok h1
  obtain ⟨hok2, -, -, ops2, hops2, hun2⟩ := events_ok es' hok1.1 h2
  have hall : events env o (es ++ .rerender j mh :: es') (App.init d) = some a2 := by
    rw [events_append es _ h, events, h1]; exact h2
  obtain ⟨h0, hp1, hp2, -⟩ := place_handle hall hw
  obtain ⟨ip, p1, p2⟩ := hok.prov j p hj
  have hne' : ip ≠ i := by
    rintro rfl
    rw [← hgv, givenOf, List.getElem?_map, hj] at hne
    simp [p2] at hne
  -- The steps of the render.
  simp only [event, rerender, hj] at h1
  split at h1
  · cases h1
  rename_i b1 memo g1
  obtain ⟨i', k1, -, -, k4, k5, -⟩ := cloneMgr_ok g1
  rw [hi] at k1; cases k1
  have k7 := k5.mgrOf hok.inv p1 (by simp)
  have k8 := k5.mgrOf hok.inv hi (by simp)
  have hmemo : memo ≠ p.memo := by
    rintro rfl
    rw [k4] at k7; exact hne' (Option.some.inj k7).symm
  rw [if_neg (by rw [k4, k7]; exact fun e => hne' (Option.some.inj e).symm)] at h1
  split at h1
  · cases h1
  rename_i b2 g2
  split at h1
  · cases h1
  rename_i b3 ctx g3
  cases h1
  have q0 : Quiet env (fun x => x = p.memo) b1.st (if o = true then dropMgr env b1 p.memo else b1).st := by
    split
    · exact dropMgr_ok b1 p.memo
    · exact Quiet.refl _
  have q1 : Quiet env (fun x => x = p.memo) a.st (if o = true then dropMgr env b1 p.memo else b1).st :=
    (k5.mono (fun _ h => h.elim)).trans q0
  have k9 := q0.mgrOf (k5.inv hok.inv) k4 (by exact hmemo)
  obtain ⟨opsc, ec, -⟩ := q1
  rw [hdata] at g2
  simp only [load] at g2
  split at g2
  case h_2 => cases g2
  rename_i s2 hload
  cases g2
  obtain ⟨_, -, -, -, -, q5, -⟩ := cloneMgr_ok g3
  have q6 : Quiet env (fun _ => True) s2 (if o = true then { (if o = true then dropMgr env b1 p.memo else b1) with st := s2 }
      else dropMgr env { (if o = true then dropMgr env b1 p.memo else b1) with st := s2 } p.memo).st := by
    split
    · exact Quiet.refl _
    · exact (dropMgr_ok (env := env) { (if o = true then dropMgr env b1 p.memo else b1) with st := s2 } p.memo).mono (fun _ _ => trivial)
  have q7 := q6.trans (q5.mono (fun _ _ => trivial))
  have q8 := q7.trans ((dropMgr_ok (env := env)
    { b3 with provs := b3.provs.set j (some { data := p.data, memo, ctx }) } p.ctx).mono (fun _ _ => trivial))
  obtain ⟨opsd, ed, hund⟩ := q8.along
  have hrun : (if o = true then dropMgr env b1 p.memo else b1).st = run env (ops ++ opsc) (St.init d) := by
    rw [run_append]; rw [ec, hops]; rfl
  exact loaded_children hrun k9 hload he (ops' := opsd ++ ops2) (by rw [run_append, ← ed, hops2])
    (along_append _ _ (hund i e.key) (ed ▸ hun2 i e.key hun)) hok2.inv hp1 hp2 hm hsrc hkey

/-- **C62** with the server. A style is made with a static manager on a server (where no data
was loaded) and gets the class `id`. Later the provider there sends the data of the manager,
stored in any way, serialized and deserialized. A client mounts a provider with it, and
anything happens except that the style is unregistered. The same css, with the same prefix,
then has the class `id` below the provider, and the page does not change. -/
theorem C62_server_to_client
    -- The server.
    (env : Env) (d : Dom) (ops ops' : List Op) (s s1 s2 : St) (hs : s = run env ops (St.init d))
    (mh mh' i l h : Nat) (m : Mgr) (src : Source) (ast : Sheet) (fault : Bool)
    (hi : s.mgrOf mh = some i) (hm : s.mgrs[i]? = some m) (hlog : m.log = some l) (hsrc : src.sheet? = some ast)
    (hload : ∀ mh data, Op.load mh data ∉ ops)
    (h1 : step env (.create mh .scoped src fault) s = (s1, .style h)) (id : Str) (hc : s1.className h = some id)
    (h2 : s2 = run env ops' s1) (out : List Entry) (hi2 : s2.mgrOf mh' = some i)
    (dflt : Option Nat) (ctx : Nat) (hout : collect env { st := s2, dflt, provs := [some ⟨none, mh', ctx⟩] } 0 = some out)
    -- Transport.
    (stored received : List Storage.TEntry) (hst : stored.map Storage.TEntry.erase = out)
    (hrec : Storage.decode (Storage.encData stored) = some received)
    -- The client.
    (env' : Env) (o : Bool) (d' : Dom) (es es' : List Event) (a a1 a2 : App)
    (h' : events env' o es (App.init d') = some a) (ch j : Nat) (hj : a.st.mgrOf ch = some j)
    (h1' : event env' o a (.mount ch (some (received.map Storage.TEntry.erase))) = some a1)
    (h2' : events env' o es' a1 = some a2)
    (hun : AlongEvents env' o (fun a ev => ¬ Unregs j (Kind.scoped.key m.pref ast) a ev) es' a1) (w : Place)
    (hw : ManagerAt a2 (given env' o (es ++ .mount ch (some (received.map Storage.TEntry.erase)) :: es') (App.init d') []) w j)
    (m' : Mgr) (hm' : a2.st.mgrs[j]? = some m') (hpref : m'.pref = m.pref) (src' : Source) (fault' : Bool)
    (hsrc' : src'.sheet? = some ast) :
    (∃ a3 st, useStyle env' a2 w src' fault' = some (a3, st) ∧ a3.st.className st = some id ∧ a3.st.dom = a2.st.dom) ∧
    (∃ a3, classes env' a2 w src' fault' = some (a3, id) ∧ a3.st.dom = a2.st.dom) := by
  have htx : ∃ text, s1.styleText h = some text := by
    simp only [St.className, Option.bind_eq_some_iff, Option.map_eq_some_iff] at hc
    obtain ⟨p, hp, c, hc, -⟩ := hc
    exact ⟨c.text, by simp [St.styleText, hp, hc]⟩
  obtain ⟨text, htx⟩ := htx
  have hout' : (step env (.styleData mh') s2).2 = .data out := by
    simp only [collect, List.getElem?_cons_zero] at hout
    split at hout
    · rename_i es' he
      cases hout; exact he
    · cases hout
  have hmem := recorded env d ops ops' s s1 s2 hs mh i l h m .scoped src ast fault hi hm hlog hsrc hload h1 id text hc htx
    h2 out (Or.inl ⟨mh', hi2, hout'⟩)
  rw [Storage.decode_enc] at hrec
  cases hrec
  rw [← hst] at hmem
  obtain ⟨te, hte, he⟩ := List.mem_map.1 hmem
  have hmem2 : (⟨Kind.scoped.key m.pref ast, id, []⟩ : Entry) ∈
      (stored.map (fun e => (⟨Storage.ownKey e.key, e.id, []⟩ : Storage.TEntry))).map Storage.TEntry.erase := by
    refine List.mem_map.2 ⟨⟨Storage.ownKey te.key, te.id, []⟩, List.mem_map.2 ⟨te, hte, rfl⟩, ?_⟩
    simp only [Storage.TEntry.erase, Entry.mk.injEq] at he
    simp [Storage.TEntry.erase, Storage.eraseKey_own, he.1, he.2.1]
  exact C62_children env' o d' es es' a a1 a2 h' ch j hj _ h1' h2' _ hmem2 hun w hw m' hm' src' ast fault' hsrc'
    (by rw [hpref])

/-- **C62**, later renders: rendering a provider again with the same manager changes nothing
(but for a clone that is made and dropped), whether it was hydrated or not. -/
theorem C62_rerender_same (env : Env) (o : Bool) (d : Dom) (es : List Event) (a : App)
    (h : events env o es (App.init d) = some a) (j i mh : Nat)
    (hj : (given env o es (App.init d) [])[j]? = some (some i)) (hmh : a.st.mgrOf mh = some i) :
    event env o a (.rerender j mh) = some { a with st := { a.st with mgrHandles := a.st.mgrHandles ++ [none] } } := by
  obtain ⟨hok, hg, -⟩ := events_ok es (AppOk.init d) h
  rw [show givenOf (App.init d) = [] from rfl] at hg
  rw [← hg, givenOf, List.getElem?_map] at hj
  cases hp : a.provs[j]? with
  | none => rw [hp] at hj; cases hj
  | some op =>
    rw [hp] at hj
    cases op with
    | none => cases hj
    | some p =>
      simp only [Option.map_some, Option.bind_some, Option.some.injEq] at hj
      obtain ⟨i', p1, p2⟩ := hok.prov j p hp
      rw [hj] at p2; cases p2
      have hlt := mgrOf_lt p1
      have e1 : ({ a.st with mgrHandles := a.st.mgrHandles ++ [some i] } : St).mgrOf a.st.mgrHandles.length = some i := by
        simp [St.mgrOf]
      have e2 : ({ a.st with mgrHandles := a.st.mgrHandles ++ [some i] } : St).mgrOf p.memo = some i := by
        rw [St.mgrOf, List.getElem?_append_left hlt]; exact p1
      simp only [event, rerender, hp, cloneMgr_eq hmh, e1, e2, if_true, dropMgr]
      rw [dropMgr_clone e1 e2 (by omega)]
      simp [withMh]

/-- The demo server's data, in a provider. -/
def demoHydrated : List Event :=
  [ .other (.newMgr (c! "stylist") none true none),
    .mount 0 (some serverData),
    .rerender 0 0,
    .other (.dropMgr 0),
    .classes (.below 0) (.text (c! "color: blue;")) false ]

/-- Non-vacuity: the demo client; the first style of the server had the class
`stylist-style-0` there. -/
example : ∃ a, events demoEnv false demoHydrated (App.init demoPage) = some a ∧
    given demoEnv false demoHydrated (App.init demoPage) [] = [some 0] ∧
    (classes demoEnv a (.below 0) (.text (c! "color: red;")) false).map Prod.snd = serverState.className 0 ∧
    serverState.className 0 = some (c! "stylist-style-0") ∧
    collect serverEnv { st := serverState, dflt := none, provs := [some ⟨none, 0, 0⟩] } 0 = some serverData := by
  refine ⟨(events demoEnv false demoHydrated (App.init demoPage)).getD (App.init []), ?_, ?_, ?_, ?_, ?_⟩ <;>
  decide +kernel

/-- Non-vacuity of `C62_other_manager`: the hydrated provider gets a second manager. -/
example : ∃ a, events demoEnv false (demoHydrated ++ [ .other (.newMgr (c! "stylist") none true none), .rerender 0 5 ])
      (App.init demoPage) = some a ∧
    given demoEnv false demoHydrated (App.init demoPage) [] = [some 0] ∧
    given demoEnv false (demoHydrated ++ [ .other (.newMgr (c! "stylist") none true none), .rerender 0 5 ])
      (App.init demoPage) [] = [some 1] ∧
    (a.provs.map (fun o => o.bind Prov.data)) = [some serverData] ∧
    (classes demoEnv a (.below 0) (.text (c! "color: red;")) false).map Prod.snd = some (c! "stylist-style-0") := by
  refine ⟨(events demoEnv false (demoHydrated ++ [ .other (.newMgr (c! "stylist") none true none), .rerender 0 5 ])
      (App.init demoPage)).getD (App.init []), ?_, ?_, ?_, ?_, ?_⟩ <;>
  decide +kernel

example (i : Nat) (k : Key) :
    AlongEvents demoEnv false (fun a e => ¬ Unregs i k a e) (demoHydrated.drop 2) (App.init demoPage) := by
  have : ∀ (es : List Event) (a : App), (∀ e ∈ es, ∀ h, e ≠ .other (.unregister h)) →
      AlongEvents demoEnv false (fun a e => ¬ Unregs i k a e) es a := by
    intro es
    induction es with
    | nil => intro _ _; trivial
    | cons e es ih =>
      intro a he
      refine ⟨?_, fun a' _ => ih a' (fun e' h' => he e' (by simp [h']))⟩
      rintro ⟨op, rfl, x, _, _, rfl, -⟩
      exact he _ (by simp) x rfl
  exact this _ _ (by simp [demoHydrated])

/-! ## C63: hydrating a provider -/

/-- **C63**, when it panics. Mounting a provider without data never panics. With data it
panics exactly if an entry of the data has another class than the manager has already for the
same key, or than an earlier entry has. -/
theorem C63_panics_iff (env : Env) (o : Bool) (d : Dom) (es : List Event) (a : App)
    (h : events env o es (App.init d) = some a) (mh i : Nat) (hi : a.st.mgrOf mh = some i) (data : List Entry) :
    (∃ a', event env o a (.mount mh none) = some a') ∧
    (event env o a (.mount mh (some data)) = none ↔
      ∃ e ∈ data, firstId (a.st.registeredId i) data e.key ≠ some e.id) := by
  obtain ⟨hok, -, -, ops, hops, -⟩ := events_ok es (AppOk.init d) h
  have hrun : withMh (a.st.mgrHandles ++ [some i]) a.st = run env (ops ++ [.cloneMgr mh]) (St.init d) := by
    rw [run_append, show St.init d = (App.init d).st from rfl, ← hops]
    simp only [run, step, hi, withMh]
  have e1 : (withMh (a.st.mgrHandles ++ [some i]) a.st).mgrOf a.st.mgrHandles.length = some i := by simp [withMh, St.mgrOf]
  have e2 : (withMh (a.st.mgrHandles ++ [some i]) a.st).mgrOf mh = some i := by
    rw [St.mgrOf, withMh, List.getElem?_append_left (mgrOf_lt hi)]; exact hi
  have hc := cloneMgr_eq (env := env) (a := a) hi
  have hinv : Inv (withMh (a.st.mgrHandles ++ [some i]) a.st) := hrun ▸ inv_run env _ (Inv.init d)
  constructor
  · simp only [event, mount, hc, load]
    have := cloneMgr_eq (env := env) (a := { a with st := withMh (a.st.mgrHandles ++ [some i]) a.st }) e2
    simp only [withMh] at this
    rw [this]
    exact ⟨_, rfl⟩
  · have hr : (withMh (a.st.mgrHandles ++ [some i]) a.st).registeredId i = a.st.registeredId i := rfl
    obtain ⟨c1, c2⟩ := C35_panics_iff_conflict env d _ _ hrun _ i e1 data
    rw [hr] at c1 c2
    have e3 := mgrOf_step (env := env) (op := .load a.st.mgrHandles.length data) hinv e2 (by simp)
    simp only [event, mount, hc, load]
    simp only [withMh] at c1 c2 e3
    generalize step env (.load a.st.mgrHandles.length data)
      { a.st with mgrHandles := a.st.mgrHandles ++ [some i] } = r at c1 c2 e3
    obtain ⟨r1, r2⟩ := r
    simp only at c1 c2 e3
    by_cases hu : r2 = .unit
    · subst hu
      have := cloneMgr_eq (env := env) (a := { a with st := r1 }) e3
      simp only [this]
      constructor
      · intro h; cases h
      · rintro ⟨e, he, h1⟩
        exact absurd (c2.1 rfl e he) h1
    · have hn : ¬ ∀ e ∈ data, firstId (a.st.registeredId i) data e.key = some e.id := fun h => hu (c2.2 h)
      have hr2 : ∃ e ∈ data, firstId (a.st.registeredId i) data e.key ≠ some e.id :=
        Classical.byContradiction fun h => hn fun e he => Classical.byContradiction fun h' => h ⟨e, he, h'⟩
      refine ⟨fun _ => hr2, fun _ => ?_⟩
      have := c1.2 hr2
      subst this
      rfl

/-- **C63 is false**: a client that has made a style with the manager before the provider is
hydrated (for instance outside of the provider, with a manager that is shared) panics. -/
theorem C63_false :
    collect serverEnv { st := serverState, dflt := none, provs := [some ⟨none, 0, 0⟩] } 0 = some serverData ∧
    ∃ a, events demoEnv false [ .other (.newMgr (c! "stylist") none true none),
        .other (.create 0 .scoped (.text (c! "color: blue;")) false),
        .other (.create 0 .scoped (.sheet demoRed) false) ] (App.init demoPage) = some a ∧
      event demoEnv false a (.mount 0 (some serverData)) = none := by
  refine ⟨by decide +kernel, (events demoEnv false [ .other (.newMgr (c! "stylist") none true none),
        .other (.create 0 .scoped (.text (c! "color: blue;")) false),
        .other (.create 0 .scoped (.sheet demoRed) false) ] (App.init demoPage)).getD (App.init []), ?_, ?_⟩ <;> decide +kernel

/-- **C63**, the part that holds: if the server unregisters no style of the manager, its data
hydrates a provider whose manager has no style yet. Missing: servers that unregister, and
managers that already have styles; both can panic (`C58_false_unregister`, `C63_false`). -/
theorem C63_fresh_partial (env : Env) (d : Dom) (ops : List Op) (s : St) (hs : s = run env ops (St.init d))
    (mh i l : Nat) (m : Mgr) (hi : s.mgrOf mh = some i) (hm : s.mgrs[i]? = some m) (hlog : m.log = some l)
    (hu : Along env (fun t op => ∀ k, ¬ Unregisters op t i k) ops (St.init d)) (out : List Entry)
    (dflt : Option Nat) (ctx : Nat) (hout : collect env { st := s, dflt, provs := [some ⟨none, mh, ctx⟩] } 0 = some out)
    (env' : Env) (o : Bool) (d' : Dom) (es : List Event) (a : App) (h : events env' o es (App.init d') = some a)
    (ch j : Nat) (hj : a.st.mgrOf ch = some j) (hfresh : ∀ k, a.st.registeredId j k = none) :
    ∃ a', event env' o a (.mount ch (some out)) = some a' := by
  have hout' : (step env (.styleData mh) s).2 = .data out := by
    simp only [collect, List.getElem?_cons_zero] at hout
    split at hout
    · rename_i es' he
      cases hout; exact he
    · cases hout
  obtain ⟨hok, -, -, cops, hcops, -⟩ := events_ok es (AppOk.init d') h
  obtain ⟨m', hm'⟩ := mgrOf_get hok.inv hj
  have hempty : m'.reg = [] := by
    cases hr : m'.reg with
    | nil => rfl
    | cons x xs =>
      have := hfresh x.1
      rw [registeredId_eq hm', hr] at this
      have hlt : x.2 < a.st.heap.length := hok.inv.reg_lt (List.mem_of_getElem? hm') (by rw [hr]; simp)
      have hg : regGet (x :: xs) x.1 = some x.2 := by simp [regGet]
      rw [hg, Option.bind_some, List.getElem?_eq_getElem hlt] at this
      cases this
  have hx := (C63_panics_iff env' o d' es a h ch j hj out).2
  cases he : event env' o a (.mount ch (some out)) with
  | some a' => exact ⟨a', rfl⟩
  | none =>
    obtain ⟨e, he1, he2⟩ := hx.1 he
    have hl := C58_loads_partial env d ops s hs mh i l m hi hm hlog hu out hout' env' d' cops a.st hcops ch j m' hj hm' hempty
    exact absurd ((C35_panics_iff_conflict env' d' cops a.st hcops ch j hj out).2.1 hl e he1) he2

/-! ## C64: one default manager -/

/-- **C64.** Once there is a default manager it is the default manager for ever, whatever
happens (also if all other handles are dropped and all providers go): it has the prefix
`stylist`, writes to the page in order and to no storage, `StyleManager::default()` always
gives a handle to it and changes nothing else. -/
theorem C64_default_stays (env : Env) (o : Bool) (d : Dom) (es es' : List Event) (a a' : App)
    (h : events env o es (App.init d) = some a) (h' : events env o es' a = some a') (i : Nat) (hi : a.isDefault i) :
    a'.isDefault i ∧ (∀ j, a'.isDefault j → j = i) ∧
    (∃ m, a'.st.mgrs[i]? = some m ∧ m.pref = c! "stylist" ∧ m.append = true ∧ m.log = none) ∧
    (∃ mh, defaultMgr env a' = some ({ a' with st := { a'.st with mgrHandles := a'.st.mgrHandles ++ [some i] } }, mh) ∧
      mh = a'.st.mgrHandles.length) := by
  obtain ⟨hok, -⟩ := events_ok es (AppOk.init d) h
  obtain ⟨hok', -, hd, -⟩ := events_ok es' hok h'
  obtain ⟨mh, h1, h2⟩ := hi
  obtain ⟨h3, h4⟩ := hd mh h1
  rw [h2] at h4
  obtain ⟨i', m, k1, k2, k3⟩ := hok'.dflt mh h3
  rw [h4] at k1; cases k1
  refine ⟨⟨mh, h3, h4⟩, ?_, ⟨m, k2, k3⟩, _, ?_, rfl⟩
  · rintro j ⟨mh', g1, g2⟩
    rw [h3] at g1; cases g1
    rw [h4] at g2; exact (Option.some.inj g2).symm
  · have : defaultMgr env a' = cloneMgr env a' mh := by simp [defaultMgr, h3]
    rw [this]
    exact cloneMgr_eq h4

/-- **C64**, the first use makes it: a call of `StyleManager::default()` that does not panic
leaves a default manager, and the handle it gives is one of it. So do `use_style` and `css!`
outside of providers. -/
theorem C64_first_use (env : Env) (o : Bool) (d : Dom) (es : List Event) (a : App)
    (h : events env o es (App.init d) = some a) :
    (∀ a' mh, defaultMgr env a = some (a', mh) → ∃ i, a'.isDefault i ∧ a'.st.mgrOf mh = some i) ∧
    (∀ src fault a' cls, Gives env a .outside src fault a' cls → ∃ i, a'.isDefault i) := by
  obtain ⟨hok, -⟩ := events_ok es (AppOk.init d) h
  constructor
  · intro a' mh hd
    obtain ⟨-, -, ⟨h0, i, h1, h2, h3⟩, -⟩ := defaultMgr_ok hok hd
    exact ⟨i, ⟨h0, h1, h2⟩, h3⟩
  · intro src fault a' cls hg
    have aux : ∀ a2 st, useStyle env a .outside src fault = some (a2, st) → ∃ x, a2.dflt = some x := by
      intro a2 st hu
      simp only [useStyle] at hu
      split at hu
      · cases hu
      rename_i a1 mh h1
      obtain ⟨-, -, ⟨h0, i, h2, -⟩, -⟩ := defaultMgr_ok hok h1
      split at hu
      · cases hu; exact ⟨h0, h2⟩
      · cases hu
    have : ∃ x, a'.dflt = some x := by
      rcases hg with ⟨st, hu, -⟩ | hc
      · exact aux a' st hu
      · simp only [classes] at hc
        split at hc
        · cases hc
        rename_i a2 st hu
        split at hc
        · cases hc
        cases hc
        exact aux a2 st hu
    obtain ⟨x, hx⟩ := this
    obtain ⟨i, -, h1, -⟩ := (gives_ops hok hg).1.ok.dflt x hx
    exact ⟨i, x, hx, h1⟩

/-- **C64**, same css, same class. A component gets a class for some css; then anything
happens except that the style is unregistered; another component, at a place with the same
manager (below the same provider, below another one that was given the same manager, or both
outside), uses a css with the same meaning. It gets the same class and the page does not
change. -/
theorem C64_same_class (env : Env) (o : Bool) (d : Dom) (es es' : List Event) (a a1 a2 : App)
    (h : events env o es (App.init d) = some a) (w w' : Place) (src src' : Source) (fault fault' : Bool) (cls : Str)
    (h1 : Gives env a w src fault a1 cls) (h2 : events env o es' a1 = some a2) (i : Nat)
    (hw : ManagerAt a1 (given env o es (App.init d) []) w i)
    (hw' : ManagerAt a2 (given env o es' a1 (given env o es (App.init d) [])) w' i)
    (m : Mgr) (hm : a2.st.mgrs[i]? = some m) (ast : Sheet) (hsrc : src.sheet? = some ast) (hsrc' : src'.sheet? = some ast)
    (hun : AlongEvents env o (fun a ev => ¬ Unregs i (Kind.scoped.key m.pref ast) a ev) es' a1) :
    (∃ a3, Gives env a2 w' src' fault' a3 cls) ∧
    (∀ a3 cls', Gives env a2 w' src' fault' a3 cls' → cls' = cls ∧ a3.st.dom = a2.st.dom) := by
  obtain ⟨hok, hg, -, ops, hops, -⟩ := events_ok es (AppOk.init d) h
  rw [show givenOf (App.init d) = [] from rfl] at hg
  obtain ⟨hk, t, u, mh, st, i', rest, c1, c2, c3, c4, c5, c6, c7⟩ := gives_ops hok h1
  have hg1 := hk.given
  rw [← hg, ← hg1] at hw
  have := c7 i hw
  subst this
  obtain ⟨hok2, hg2, -, ops2, hops2, hun2⟩ := events_ok es' hk.ok h2
  have hw2 : ManagerAt a2 (givenOf a2) w' i := by rw [hg2, hg1, hg]; exact hw'
  have hti := c1.inv hok.inv
  obtain ⟨m0, hm0⟩ := mgrOf_get hti c2
  have hrunu : u = (step env (.create mh .scoped src fault) t).1 := by rw [c3]
  have hui : Inv u := hrunu ▸ inv_step env _ hti
  have hrun2 : a2.st = run env (rest ++ ops2) u := by rw [run_append, ← c5, hops2]
  obtain ⟨m1, k1, k2⟩ := mgr_run env (.create mh .scoped src fault :: (rest ++ ops2)) hti hm0
  have e0 : run env (.create mh .scoped src fault :: (rest ++ ops2)) t = a2.st := by
    rw [run, c3]; exact hrun2.symm
  rw [e0, hm] at k1; cases k1
  have hpref : m0.pref = m.pref := k2.1.symm
  have halong : Along env (fun t op => ¬ Unregisters op t i (Kind.scoped.key m0.pref ast)) (rest ++ ops2) u := by
    rw [hpref]
    exact along_append _ _ (c6 _ _) (c5 ▸ hun2 _ _ hun)
  obtain ⟨h0, p1, p2, -⟩ := place_handle_ok (env := env) hw2
  have htrun : t = run env (ops ++ c1.choose) (St.init d) := by
    rw [run_append, show St.init d = (App.init d).st from rfl, ← hops]; exact c1.choose_spec.1
  obtain ⟨st', f1, ⟨id, text, f2, f3, -⟩, f4⟩ := C20_same_class env d (ops ++ c1.choose) (rest ++ ops2) mh h0 i st .scoped .scoped
    src src' fault fault' m0 ast ast t u a2.st _ htrun c2 hm0 hsrc c3 hrun2 halong p2 hsrc' rfl rfl
  rw [c4] at f2; cases f2
  obtain ⟨g1, g2⟩ := gives_of_create (src := src') (fault := fault') hok2.inv p1 p2 (by rw [← f1]) f3
  rw [f4] at g2
  exact ⟨g1, g2⟩

/-- Non-vacuity: outside of providers, with the default manager. -/
example : ∃ a a1 a2 st, events demoEnv false demoEvents (App.init demoPage) = some a ∧
    useStyle demoEnv a .outside (.text (c! "color: blue;")) false = some (a1, st) ∧ a1.isDefault 2 ∧
    events demoEnv false [.unmount 0, .other (.drop st), .default] a1 = some a2 ∧ a2.isDefault 2 ∧
    (classes demoEnv a2 .outside (.text (c! "color:blue;")) true).map Prod.snd = a1.st.className st ∧
    a1.st.className st = some (c! "stylist-style-1") := by
  let a := (events demoEnv false demoEvents (App.init demoPage)).getD (App.init [])
  let r := (useStyle demoEnv a .outside (.text (c! "color: blue;")) false).getD (App.init [], 0)
  let a2 := (events demoEnv false [.unmount 0, .other (.drop r.2), .default] r.1).getD (App.init [])
  refine ⟨a, r.1, a2, r.2, ?_, ?_, ⟨6, ?_, ?_⟩, ?_, ⟨6, ?_, ?_⟩, ?_, ?_⟩ <;> decide +kernel

/-! ## C65: a class from `css!` stays styled -/

/-- **C65.** In the browser, a component gets a class from `css!` (whose `Style` is dropped at
once) or from `use_style`. As long as the manager it was made with is that of some place (its
provider is mounted, or it is the default manager) and the style is not unregistered, whatever
else happens, the page has exactly one element for this class, the one with its css. (As in
C22: ids are css identifiers and unique, the container is in the page, and no other code uses
the id.) -/
theorem C65_stays_styled (env : Env) (hwasm : env.wasm = true) (o : Bool) (d : Dom) (es es' : List Event) (a a1 a2 : App)
    (h : events env o es (App.init d) = some a) (w w' : Place) (src : Source) (fault : Bool) (cls : Str)
    (h1 : Gives env a w src fault a1 cls) (h2 : events env o es' a1 = some a2) (i : Nat)
    (hw : ManagerAt a1 (given env o es (App.init d) []) w i)
    (hw' : ManagerAt a2 (given env o es' a1 (given env o es (App.init d) [])) w' i)
    (m : Mgr) (hm : a2.st.mgrs[i]? = some m) (ast : Sheet) (hsrc : src.sheet? = some ast)
    (hun : AlongEvents env o (fun a ev => ¬ Unregs i (Kind.scoped.key m.pref ast) a ev) es' a1)
    (hid : ∀ c ∈ a2.st.heap, cssIdent c.id = true) (hn : (a2.st.heap.map Content.id).Nodup) :
    ∃ c ∈ a2.st.heap, c.id = cls ∧ c.key = Kind.scoped.key m.pref ast ∧ c.mgr = i ∧
      ∀ n, Mounts a2.st c n → Attached d n → withId cls d.inDoc = [] → withId cls a2.st.dom.inDoc = [c.element] := by
  obtain ⟨hok, hg, -, ops, hops, -⟩ := events_ok es (AppOk.init d) h
  rw [show givenOf (App.init d) = [] from rfl] at hg
  obtain ⟨hk, t, u, mh, st, i', rest, c1, c2, c3, c4, c5, c6, c7⟩ := gives_ops hok h1
  have hg1 := hk.given
  rw [← hg, ← hg1] at hw
  have := c7 i hw
  subst this
  obtain ⟨hok2, hg2, -, ops2, hops2, hun2⟩ := events_ok es' hk.ok h2
  have hw2 : ManagerAt a2 (givenOf a2) w' i := by rw [hg2, hg1, hg]; exact hw'
  have hti := c1.inv hok.inv
  obtain ⟨m0, hm0⟩ := mgrOf_get hti c2
  have hrunu : u = (step env (.create mh .scoped src fault) t).1 := by rw [c3]
  have hui : Inv u := hrunu ▸ inv_step env _ hti
  have hrun2 : a2.st = run env (rest ++ ops2) u := by rw [run_append, ← c5, hops2]
  obtain ⟨m1, k1, k2⟩ := mgr_run env (.create mh .scoped src fault :: (rest ++ ops2)) hti hm0
  have e0 : run env (.create mh .scoped src fault :: (rest ++ ops2)) t = a2.st := by
    rw [run, c3]; exact hrun2.symm
  rw [e0, hm] at k1; cases k1
  have hpref : m0.pref = m.pref := k2.1.symm
  have halong : Along env (fun t op => ¬ Unregisters op t i (Kind.scoped.key m0.pref ast)) (rest ++ ops2) u := by
    rw [hpref]
    exact along_append _ _ (c6 _ _) (c5 ▸ hun2 _ _ hun)
  obtain ⟨h0, p1, p2, -⟩ := place_handle_ok (env := env) hw2
  have htrun : t = run env (ops ++ c1.choose) (St.init d) := by
    rw [run_append, show St.init d = (App.init d).st from rfl, ← hops]; exact c1.choose_spec.1
  obtain ⟨p, c, m', g1, g2, g3, -, g5, g6, g7⟩ := create_style hti c2 hm0 hsrc (h := st) (by rw [c3])
  rw [c3] at g1 g2
  simp only at g1 g2
  have hc2 : a2.st.heap[p]? = some c := by rw [hrun2]; exact heap_get_run env _ hui g2
  have hcid : c.id = cls := by
    simp only [St.className, g1, Option.bind_some, g2, Option.map_some, Option.some.injEq] at c4
    exact c4
  refine ⟨c, List.mem_of_getElem? hc2, hcid, by rw [g6, hpref], g7, ?_⟩
  intro n hmt ha hb
  rw [← hcid] at hb ⊢
  exact C23_registered_stays env hwasm d _ (rest ++ ops2) t u a2.st htrun mh st p n i .scoped src fault m0 ast c c2 hm0 hsrc c3 g1 g2
    hrun2 (by rw [g6]; exact halong) (mgrOf_mem p2) hid hn hmt ha hb

/-- A client whose only handle of the manager is that of the provider. -/
def demoClient : List Event :=
  [ .other (.newMgr (c! "one") none true none), .mount 0 none, .other (.dropMgr 0) ]

/-- Non-vacuity: the conditions hold, also after other styles and a new render. -/
example : ∃ a a1 a2, events demoEnv false demoClient (App.init demoPage) = some a ∧
    classes demoEnv a (.below 0) (.text (c! "color: red;")) false = some (a1, c! "one-style-0") ∧
    events demoEnv false [ .classes (.below 0) (.text (c! "color: blue;")) false,
      .classes .outside (.text (c! "color: red;")) false ] a1 = some a2 ∧
    given demoEnv false demoClient (App.init demoPage) [] = [some 0] ∧
    (∀ c ∈ a2.st.heap, cssIdent c.id = true) ∧ (a2.st.heap.map Content.id).Nodup ∧
    a2.st.heap.map Content.id = [c! "one-style-0", c! "one-style-1", c! "stylist-style-2"] ∧
    (withId (c! "one-style-0") a2.st.dom.inDoc).length = 1 := by
  let a := (events demoEnv false demoClient (App.init demoPage)).getD (App.init [])
  let a1 := ((classes demoEnv a (.below 0) (.text (c! "color: red;")) false).getD (App.init [], [])).1
  let a2 := (events demoEnv false [ .classes (.below 0) (.text (c! "color: blue;")) false,
      .classes .outside (.text (c! "color: red;")) false ] a1).getD (App.init [])
  refine ⟨a, a1, a2, ?_, ?_, ?_, ?_, ?_, ?_, ?_, ?_⟩ <;> decide +kernel

/-- **C65**, the limit: when the last provider with this manager goes, and nobody else has a
handle of it, the element goes, although the class may still be in use somewhere. -/
theorem C65_limit_unmount :
    ∃ a a1 a2, events demoEnv false demoClient (App.init demoPage) = some a ∧
      classes demoEnv a (.below 0) (.text (c! "color: red;")) false = some (a1, c! "one-style-0") ∧
      events demoEnv false [.unmount 0] a1 = some a2 ∧
      (withId (c! "one-style-0") a1.st.dom.inDoc).length = 1 ∧ withId (c! "one-style-0") a2.st.dom.inDoc = [] := by
  let a := (events demoEnv false demoClient (App.init demoPage)).getD (App.init [])
  let a1 := ((classes demoEnv a (.below 0) (.text (c! "color: red;")) false).getD (App.init [], [])).1
  let a2 := (events demoEnv false [.unmount 0] a1).getD (App.init [])
  refine ⟨a, a1, a2, ?_, ?_, ?_, ?_, ?_⟩ <;> decide +kernel

end Context
