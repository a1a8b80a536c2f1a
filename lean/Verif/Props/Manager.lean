import Verif.Proofs.Order
import Verif.Proofs.Entropy

/-!
# Properties of managers and styles

C20 – C31 and C37. A reachable state is `run env ops (St.init d)`: any history of
operations of the public API, on any number of managers, on a page that was `d` before.
-/

namespace Manager

instance (s : St) (p : Nat) : Decidable (s.Alive p) := decidable_of_iff _ alive_iff.symm

/-! ## A concrete history, for the examples -/

/-- A browser, without `debug_parser`, with counter entropy; `<head>` is container 0. -/
def demoEnv : Env :=
  { wasm := true, debugParser := false, entropy := counterEntropy, head := some 0, oddQuery := fun _ _ => none }

/-- Two containers in the document, one with some node in it. -/
def demoPage : Dom := [⟨true, [.other 7]⟩, ⟨true, []⟩]

/-- `color: red;` -/
def demoRed : Sheet := [.block [] [.attr (c! "color") [c! "red"]]]

/-- Two managers; manager 0 creates a scoped style twice and a global style. -/
def demoOps : List Op :=
  [ .newMgr (c! "stylist") none true none,
    .newMgr (c! "app") (some 1) true none,
    .create 0 .scoped (.text (c! "color: red;")) false,
    .create 1 .scoped (.sheet demoRed) false,
    .create 0 .global (.sheet demoRed) false,
    .clone 0,
    .page 0 [.other 1, .style (c! "stylist-style-0") (c! ".stylist-style-0 {\n    color: red;\n}\n"), .other 2,
      .style (c! "stylist-global-style-2") (c! ":root {\n    color: red;\n}\n")] ]

/-- The state after it. -/
def demoState : St := run demoEnv demoOps (St.init demoPage)

/-! ## C20: same css, same class -/

/-- **C20.** A style is created in any reachable state; then anything happens except that
this style is unregistered; then it is created again (through any clone of the manager,
from any source that parses to the same sheet, with the same kind and prefix). The second
creation succeeds, gives the same class name and the same text, and does not touch the
page. -/
theorem C20_same_class (env : Env) (d : Dom) (ops ops' : List Op) (mh mh' i h : Nat) (kind kind' : Kind)
    (src src' : Source) (fault fault' : Bool) (m : Mgr) (ast ast' : Sheet) (s s1 s2 s3 : St)
    (hs : s = run env ops (St.init d)) (hi : s.mgrOf mh = some i) (hm : s.mgrs[i]? = some m)
    (hsrc : src.sheet? = some ast)
    (h1 : step env (.create mh kind src fault) s = (s1, .style h))
    (h2 : s2 = run env ops' s1)
    (hun : Along env (fun t op => ¬ Unregisters op t i (kind.key m.pref ast)) ops' s1)
    (hi2 : s2.mgrOf mh' = some i) (hsrc' : src'.sheet? = some ast')
    (hkey : kind'.key m.pref ast' = kind.key m.pref ast)
    (h3 : s3 = (step env (.create mh' kind' src' fault') s2).1) :
    ∃ h', (step env (.create mh' kind' src' fault') s2).2 = .style h' ∧
      (∃ id text, s1.className h = some id ∧ s3.className h' = some id ∧
        s1.styleText h = some text ∧ s3.styleText h' = some text) ∧
      s3.dom = s2.dom := by
  subst hs h2 h3
  have hinv := inv_run env ops (Inv.init d)
  have hinv1 := inv_step env (.create mh kind src fault) hinv
  obtain ⟨p, c, m', a1, a2, a3, a4, a5, -, -⟩ := create_style hinv hi hm hsrc (h := h) (by rw [h1])
  rw [h1] at hinv1 a1 a2 a3
  simp only at hinv1 a1 a2 a3
  have hinv2 := inv_run env ops' hinv1
  obtain ⟨m2, b1, b2, b3⟩ := reg_run env ops' hinv1 a3 a5 hun (mgrOf_mem hi2)
  have hpref : m2.pref = m.pref := b2.1.trans a4.1
  have hhit := create_hit env hinv2 (kind := kind') fault' hi2 b1 hsrc' (by rw [hpref, hkey]; exact b3)
  have hc2 := heap_get_run env ops' hinv1 a2
  rw [hhit]
  refine ⟨_, rfl, ⟨c.id, c.text, ?_, ?_, ?_, ?_⟩, rfl⟩
  · simp [St.className, a1, a2]
  · simp [St.className, St.contentOf, hc2]
  · simp [St.styleText, a1, a2]
  · simp [St.styleText, St.contentOf, hc2]

/-- Non-vacuity: the text and the sheet denote the same style; in between a style of
another manager is unregistered and all handles are dropped. -/
example : ∃ h', (step demoEnv (.create 0 .scoped (.sheet demoRed) false)
      (run demoEnv [.create 1 .scoped (.sheet demoRed) false, .unregister 1, .drop 0, .drop 1]
        (step demoEnv (.create 0 .scoped (.text (c! "color: red;")) false)
          (run demoEnv (demoOps.take 2) (St.init demoPage))).1)).2 = .style h' := by
  have := C20_same_class demoEnv demoPage (demoOps.take 2)
    [.create 1 .scoped (.sheet demoRed) false, .unregister 1, .drop 0, .drop 1] 0 0 0 0 .scoped .scoped
    (.text (c! "color: red;")) (.sheet demoRed) false false
    { pref := c! "stylist", container := some 0, append := true, log := none, reg := [], borrowed := false }
    demoRed demoRed _ _ _ _ rfl (by decide) (by decide) (by decide)
    (Prod.ext rfl (by decide)) rfl ?_ (by decide) rfl rfl rfl
  · obtain ⟨h', hh, -⟩ := this
    exact ⟨h', hh⟩
  · refine ⟨?_, ?_, ?_, ?_, trivial⟩
    · rintro ⟨h, p, c, h1, -⟩; cases h1
    · rintro ⟨h, p, c, h1, h2, h3, h4, -⟩
      cases h1
      have e1 : p = 1 := by
        have : some 1 = some p := by rw [← h2]; decide
        cases this; rfl
      subst e1
      have : (some 1 : Option Nat) = some c.mgr := by
        rw [← Option.map_some (f := Content.mgr) (a := c), ← h3]; decide
      rw [h4] at this
      cases this
    · rintro ⟨h, p, c, h1, -⟩; cases h1
    · rintro ⟨h, p, c, h1, -⟩; cases h1

/-! ## C21: different styles get different classes -/

/-- Ids are distinct as soon as the entropy strings differ after their last `-`. -/
theorem distinct_ids (env : Env) (d : Dom) (ops : List Op) (s : St) (hs : s = run env ops (St.init d))
    (hent : ∀ a b, a < s.ctr → b < s.ctr → ∀ k k' : Key,
      makeId k (env.entropy a) = makeId k' (env.entropy b) → a = b)
    {p q : Nat} {c c' : Content} (hp : s.heap[p]? = some c) (hq : s.heap[q]? = some c')
    (ho : c.origin = .created) (ho' : c'.origin = .created) (hid : c.id = c'.id) : p = q := by
  subst hs
  obtain ⟨num, hn⟩ := numbered_run env ops (Inv.init d) (numbered_init env d)
  obtain ⟨a1, a2⟩ := hn.id p c hp ho
  obtain ⟨b1, b2⟩ := hn.id q c' hq ho'
  have := hent _ _ a1 b1 c.key c'.key (by rw [← a2, ← b2, hid])
  rcases Nat.lt_trichotomy p q with h | h | h
  · have := hn.inj p q c c' hp ho hq ho' h; omega
  · exact h
  · have := hn.inj q p c' c hq ho' hp ho h; omega

/-- **C21.** As long as the counter has not wrapped or, with the feature `random`, the strings
drawn so far are different, two styles ever created in a process (alive or not, by any managers,
with any prefixes, scoped or global) that have the same id are the same style. -/
theorem C21_distinct_classes (env : Env) (d : Dom) (ops : List Op) (s : St)
    (hs : s = run env ops (St.init d)) (hids : FreshIds env s.ctr) (p q : Nat) (c c' : Content)
    (hp : s.heap[p]? = some c) (hq : s.heap[q]? = some c') (ho : c.origin = .created) (ho' : c'.origin = .created)
    (hid : c.id = c'.id) : p = q := by
  exact distinct_ids env d ops s hs (fun a b ha hb k k' h => hids.inj ha hb h) hp hq ho ho' hid

/-- An instance: the only style with the class of the third one is the third one. -/
example : ∀ q c', demoState.heap[q]? = some c' → c'.origin = .created → c'.id = c! "stylist-global-style-2" → 2 = q :=
  fun q c' hq ho' hid => C21_distinct_classes demoEnv demoPage demoOps demoState rfl (freshIds_counter rfl (by decide)) 2 q _ c' rfl hq rfl ho' hid.symm

/-- **C21** for handles: handles of created styles with the same class name were given
the same kind, prefix and sheet by the same manager. -/
theorem C21_class_determines_style (env : Env) (d : Dom) (ops : List Op)
    (s : St) (hs : s = run env ops (St.init d)) (hids : FreshIds env s.ctr) (h h' p p' : Nat) (c c' : Content)
    (hp : s.contentOf h = some p) (hp' : s.contentOf h' = some p')
    (hc : s.heap[p]? = some c) (hc' : s.heap[p']? = some c') (ho : c.origin = .created) (ho' : c'.origin = .created)
    (hcls : s.className h = s.className h') : c.key = c'.key ∧ c.mgr = c'.mgr := by
  have hid : c.id = c'.id := by
    simpa [St.className, hp, hp', hc, hc'] using hcls
  have := C21_distinct_classes env d ops s hs hids p p' c c' hc hc' ho ho' hid
  subst this
  rw [hc] at hc'; cases hc'
  exact ⟨rfl, rfl⟩

/-- A style made in a history without loading. -/
theorem create_created (env : Env) (d : Dom) (ops : List Op) (s s1 : St) (hs : s = run env ops (St.init d))
    (hload : ∀ mh data, Op.load mh data ∉ ops) (mh h i : Nat) (kind : Kind) (src : Source) (fault : Bool) (m : Mgr)
    (ast : Sheet) (hi : s.mgrOf mh = some i) (hm : s.mgrs[i]? = some m) (hsrc : src.sheet? = some ast)
    (h1 : step env (.create mh kind src fault) s = (s1, .style h)) :
    ∃ p c, s1.contentOf h = some p ∧ s1.heap[p]? = some c ∧ c.origin = .created ∧ c.mgr = i ∧
      c.key = ⟨kind.forPage, kind.prefixOr m.pref, ast⟩ := by
  have hinv : Inv s := hs ▸ inv_run env ops (Inv.init d)
  obtain ⟨p, c, m', a1, a2, -, -, -, a6, a7⟩ := create_style hinv hi hm hsrc (h := h) (by rw [h1])
  rw [h1] at a1 a2
  simp only at a1 a2
  refine ⟨p, c, a1, a2, ?_, a7, ?_⟩
  · cases ho : c.origin with
    | created => rfl
    | hydrated =>
      have := hydrated_run env (ops ++ [.create mh kind src fault]) (Inv.init d) c
        (by rw [run_append, ← hs, run, run, h1]; exact List.mem_of_getElem? a2) ho
      rcases this with h | ⟨mh', data, e, h3, -⟩
      · simp [St.init] at h
      · rcases List.mem_append.1 h3 with h3 | h3
        · exact absurd h3 (hload mh' data)
        · simp at h3
  · rw [a6]
    cases kind <;> rfl

/-- **C21** for two calls, at any time in any history in which nothing is loaded: if they give
the same class then they have the same manager, the same prefix and the same css, and both or
none are global. -/
theorem C21_calls (env : Env) (d : Dom) (ops ops' : List Op) (s s1 s2 s3 : St)
    (hs : s = run env ops (St.init d)) (hload : ∀ mh data, Op.load mh data ∉ ops ++ ops')
    (mh i h : Nat) (kind : Kind) (src : Source) (fault : Bool) (m : Mgr) (ast : Sheet) (hi : s.mgrOf mh = some i)
    (hm : s.mgrs[i]? = some m) (hsrc : src.sheet? = some ast)
    (h1 : step env (.create mh kind src fault) s = (s1, .style h)) (h2 : s2 = run env ops' s1)
    (mh' i' h' : Nat) (kind' : Kind) (src' : Source) (fault' : Bool) (m' : Mgr) (ast' : Sheet) (hi' : s2.mgrOf mh' = some i')
    (hm' : s2.mgrs[i']? = some m') (hsrc' : src'.sheet? = some ast')
    (h3 : step env (.create mh' kind' src' fault') s2 = (s3, .style h')) (hids : FreshIds env s3.ctr) (cls : Str)
    (hc : s1.className h = some cls) (hc' : s3.className h' = some cls) :
    i = i' ∧ kind.prefixOr m.pref = kind'.prefixOr m'.pref ∧ ast = ast' ∧ kind.forPage = kind'.forPage := by
  have hinv : Inv s := hs ▸ inv_run env ops (Inv.init d)
  have hs1 : s1 = (step env (.create mh kind src fault) s).1 := by rw [h1]
  have hinv1 : Inv s1 := hs1 ▸ inv_step env _ hinv
  have hs2 : s2 = run env (ops ++ .create mh kind src fault :: ops') (St.init d) := by
    rw [run_append, ← hs, run, h1, h2]
  have hs3 : s3 = run env (ops' ++ [.create mh' kind' src' fault']) s1 := by
    rw [run_append, ← h2, run, run, h3]
  have hs3' : s3 = run env (ops ++ .create mh kind src fault :: (ops' ++ [.create mh' kind' src' fault'])) (St.init d) := by
    rw [run_append, ← hs, run, h1, hs3]
  obtain ⟨p, c, a1, a2, a3, a4, a5⟩ := create_created env d ops s s1 hs
    (fun x y hxy => hload x y (List.mem_append.2 (Or.inl hxy))) mh h i kind src fault m ast hi hm hsrc h1
  obtain ⟨p', c', b1, b2, b3, b4, b5⟩ := create_created env d _ s2 s3 hs2
    (fun x y hxy => by
      rcases List.mem_append.1 hxy with hxy | hxy
      · exact hload x y (List.mem_append.2 (Or.inl hxy))
      · simp only [List.mem_cons, reduceCtorEq, false_or] at hxy
        exact hload x y (List.mem_append.2 (Or.inr hxy))) mh' h' i' kind' src' fault' m' ast' hi' hm' hsrc' h3
  have a2' : s3.heap[p]? = some c := by rw [hs3]; exact heap_get_run env _ hinv1 a2
  have hid : c.id = c'.id := by
    simp only [St.className, a1, b1, Option.bind_some, a2, b2, Option.map_some, Option.some.injEq] at hc hc'
    rw [hc, hc']
  have := C21_distinct_classes env d _ s3 hs3' hids p p' c c' a2' b2 a3 b3 hid
  subst this
  rw [a2'] at b2; cases b2
  rw [a5] at b5
  simp only [Key.mk.injEq] at b5
  exact ⟨a4.symm.trans b4, b5.2.1, b5.2.2, b5.1⟩

/-- The number of ids handed out is at most the number of operations. -/
theorem C21_counter_bound (env : Env) (d : Dom) (ops : List Op) : (run env ops (St.init d)).ctr ≤ ops.length := by
  have := (ctr_run env ops (Inv.init d)).2
  simpa [St.init] using this

/-- **C21** with the feature `random`: if the alphanumeric strings drawn so far are
distinct then so are the ids. -/
theorem C21_random (env : Env) (d : Dom) (ops : List Op) (s : St)
    (hs : s = run env ops (St.init d)) (hdash : ∀ n, n < s.ctr → '-' ∉ env.entropy n)
    (hdis : ∀ a b, a < s.ctr → b < s.ctr → env.entropy a = env.entropy b → a = b) (p q : Nat) (c c' : Content)
    (hp : s.heap[p]? = some c) (hq : s.heap[q]? = some c') (ho : c.origin = .created) (ho' : c'.origin = .created)
    (hid : c.id = c'.id) : p = q := by
  refine distinct_ids env d ops s hs ?_ hp hq ho ho' hid
  intro a b ha hb k k' h
  obtain ⟨x, hx⟩ := makeId_shape k (env.entropy a)
  obtain ⟨y, hy⟩ := makeId_shape k' (env.entropy b)
  rw [hx, hy] at h
  have h1 := congrArg lastPart h
  rw [lastPart_append _ (hdash a ha), lastPart_append _ (hdash b hb)] at h1
  exact hdis a b ha hb h1

/-- Non-vacuity: three styles by two managers, with the same sheet. -/
example : demoEnv.entropy = counterEntropy ∧ demoState.ctr ≤ 2 ^ 64 ∧
    demoState.heap.map Content.id = [c! "stylist-style-0", c! "app-style-1", c! "stylist-global-style-2"] :=
  ⟨rfl, by decide, by decide⟩

/-- Non-vacuity of `C21_calls`: a scoped style and a global one of the same css, by the same
manager. -/
example : ∃ s s1 s2 s3, s = run demoEnv (demoOps.take 2) (St.init demoPage) ∧
    step demoEnv (.create 0 .scoped (.sheet demoRed) false) s = (s1, .style 0) ∧ s2 = run demoEnv [.clone 0, .unregister 0] s1 ∧
    step demoEnv (.create 0 .global (.sheet demoRed) false) s2 = (s3, .style 2) ∧ s3.ctr ≤ 2 ^ 64 ∧
    s1.className 0 = some (c! "stylist-style-0") ∧ s3.className 2 = some (c! "stylist-global-style-1") :=
  ⟨_, _, _, _, rfl, Prod.ext rfl (by decide), rfl, Prod.ext rfl (by decide), by decide, by decide, by decide⟩

/-- An instance: a random source whose first three results are different. -/
example : ∀ q c', (run { demoEnv with entropy := fun n => [Char.ofNat (97 + n)] } demoOps (St.init demoPage)).heap[q]? = some c' →
    c'.origin = .created → c'.id = c! "app-b" → 1 = q := by
  have hctr : (run { demoEnv with entropy := fun n => [Char.ofNat (97 + n)] } demoOps (St.init demoPage)).ctr = 3 := by decide
  exact fun q c' hq ho' hid => C21_random { demoEnv with entropy := fun n => [Char.ofNat (97 + n)] } demoPage demoOps _ rfl
    (by rw [hctr]; decide)
    (by
      rw [hctr]
      have h : ∀ a, a < 3 → ∀ b, b < 3 → [Char.ofNat (97 + a)] = [Char.ofNat (97 + b)] → a = b := by decide
      exact fun a b ha hb => h a ha b hb) 1 q _ c' rfl hq rfl ho' hid.symm

/-! ## C66: the class name shows the prefix -/

/-- **C66.** In a history without loading, the class of a style is its prefix (its own one or
that of the manager), `-`, the word `global-` for a global style, and the text that the source
of entropy has given. With the counter this is `style-` and a number, with the random source
eight ASCII letters and digits. For both, if the prefix is a CSS identifier then so is the
class. -/
theorem C66_class_name (env : Env) (d : Dom) (ops : List Op) (s s1 : St) (hs : s = run env ops (St.init d))
    (hload : ∀ mh data, Op.load mh data ∉ ops) (mh h i : Nat) (kind : Kind) (src : Source) (fault : Bool) (m : Mgr)
    (ast : Sheet) (hi : s.mgrOf mh = some i) (hm : s.mgrs[i]? = some m) (hsrc : src.sheet? = some ast)
    (h1 : step env (.create mh kind src fault) s = (s1, .style h)) :
    ∃ n < s1.ctr, s1.className h = some (kind.prefixOr m.pref ++ (if kind.forPage then c! "-global-" else c! "-") ++ env.entropy n) ∧
      (env.entropy = counterEntropy ∨ (∀ n, ∀ c ∈ env.entropy n, c.isAlphanum = true) →
        cssIdent (kind.prefixOr m.pref) = true →
        ∃ cls, s1.className h = some cls ∧ cssIdent cls = true) := by
  obtain ⟨p, c, a1, a2, a3, -, a5⟩ := create_created env d ops s s1 hs hload mh h i kind src fault m ast hi hm hsrc h1
  obtain ⟨num, hn⟩ := numbered_run env (ops ++ [.create mh kind src fault]) (Inv.init d) (numbered_init env d)
  rw [run_append, ← hs, run, run, h1] at hn
  obtain ⟨e1, e2⟩ := hn.id p c a2 a3
  have hcls : s1.className h = some c.id := by simp [St.className, a1, a2]
  refine ⟨num p, e1, ?_, ?_⟩
  · rw [hcls, e2, a5, makeId]
    cases kind <;> simp [Kind.forPage, Kind.prefixOr]
  · intro he hp
    refine ⟨_, hcls, ?_⟩
    rw [e2]
    refine cssIdent_makeId' (by rw [a5]; exact hp) ?_
    rcases he with he | he
    · rw [he]; exact counterEntropy_css _
    · rw [List.all_eq_true]
      intro c hc
      have := he _ c hc
      simp only [Char.isAlphanum, Bool.or_eq_true] at this
      rcases this with h | h <;> simp [cssChar, cssStart, h]

/-- Non-vacuity. -/
example : ∃ s s1, s = run demoEnv (demoOps.take 3) (St.init demoPage) ∧
    step demoEnv (.create 1 (.withPrefix (c! "my")) (.sheet demoRed) false) s = (s1, .style 1) ∧
    s1.className 1 = some (c! "my-style-1") := ⟨_, _, rfl, Prod.ext rfl (by decide), by decide⟩

/-- Non-vacuity, for a source of entropy as the random one. -/
example : (∀ n : Nat, ∀ c ∈ (fun _ : Nat => c! "a8Xq0Zt1") n, c.isAlphanum = true) ∧
    (∃ s s1, s = run { demoEnv with entropy := fun _ => c! "a8Xq0Zt1" } (demoOps.take 3) (St.init demoPage) ∧
    step { demoEnv with entropy := fun _ => c! "a8Xq0Zt1" } (.create 1 (.withPrefix (c! "my")) (.sheet demoRed) false) s =
      (s1, .style 1) ∧ s1.className 1 = some (c! "my-a8Xq0Zt1")) :=
  ⟨fun _ => (by decide : ∀ c ∈ c! "a8Xq0Zt1", c.isAlphanum = true), _, _, rfl, Prod.ext rfl (by decide), by decide⟩

/-! ## C22: an element is on the page exactly while its style is alive -/

/-- **C22.** In a browser, in any reachable state, if the ids are CSS identifiers and
distinct: a style created by a manager (without static writer) whose container is in the
document, and whose id the original page did not use, has exactly one style element in
the document, in that container, with its id and text, while it is alive, and none
afterwards. -/
theorem C22_element_iff_alive (env : Env) (hw : env.wasm = true) (d : Dom) (ops : List Op) (s : St)
    (hs : s = run env ops (St.init d)) (hid : ∀ c ∈ s.heap, cssIdent c.id = true)
    (hn : (s.heap.map Content.id).Nodup) (p i : Nat) (c : Content) (hc : s.heap[p]? = some c)
    (hm : Mounts s c i) (ha : Attached d i) (hb : withId c.id d.inDoc = []) :
    (s.Alive p → withId c.id s.dom.inDoc = [c.element] ∧ withId c.id (s.dom.childrenOf i) = [c.element]) ∧
    (¬ s.Alive p → withId c.id s.dom.inDoc = [] ∧ withId c.id (s.dom.childrenOf i) = []) := by
  subst hs
  have hp : PageInv d (run env ops (St.init d)) := PageInv.run hw ops (Inv.init d) hid hn (PageInv.init d)
  have ha' : Attached (run env ops (St.init d)).dom i := ha.of_map (attached_run env ops (Inv.init d))
  refine ⟨hp.alive p c i hc hm ha' hb, fun hl => ?_⟩
  have := hp.dead p c i hc hm ha' hb hl
  obtain ⟨ct, h1, h2⟩ := ha'
  exact ⟨this, withId_attached h1 h2 this⟩

/-- An instance: the style of the second manager is alive, and after unregistering and dropping it is gone. -/
example : withId (c! "app-style-1") demoState.dom.inDoc = [.style (c! "app-style-1") (c! ".app-style-1 {\n    color: red;\n}\n")] ∧
    withId (c! "app-style-1") (run demoEnv (demoOps ++ [.unregister 1, .drop 1]) (St.init demoPage)).dom.inDoc = [] :=
  ⟨((C22_element_iff_alive demoEnv rfl demoPage demoOps demoState rfl (by decide) (by decide) 1 1 _ rfl
      ⟨rfl, _, rfl, rfl, rfl⟩ ⟨_, rfl, rfl⟩ (by decide)).1 (by decide)).1,
   ((C22_element_iff_alive demoEnv rfl demoPage (demoOps ++ [.unregister 1, .drop 1]) _ rfl (by decide) (by decide) 1 1 _ rfl
      ⟨rfl, _, rfl, rfl, rfl⟩ ⟨_, rfl, rfl⟩ (by decide)).2 (by decide)).1⟩

/-- **C22**, the other way round: every style element in the document was on the page
from the start or belongs to a style, and if all styles have elements of their own (as
above) it belongs to a style that is alive. -/
theorem C22_no_orphans (env : Env) (hw : env.wasm = true) (d : Dom) (ops : List Op) (s : St)
    (hs : s = run env ops (St.init d)) (hid : ∀ c ∈ s.heap, cssIdent c.id = true)
    (hn : (s.heap.map Content.id).Nodup)
    (hall : ∀ c ∈ s.heap, (∃ i, Mounts s c i ∧ Attached d i) ∧ withId c.id d.inDoc = [])
    (id text : Str) (he : Child.style id text ∈ s.dom.inDoc) :
    Child.style id text ∈ d.inDoc ∨
      ∃ (p : Nat) (c : Content), s.heap[p]? = some c ∧ s.Alive p ∧ c.id = id ∧ c.text = text := by
  have hmem : Child.style id text ∈ withId id s.dom.inDoc :=
    List.mem_filter.2 ⟨he, by simp [Child.styleId?]⟩
  by_cases h : id ∈ s.heap.map Content.id
  · obtain ⟨c, hc, rfl⟩ := List.mem_map.1 h
    obtain ⟨p, hp⟩ := List.getElem?_of_mem hc
    obtain ⟨⟨i, h1, h2⟩, h3⟩ := hall c hc
    obtain ⟨h4, h5⟩ := C22_element_iff_alive env hw d ops s hs hid hn p i c hp h1 h2 h3
    by_cases hl : s.Alive p
    · rw [(h4 hl).1] at hmem
      simp only [Content.element, List.mem_cons, List.not_mem_nil, or_false, Child.style.injEq, true_and] at hmem
      exact Or.inr ⟨p, c, hp, hl, rfl, hmem.symm⟩
    · rw [(h5 hl).1] at hmem; cases hmem
  · subst hs
    have hp : PageInv d (run env ops (St.init d)) := PageInv.run hw ops (Inv.init d) hid hn (PageInv.init d)
    rw [hp.foreign id h] at hmem
    exact Or.inl (List.mem_filter.1 hmem).1

/-- An instance: the demo. -/
example : ∀ id text, Child.style id text ∈ demoState.dom.inDoc → Child.style id text ∈ demoPage.inDoc ∨
    ∃ (p : Nat) (c : Content), demoState.heap[p]? = some c ∧ demoState.Alive p ∧ c.id = id ∧ c.text = text := by
  refine C22_no_orphans demoEnv rfl demoPage demoOps demoState rfl (by decide) (by decide) ?_
  intro c hc
  have h : demoState.heap = [_, _, _] := rfl
  rw [h] at hc
  simp only [List.mem_cons, List.not_mem_nil, or_false] at hc
  rcases hc with rfl | rfl | rfl
  · exact ⟨⟨0, ⟨rfl, _, rfl, rfl, rfl⟩, ⟨_, rfl, rfl⟩⟩, by decide⟩
  · exact ⟨⟨1, ⟨rfl, _, rfl, rfl, rfl⟩, ⟨_, rfl, rfl⟩⟩, by decide⟩
  · exact ⟨⟨0, ⟨rfl, _, rfl, rfl, rfl⟩, ⟨_, rfl, rfl⟩⟩, by decide⟩

/-- **C22** for elements that were on the page from the start: loaded styles keep their
element while alive, and it is removed with the last reference; elements that belong to
no style are never touched. -/
theorem C22_adopted_elements (env : Env) (hw : env.wasm = true) (d : Dom) (ops : List Op) (s : St)
    (hs : s = run env ops (St.init d)) (hid : ∀ c ∈ s.heap, cssIdent c.id = true)
    (hn : (s.heap.map Content.id).Nodup) :
    (∀ (p : Nat) (c : Content), s.heap[p]? = some c → Adopts s c → ∀ el, withId c.id d.inDoc = [el] →
      withId c.id s.dom.inDoc = if s.Alive p then [el] else []) ∧
    (∀ id, (∀ c ∈ s.heap, c.id ≠ id) → withId id s.dom.inDoc = withId id d.inDoc) := by
  subst hs
  have hp : PageInv d (run env ops (St.init d)) := PageInv.run hw ops (Inv.init d) hid hn (PageInv.init d)
  refine ⟨?_, ?_⟩
  · intro p c hc ha el he
    split
    · rename_i hl
      rw [hp.kept p c hc ha hl, he]
    · rename_i hl
      rw [hp.gone p c hc ha hl, he]; rfl
  · intro id hne
    apply hp.foreign
    intro h
    obtain ⟨c, hc, e⟩ := List.mem_map.1 h
    exact hne c hc e

/-- An instance: a page with two elements of a server. A style of one is loaded and used: the
element stays. It is dropped: the element goes. The other element stays in any case. -/
example : let page : Dom := [⟨true, [.style (c! "a-1") (c! "x"), .style (c! "b-1") (c! "y")]⟩]
    let ops : List Op := [.newMgr (c! "a") none true none, .load 0 [⟨⟨false, c! "a", demoRed⟩, c! "a-1", []⟩],
      .create 0 .scoped (.sheet demoRed) false]
    withId (c! "a-1") (run demoEnv ops (St.init page)).dom.inDoc = [.style (c! "a-1") (c! "x")] ∧
    withId (c! "a-1") (run demoEnv (ops ++ [.unregister 0, .drop 0]) (St.init page)).dom.inDoc = [] ∧
    withId (c! "b-1") (run demoEnv (ops ++ [.unregister 0, .drop 0]) (St.init page)).dom.inDoc =
      [.style (c! "b-1") (c! "y")] := by
  intro page ops
  have h1 := C22_adopted_elements demoEnv rfl page ops _ rfl (by decide +kernel) (by decide +kernel)
  have h2 := C22_adopted_elements demoEnv rfl page (ops ++ [.unregister 0, .drop 0]) _ rfl (by decide +kernel)
    (by decide +kernel)
  let c : Content := ⟨c! "a-1", ⟨false, c! "a", demoRed⟩, demoRed.toStyleStr (some (c! "a-1")), 0, .hydrated⟩
  have e1 := h1.1 0 c (by decide +kernel) (.inl rfl) (.style (c! "a-1") (c! "x")) (by decide +kernel)
  have e2 := h2.1 0 c (by decide +kernel) (.inl rfl) (.style (c! "a-1") (c! "x")) (by decide +kernel)
  rw [if_pos (by decide +kernel)] at e1
  rw [if_neg (by decide +kernel)] at e2
  exact ⟨e1, e2, (h2.2 (c! "b-1") (by decide +kernel)).trans (by decide +kernel)⟩

/-- **C22** for a whole application: a browser, ids that differ (`FreshIds`), no
hydration, prefixes that are CSS identifiers (such as the default `stylist`), all
containers in the document, no static writers, and a page without elements with our ids
before. Then the style elements in the document that were not there before are, one for
one, those of the styles that are alive. -/
theorem C22_application (env : Env) (hw : env.wasm = true) (d : Dom)
    (ops : List Op) (s : St) (hs : s = run env ops (St.init d)) (hids : FreshIds env s.ctr)
    (hload : ∀ c ∈ s.heap, c.origin = .created) (hpref : ∀ c ∈ s.heap, cssIdent c.key.pref = true)
    (hmgr : ∀ m ∈ s.mgrs, m.log = none ∧ ∃ i, m.container = some i ∧ Attached d i)
    (hb : ∀ c ∈ s.heap, withId c.id d.inDoc = []) :
    (∀ (p : Nat) (c : Content), s.heap[p]? = some c →
      withId c.id s.dom.inDoc = if s.Alive p then [c.element] else []) ∧
    (∀ id text, Child.style id text ∈ s.dom.inDoc → Child.style id text ∈ d.inDoc ∨
      ∃ (p : Nat) (c : Content), s.heap[p]? = some c ∧ s.Alive p ∧ c.id = id ∧ c.text = text) := by
  have hinv : Inv s := hs ▸ inv_run env ops (Inv.init d)
  have hn : (s.heap.map Content.id).Nodup := by
    rw [List.Nodup, List.pairwise_iff_getElem]
    intro a b ha' hb' hab he
    rw [List.length_map] at ha' hb'
    rw [List.getElem_map, List.getElem_map] at he
    have := C21_distinct_classes env d ops s hs hids a b _ _ (List.getElem?_eq_getElem ha')
      (List.getElem?_eq_getElem hb') (hload _ (List.getElem_mem _)) (hload _ (List.getElem_mem _)) he
    omega
  have hid : ∀ c ∈ s.heap, cssIdent c.id = true := by
    intro c hc
    subst hs
    obtain ⟨num, hnum⟩ := numbered_run env ops (Inv.init d) (numbered_init env d)
    obtain ⟨p, hp⟩ := List.getElem?_of_mem hc
    obtain ⟨h0, h1⟩ := hnum.id p c hp (hload c hc)
    rw [h1]
    exact hids.ident h0 (hpref c hc)
  have hall : ∀ c ∈ s.heap, (∃ i, Mounts s c i ∧ Attached d i) ∧ withId c.id d.inDoc = [] := by
    intro c hc
    refine ⟨?_, hb c hc⟩
    have hlt := hinv.contentMgr c hc
    obtain ⟨h1, i, h2, h3⟩ := hmgr _ (List.getElem_mem hlt)
    exact ⟨i, ⟨hload c hc, _, List.getElem?_eq_getElem hlt, h1, h2⟩, h3⟩
  refine ⟨?_, C22_no_orphans env hw d ops s hs hid hn hall⟩
  intro p c hc
  obtain ⟨⟨i, h1, h2⟩, h3⟩ := hall c (List.mem_of_getElem? hc)
  obtain ⟨h4, h5⟩ := C22_element_iff_alive env hw d ops s hs hid hn p i c hc h1 h2 h3
  split
  · rename_i hl; exact (h4 hl).1
  · rename_i hl; exact (h5 hl).1

/-- Non-vacuity: a style with two handles, one alive through the registry only, one
unregistered and dropped. -/
example : let s := run demoEnv (demoOps ++ [.unregister 1, .drop 1, .drop 2]) (St.init demoPage)
    demoEnv.wasm = true ∧ s.ctr ≤ 2 ^ 64 ∧ (∀ c ∈ s.heap, c.origin = .created) ∧
    (∀ c ∈ s.heap, cssIdent c.key.pref = true) ∧
    (∀ m ∈ s.mgrs, m.log = none ∧ ∃ i, m.container = some i ∧ Attached demoPage i) ∧
    (∀ c ∈ s.heap, withId c.id demoPage.inDoc = []) ∧
    s.Alive 0 ∧ ¬ s.Alive 1 ∧ s.Alive 2 := by
  refine ⟨by decide, by decide, by decide, by decide, ?_, by decide, by decide, by decide, by decide⟩
  intro m hm
  have h : ∀ m ∈ (run demoEnv (demoOps ++ [.unregister 1, .drop 1, .drop 2]) (St.init demoPage)).mgrs,
    m.log = none ∧ (m.container = some 0 ∨ m.container = some 1) := by decide
  obtain ⟨h1, h2 | h2⟩ := h m hm
  · exact ⟨h1, 0, h2, ⟨true, [.other 7]⟩, rfl, rfl⟩
  · exact ⟨h1, 1, h2, ⟨true, []⟩, rfl, rfl⟩

/-- The hypotheses of C22 are needed. A prefix that is not a CSS identifier: the selector
is invalid, and the element of a style that is gone stays. -/
theorem C22_limit_prefix :
    let s := run demoEnv [.newMgr (c! "1") none true none, .create 0 .scoped (.sheet demoRed) false, .unregister 0,
      .drop 0] (St.init demoPage)
    ¬ s.Alive 0 ∧ s.dom.inDoc = [.other 7, .style (c! "1-style-0") (c! ".1-style-0 {\n    color: red;\n}\n")] := by
  decide

/-- The same with a digit after a dash. -/
theorem C22_limit_dash :
    let s := run demoEnv [.newMgr (c! "-1") none true none, .create 0 .scoped (.sheet demoRed) false, .unregister 0,
      .drop 0] (St.init demoPage)
    ¬ s.Alive 0 ∧ s.dom.inDoc = [.other 7, .style (c! "-1-style-0") (c! ".-1-style-0 {\n    color: red;\n}\n")] := by
  decide

theorem cssStart_iff (c : Char) : cssStart c = true ↔ IdentStart c := by
  simp only [cssStart, IdentStart, Bool.or_eq_true, beq_iff_eq, decide_eq_true_eq, Char.isAlpha, Char.isUpper, Char.isLower,
    Bool.and_eq_true, Char.le_def, UInt32.le_iff_toNat_le]
  grind

theorem cssChar_iff (c : Char) : cssChar c = true ↔ IdentRest c := by
  have h : c.isDigit = true ↔ ('0' ≤ c ∧ c ≤ '9') := by
    simp [Char.isDigit, Char.le_def]
  simp only [cssChar, IdentRest, Bool.or_eq_true, cssStart_iff, beq_iff_eq, h]
  grind

/-- The ids in the hypotheses of C22 are the css identifiers (without escapes). -/
theorem C22_identifiers (id : Str) : cssIdent id = true ↔ Identifier id := by
  have hd : ¬ IdentStart '-' := by unfold IdentStart; decide
  have hall : ∀ s : Str, s.all cssChar = true ↔ ∀ c ∈ s, IdentRest c := by
    intro s; simp only [List.all_eq_true, cssChar_iff]
  have hne : ∀ (c : Char) (s : Str), c ≠ '-' → cssIdent (c :: s) = (cssStart c && s.all cssChar) := by
    intro c s hc
    rw [cssIdent]
    rintro rfl
    exact hc rfl
  constructor
  · intro h
    match id with
    | [] => cases h
    | ['-'] => simp [cssIdent] at h
    | '-' :: c :: s =>
      simp only [cssIdent, Bool.and_eq_true, hall, Bool.or_eq_true, beq_iff_eq, cssStart_iff] at h
      have h2 : ∀ d ∈ s, IdentRest d := fun d hm => h.2 d (by simp [hm])
      rcases h.1 with h1 | rfl
      · exact ⟨['-', c], s, rfl, h2, .inl ⟨c, h1, .inr rfl⟩⟩
      · exact ⟨['-', '-'], s, rfl, h2, .inr rfl⟩
    | c :: s =>
      by_cases hc : c = '-'
      · subst hc
        cases s with
        | nil => simp [cssIdent] at h
        | cons c s =>
          simp only [cssIdent, Bool.and_eq_true, hall, Bool.or_eq_true, beq_iff_eq, cssStart_iff] at h
          have h2 : ∀ d ∈ s, IdentRest d := fun d hm => h.2 d (by simp [hm])
          rcases h.1 with h1 | rfl
          · exact ⟨['-', c], s, rfl, h2, .inl ⟨c, h1, .inr rfl⟩⟩
          · exact ⟨['-', '-'], s, rfl, h2, .inr rfl⟩
      · rw [hne c s hc, Bool.and_eq_true, hall, cssStart_iff] at h
        exact ⟨[c], s, rfl, h.2, .inl ⟨c, h.1, .inl rfl⟩⟩
  · rintro ⟨head, rest, rfl, hr, ⟨c, hc, rfl | rfl⟩ | rfl⟩
    · rw [List.singleton_append, hne c rest (by rintro rfl; exact hd hc), Bool.and_eq_true, hall, cssStart_iff]
      exact ⟨hc, hr⟩
    · show cssIdent ('-' :: c :: rest) = true
      simp only [cssIdent, Bool.and_eq_true, hall, Bool.or_eq_true, beq_iff_eq, cssStart_iff]
      exact ⟨.inl hc, by simpa using ⟨.inl hc, hr⟩⟩
    · show cssIdent ('-' :: '-' :: rest) = true
      simp only [cssIdent, Bool.and_eq_true, hall, Bool.or_eq_true, beq_iff_eq]
      exact ⟨.inr trivial, by simpa using ⟨.inr (.inr rfl), hr⟩⟩

/-- A container that is not in the document (a shadow root): the element stays, too. -/
theorem C22_limit_detached :
    let s := run demoEnv [.newMgr (c! "stylist") (some 1) true none, .create 0 .scoped (.sheet demoRed) false,
      .unregister 0, .drop 0] (St.init [⟨true, []⟩, ⟨false, []⟩])
    ¬ s.Alive 0 ∧ s.dom.childrenOf 1 =
      [.style (c! "stylist-style-0") (c! ".stylist-style-0 {\n    color: red;\n}\n")] := by
  decide

/-! ## C23: unregistering unmounts after the last clone, not before -/

/-- **C23.** A registered style is unregistered in any reachable state. In every later
state its element is in the document exactly if there is still a handle. -/
theorem C23_unregister (env : Env) (hw : env.wasm = true) (d : Dom) (ops ops' : List Op) (s s1 s2 : St)
    (hs : s = run env ops (St.init d)) (h p i : Nat) (c : Content) (m : Mgr)
    (hp : s.contentOf h = some p) (hc : s.heap[p]? = some c) (hm : s.mgrs[c.mgr]? = some m)
    (hreg : regGet m.reg c.key = some p)
    (h1 : s1 = (step env (.unregister h) s).1) (h2 : s2 = run env ops' s1)
    (hid : ∀ c ∈ s2.heap, cssIdent c.id = true) (hn : (s2.heap.map Content.id).Nodup)
    (hmt : Mounts s2 c i) (ha : Attached d i) (hb : withId c.id d.inDoc = []) :
    withId c.id s2.dom.inDoc = if some p ∈ s2.handles then [c.element] else [] := by
  have hinv : Inv s := hs ▸ inv_run env ops (Inv.init d)
  have hinv1 : Inv s1 := h1 ▸ inv_step env _ hinv
  have hrun : s2 = run env (ops ++ .unregister h :: ops') (St.init d) := by
    rw [run_append, ← hs, run, ← h1, h2]
  have ht := step_tr env hinv (.unregister h)
  obtain ⟨n, hn1⟩ := (ht.eff hinv).heap
  rw [← h1] at hn1
  have hc1 : s1.heap[p]? = some c := by rw [hn1]; exact getElem?_append_of _ hc
  have hc2 : s2.heap[p]? = some c := by rw [h2]; exact heap_get_run env ops' hinv1 hc1
  have hun : ∀ m' ∈ s1.mgrs, ∀ k, (k, p) ∉ m'.reg := by
    have hs1 : s1.mgrs = (s.modReg c.mgr (fun reg => regRemove reg c.key)).mgrs := by
      have hal : s.mgrAlive c.mgr = true := by
        simp only [St.mgrAlive, List.elem_eq_mem, decide_eq_true_eq]
        refine hinv.dead c.mgr m hm ?_
        intro h; rw [h] at hreg; cases hreg
      have hu : s1 = (step env (.unregister h) s).1 := h1
      rw [hu, unregister_eq env hinv hp hc hm hal hreg]
      exact (release_fields env p _).2.2.1
    rw [hs1]
    intro m' hm' k hk
    obtain ⟨j, mj, hj, rfl⟩ := mem_modReg hm'
    by_cases hcj : c.mgr = j
    · subst hcj
      rw [hm] at hj; cases hj
      simp only [if_true] at hk
      have hmem := List.mem_filter.1 hk
      have := (hinv.reg_unique hm hm hmem.1 (regGet_mem hreg)).2
      simp [this] at hmem
    · simp only [hcj, if_false] at hk
      exact hcj (hinv.reg_unique hm hj (regGet_mem hreg) hk).1
  have hun2 : ∀ m' ∈ s2.mgrs, ∀ k, (k, p) ∉ m'.reg := by
    rw [h2]; exact unreg_run env ops' hinv1 (heap_lt hc1) hun
  obtain ⟨e1, e2⟩ := C22_element_iff_alive env hw d _ s2 hrun hid hn p i c hc2 hmt ha hb
  split
  · rename_i hh
    exact (e1 (Or.inl hh)).1
  · rename_i hh
    refine (e2 ?_).1
    rintro (h | ⟨m', h3, k, h4⟩)
    · exact hh h
    · exact hun2 m' h3 k h4

/-- An instance: unregistered, then one of two handles is dropped: the element is there. -/
example : withId (c! "stylist-style-0") (run demoEnv [.drop 0] (step demoEnv (.unregister 0) demoState).1).dom.inDoc =
    [.style (c! "stylist-style-0") (c! ".stylist-style-0 {\n    color: red;\n}\n")] :=
  C23_unregister demoEnv rfl demoPage demoOps [.drop 0] demoState _ _ rfl 0 0 0 _ _ rfl rfl rfl rfl rfl rfl (by decide)
    (by decide) ⟨rfl, _, rfl, rfl, rfl⟩ ⟨_, rfl, rfl⟩ (by decide)

/-- **C23**, second half. Without unregistering, a created style stays mounted as long as
its manager exists, whether or not there are handles. -/
theorem C23_registered_stays (env : Env) (hw : env.wasm = true) (d : Dom) (ops ops' : List Op) (s s1 s2 : St)
    (hs : s = run env ops (St.init d)) (mh h p i j : Nat) (kind : Kind) (src : Source) (fault : Bool) (m : Mgr)
    (ast : Sheet) (c : Content) (hj : s.mgrOf mh = some j) (hm : s.mgrs[j]? = some m) (hsrc : src.sheet? = some ast)
    (h1 : step env (.create mh kind src fault) s = (s1, .style h)) (hp : s1.contentOf h = some p)
    (hc : s1.heap[p]? = some c) (h2 : s2 = run env ops' s1)
    (hun : Along env (fun t op => ¬ Unregisters op t j c.key) ops' s1) (hal : some j ∈ s2.mgrHandles)
    (hid : ∀ c ∈ s2.heap, cssIdent c.id = true) (hn : (s2.heap.map Content.id).Nodup)
    (hmt : Mounts s2 c i) (ha : Attached d i) (hb : withId c.id d.inDoc = []) :
    withId c.id s2.dom.inDoc = [c.element] := by
  have hinv : Inv s := hs ▸ inv_run env ops (Inv.init d)
  have hinv1 := inv_step env (.create mh kind src fault) hinv
  obtain ⟨p', c', m', a1, a2, a3, a4, a5, a6, -⟩ := create_style hinv hj hm hsrc (h := h) (by rw [h1])
  rw [h1] at hinv1 a1 a2 a3
  simp only at hinv1 a1 a2 a3
  rw [hp] at a1; cases a1
  rw [hc] at a2; cases a2
  rw [a6] at hun
  rw [h2] at hal
  obtain ⟨m2, b1, b2, b3⟩ := reg_run env ops' hinv1 a3 a5 hun hal
  have hrun : s2 = run env (ops ++ .create mh kind src fault :: ops') (St.init d) := by
    rw [run_append, ← hs, run, h1, h2]
  have hc2 : s2.heap[p]? = some c := by rw [h2]; exact heap_get_run env ops' hinv1 hc
  refine ((C22_element_iff_alive env hw d _ s2 hrun hid hn p i c hc2 hmt ha hb).1 ?_).1
  refine Or.inr ⟨m2, ?_, _, regGet_mem b3⟩
  rw [h2]; exact List.mem_of_getElem? b1

/-- Non-vacuity: after unregistering, one of two handles is dropped, then the other. -/
example : let s := demoState
    let s1 := (step demoEnv (.unregister 3) s).1
    s.contentOf 3 = some 0 ∧ (s.heap[0]?).isSome ∧ some 0 ∈ (run demoEnv [.drop 3] s1).handles ∧
    some 0 ∉ (run demoEnv [.drop 3, .drop 0] s1).handles ∧
    (∀ c ∈ (run demoEnv [.drop 3, .drop 0] s1).heap, cssIdent c.id = true) ∧
    ((run demoEnv [.drop 3, .drop 0] s1).heap.map Content.id).Nodup := by decide

/-- An instance: all handles are dropped, the element is there, as the style is registered. -/
example : let s := run demoEnv (demoOps.take 3 ++ []) (St.init demoPage)
    let s2 := run demoEnv [.drop 0, .create 0 .scoped (.text (c! "top: 0;")) false] s
    withId (c! "stylist-style-0") s2.dom.inDoc =
      [.style (c! "stylist-style-0") (c! ".stylist-style-0 {\n    color: red;\n}\n")] :=
  C23_registered_stays demoEnv rfl demoPage (demoOps.take 2) [.drop 0, .create 0 .scoped (.text (c! "top: 0;")) false] _ _ _
    rfl 0 0 0 0 0 .scoped (.text (c! "color: red;")) false _ demoRed _ rfl rfl (by decide) rfl rfl rfl rfl
    (by simp [Along, Unregisters]) (by decide) (by decide) (by decide) ⟨rfl, _, rfl, rfl, rfl⟩ ⟨_, rfl, rfl⟩ (by decide)

/-! ## C24: a handle never changes -/

/-- **C24.** Whatever happens, a handle keeps its class name and its text until it is
dropped, and then it is gone for good. -/
theorem C24_handles_stable (env : Env) (d : Dom) (ops ops' : List Op) (s s' : St)
    (hs : s = run env ops (St.init d)) (hs' : s' = run env ops' s) (h : Nat) (id text : Str)
    (h1 : s.className h = some id) (h2 : s.styleText h = some text) :
    (s'.className h = some id ∧ s'.styleText h = some text) ∨
      (Op.drop h ∈ ops' ∧ s'.className h = none ∧ s'.styleText h = none) := by
  have hinv : Inv s := hs ▸ inv_run env ops (Inv.init d)
  simp only [St.className, Option.bind_eq_some_iff, Option.map_eq_some_iff] at h1
  obtain ⟨p, hp, c, hc, rfl⟩ := h1
  simp only [St.styleText, hp, Option.bind_some, hc, Option.map_some, Option.some.injEq] at h2
  subst h2
  have hc' := heap_get_run env ops' hinv hc
  rw [← hs'] at hc'
  rcases contentOf_run env ops' hinv (contentOf_lt hp) with h | ⟨h3, h⟩
  · rw [← hs', hp] at h
    exact Or.inl ⟨by simp [St.className, h, hc'], by simp [St.styleText, h, hc']⟩
  · rw [← hs'] at h
    exact Or.inr ⟨h3, by simp [St.className, h], by simp [St.styleText, h]⟩

/-- Non-vacuity: the same css is unregistered and created anew, and the manager goes. -/
example : demoState.className 0 = some (c! "stylist-style-0") ∧
    (run demoEnv [.unregister 0, .create 0 .scoped (.sheet demoRed) false, .dropMgr 0] demoState).className 0 =
      some (c! "stylist-style-0") ∧
    (run demoEnv [.unregister 0, .create 0 .scoped (.sheet demoRed) false, .dropMgr 0] demoState).className 4 =
      some (c! "stylist-style-3") := by decide

/-! ## C25: managers are isolated -/

/-- **C25.** An operation on one manager does not change the settings, the registry, the
life time or the recorded style data of another. -/
theorem C25_isolated (env : Env) (d : Dom) (ops : List Op) (s : St) (hs : s = run env ops (St.init d)) (op : Op)
    (j : Nat) (m : Mgr) (hm : s.mgrs[j]? = some m) (hj : op.manager s ≠ some j) :
    (step env op s).1.mgrs[j]? = some m ∧
    (some j ∈ (step env op s).1.mgrHandles ↔ some j ∈ s.mgrHandles) ∧
    ∀ l, m.log = some l → ((step env op s).1.logs[l]?).map Log.entries = (s.logs[l]?).map Log.entries := by
  have hinv : Inv s := hs ▸ inv_run env ops (Inv.init d)
  exact (step_tr env hinv op).isolated hinv hm hj

/-- An instance: creating with manager 0 does not change manager 1, whose registry has a style. -/
example : ∃ m, demoState.mgrs[1]? = some m ∧ m.reg ≠ [] ∧
    (step demoEnv (.create 0 .scoped (.text (c! "top: 0;")) false) demoState).1.mgrs[1]? = some m :=
  ⟨_, rfl, by decide, (C25_isolated demoEnv demoPage demoOps demoState rfl
    (.create 0 .scoped (.text (c! "top: 0;")) false) 1 _ rfl (by decide)).1⟩

/-- **C25** for the page. An operation changes the style elements of a container that is
not the one of its manager only by removing elements of styles without references. -/
theorem C25_page (env : Env) (d : Dom) (ops : List Op) (s s' : St) (hs : s = run env ops (St.init d)) (op : Op)
    (hs' : s' = (step env op s).1) (hid : ∀ c ∈ s'.heap, cssIdent c.id = true) (k : Nat)
    (hk : ∀ (i : Nat) (m : Mgr), op.manager s = some i → s.mgrs[i]? = some m → m.container ≠ some k)
    (x : Str) (hx : ∀ (p : Nat) (c : Content), s'.heap[p]? = some c → c.id = x → s'.Alive p) :
    withId x (s'.dom.childrenOf k) = withId x (s.dom.childrenOf k) := by
  have hinv : Inv s := hs ▸ inv_run env ops (Inv.init d)
  have ht := step_tr env hinv op
  rw [← hs'] at ht
  rcases ht.eff hinv with ⟨news, hh, hd, -⟩ | ⟨c0, m, hh, -, hm, -, hdom, hdom', -⟩ | ⟨c0, hh, -, hd, -, hdead⟩ |
    ⟨qs, hh, -, hqs, hal, hd⟩
  · exact (styles_withId hd x).2 k
  · by_cases hw : env.wasm = true
    · obtain ⟨i0, h1, h2⟩ := hdom hw
      rw [h2, Dom.appendChild]
      have hne : i0 ≠ k := by
        rintro rfl
        refine hk c0.mgr m ?_ hm h1
        exact ht.newManager hh
      have hlt := hinv.container m (List.mem_of_getElem? hm) i0 h1
      rw [childrenOf_setChildren _ _ _ _ hlt, if_neg hne]
    · rw [hdom' (by simpa using hw)]
  · have h1 : s'.heap[s.heap.length]? = some c0 := by rw [hh]; simp
    have hne : c0.id ≠ x := fun h => hdead (hx _ c0 h1 h)
    rw [hd]
    exact (unmount_other env (hid c0 (List.mem_of_getElem? h1)) hne s.dom).2 k
  · rw [hd]
    refine (unmountAll_filter env s.heap qs s.dom (fun y => y.styleId? = some x) ?_).2 k
    intro q hq c hc
    rw [← hh] at hc
    refine ⟨hid c (List.mem_of_getElem? hc), fun t => ?_⟩
    have : c.id ≠ x := by
      intro h
      exact ((hal q).1 (hx q c hc h)).2 hq
    simp [Child.styleId?, this]

/-- Non-vacuity: an operation of manager 0, with two managers around. -/
example : (Op.unregister 0).manager demoState = some 0 ∧ (demoState.mgrs[1]?).isSome ∧
    demoState.mgrs.map Mgr.container = [some 0, some 1] ∧
    withId (c! "app-style-1") (demoState.dom.childrenOf 1) ≠ [] := by decide

/-- An instance: creating with manager 0 (container 0) does not change the element of the
style of manager 1 in container 1. -/
example : let s' := (step demoEnv (.create 0 .scoped (.text (c! "top: 0;")) false) demoState).1
    withId (c! "app-style-1") (s'.dom.childrenOf 1) = withId (c! "app-style-1") (demoState.dom.childrenOf 1) ∧
    withId (c! "app-style-1") (demoState.dom.childrenOf 1) ≠ [] := by
  refine ⟨C25_page demoEnv demoPage demoOps demoState _ rfl (.create 0 .scoped (.text (c! "top: 0;")) false) rfl
    (by decide) 1 ?_ (c! "app-style-1") ?_, by decide⟩
  · intro i m hi hm
    have h0 : i = 0 := by cases hi; rfl
    subst h0
    cases hm
    decide
  · intro p c hp he
    have h : ∀ p, p < 4 → (step demoEnv (.create 0 .scoped (.text (c! "top: 0;")) false) demoState).1.Alive p := by decide
    have hl : (step demoEnv (.create 0 .scoped (.text (c! "top: 0;")) false) demoState).1.heap.length = 4 := by decide
    exact h p (hl ▸ (List.getElem?_eq_some_iff.1 hp).1)

/-! ## C26: a failed mount leaves no trace -/

/-- **C26.** When a creation returns an error, the managers, handles and recorded data are
as before, and, if the id that was tried is a CSS identifier not used on the page, so is
the page. -/
theorem C26_no_trace (env : Env) (d : Dom) (ops : List Op) (s s' : St) (hs : s = run env ops (St.init d))
    (mh : Nat) (kind : Kind) (src : Source) (fault : Bool) (e : Err)
    (h : step env (.create mh kind src fault) s = (s', .err e))
    (hid : ∀ c, s'.heap = s.heap ++ [c] → cssIdent c.id = true ∧ withId c.id s.dom.inDoc = []) :
    s'.mgrs = s.mgrs ∧ s'.mgrHandles = s.mgrHandles ∧ s'.handles = s.handles ∧ s'.logs = s.logs ∧
    s'.dom = s.dom ∧ (∀ p, s'.Alive p ↔ s.Alive p) := by
  have hinv : Inv s := hs ▸ inv_run env ops (Inv.init d)
  have ht := step_tr env hinv (.create mh kind src fault)
  rw [h] at ht
  simp only at ht
  cases ht with
  | createSyntax => exact ⟨rfl, rfl, rfl, rfl, rfl, fun _ => Iff.rfl⟩
  | createFail _ _ _ _ _ i m ast c e1 e2 e3 e4 e5 e6 e7 e8 =>
    refine ⟨rfl, rfl, rfl, rfl, ?_, fun _ => Iff.rfl⟩
    obtain ⟨h1, h2⟩ := hid c rfl
    show unmount env c.id s.dom = s.dom
    rcases unmount_cases env h1 s.dom with ⟨h, -⟩ | ⟨-, n, j, k, ct, t, -, hf, -⟩
    · exact h
    · obtain ⟨hn, h7, -⟩ := List.findIdx?_eq_some_iff_getElem.1 hf
      have := List.filter_eq_nil_iff.1 h2 _ (List.getElem_mem hn)
      exact absurd h7 this

/-- An instance: the browser refuses; the page, the handles and the registries are the same. -/
example : let s' := (step demoEnv (.create 0 .scoped (.text (c! "color: blue;")) true) demoState).1
    s'.mgrs = demoState.mgrs ∧ s'.handles = demoState.handles ∧ s'.dom = demoState.dom := by
  have h := C26_no_trace demoEnv demoPage demoOps demoState
    (step demoEnv (.create 0 .scoped (.text (c! "color: blue;")) true) demoState).1 rfl 0 .scoped
    (.text (c! "color: blue;")) true .web rfl (by
      intro c hc
      have e : (step demoEnv (.create 0 .scoped (.text (c! "color: blue;")) true) demoState).1.heap =
        demoState.heap ++ [_] := rfl
      rw [e] at hc
      cases (List.append_cancel_left hc)
      exact ⟨by decide, by decide⟩)
  exact ⟨h.1, h.2.2.1, h.2.2.2.2.1⟩

/-- **C26**, a later attempt: after an error, creating the style again, with a browser
that does not refuse, succeeds (for a manager that appends). -/
theorem C26_retry (env : Env) (hdbg : env.debugParser = false) (d : Dom) (ops : List Op) (s s' : St)
    (hs : s = run env ops (St.init d)) (mh i : Nat) (m : Mgr) (kind : Kind) (src : Source) (ast : Sheet)
    (fault : Bool) (e : Err) (h : step env (.create mh kind src fault) s = (s', .err e))
    (hi : s.mgrOf mh = some i) (hm : s.mgrs[i]? = some m) (happ : m.append = true) (hcont : m.container ≠ none)
    (hsrc : src.sheet? = some ast) :
    ∃ h', (step env (.create mh kind src false) s').2 = .style h' := by
  have hinv : Inv s := hs ▸ inv_run env ops (Inv.init d)
  have ht := step_tr env hinv (.create mh kind src fault)
  have hinv' := inv_step env (.create mh kind src fault) hinv
  rw [h] at ht hinv'
  simp only at ht hinv'
  cases ht with
  | createSyntax _ _ _ _ _ _ _ h1 =>
    simp only [Source.sheet?] at hsrc
    rw [h1] at hsrc; cases hsrc
  | createFail _ _ _ _ _ i' m' ast' c e1 e2 e3 e4 e5 e6 e7 e8 =>
    rw [hi] at e1; cases e1
    rw [hm] at e2; cases e2
    rw [hsrc] at e3; cases e3
    generalize hgs' : ({ s with ctr := s.ctr + 1, heap := s.heap ++ [c], dom := unmount env c.id s.dom } : St) = s' at hinv' ⊢
    have hm' : s'.mgrs[i]? = some m := by rw [← hgs']; exact hm
    have hi' : s'.mgrOf mh = some i := by rw [← hgs']; exact hi
    obtain ⟨ci, hci⟩ := Option.ne_none_iff_exists'.1 hcont
    rcases getOrRegister_eq env hinv' hm' false (kind.key m.pref ast) with ⟨p, h1, -⟩ | ⟨-, h1⟩
    · rw [e4] at h1; cases h1
    · rcases h1 with ⟨h1, -⟩ | ⟨-, ⟨l, log, h1, -⟩ | ⟨-, h1, -⟩ | ⟨dd, -, -, h1⟩⟩
      · rw [hdbg] at h1; cases h1
      · rw [e7] at h1; cases h1
      · simp only [mount, hci, happ] at h1
        revert h1
        cases env.wasm <;> simp
      · refine ⟨s'.handles.length, ?_⟩
        simp only [step, create, hi', hm', hsrc, h1]
        rfl

/-- Non-vacuity: the browser refuses. -/
example : (step demoEnv (.create 0 .scoped (.text (c! "color: blue;")) true) demoState).2 = .err .web ∧
    (∀ c, (step demoEnv (.create 0 .scoped (.text (c! "color: blue;")) true) demoState).1.heap =
      demoState.heap ++ [c] → cssIdent c.id = true ∧ withId c.id demoState.dom.inDoc = []) := by
  refine ⟨by decide, ?_⟩
  intro c hc
  have h1 : (step demoEnv (.create 0 .scoped (.text (c! "color: blue;")) true) demoState).1.heap[3]? = some c := by
    rw [hc]
    rw [List.getElem?_append_right (by decide)]
    rfl
  have h2 : some (c! "stylist-style-3") = some c.id := by
    rw [← Option.map_some (f := Content.id) (a := c), ← h1]; decide
  rw [← Option.some.inj h2]
  exact ⟨by decide, by decide⟩

/-- An instance: the second attempt gives the style. -/
example : ∃ h', (step demoEnv (.create 0 .scoped (.text (c! "color: blue;")) false)
    (step demoEnv (.create 0 .scoped (.text (c! "color: blue;")) true) demoState).1).2 = .style h' :=
  C26_retry demoEnv rfl demoPage demoOps demoState _ rfl 0 0 _ .scoped (.text (c! "color: blue;"))
    [.block [] [.attr (c! "color") [c! "blue"]]] true .web rfl rfl rfl rfl (by decide) (by decide)

/-! ## C27: no panics on the registry -/

/-- **C27.** An operation in a reachable state panics only if it loads style data (see
C35), or if it creates a style with `debug_parser` and the generated text does not parse
(see C16). In particular no registry is ever found borrowed and no key registered twice. -/
theorem C27_no_panic (env : Env) (d : Dom) (ops : List Op) (s : St) (hs : s = run env ops (St.init d)) (op : Op)
    (h : (step env op s).2 = .panic) :
    (∃ mh data, op = .load mh data) ∨
    (env.debugParser = true ∧ ∃ mh kind src fault ast, op = .create mh kind src fault ∧ src.sheet? = some ast ∧
      ∃ cls, Css.parse (ast.toStyleStr cls) = none) := by
  have hinv : Inv s := hs ▸ inv_run env ops (Inv.init d)
  have ht := step_tr env hinv op
  rw [h] at ht
  generalize (step env op s).1 = s' at ht
  cases ht with
  | createDebug mh kind src fault _ i m ast h1 h2 h3 h4 h5 h6 =>
    refine Or.inr ⟨h5, mh, kind, src, fault, ast, rfl, h3,
      if (kind.key m.pref ast).isGlobal then none else some (makeId (kind.key m.pref ast) (env.entropy s.ctr)), ?_⟩
    · have : (kind.key m.pref ast).ast = ast := by cases kind <;> rfl
      simp only [newContent] at h6
      rw [this] at h6
      exact h6
  | load mh i data => exact Or.inl ⟨mh, data, rfl⟩

/-- Without `debug_parser` (as in release builds) and without loading nothing panics. -/
theorem C27_release (env : Env) (hdbg : env.debugParser = false) (d : Dom) (ops : List Op) (op : Op)
    (hop : ∀ mh data, op ≠ .load mh data) : (step env op (run env ops (St.init d))).2 ≠ .panic := by
  intro h
  rcases C27_no_panic env d ops _ rfl op h with ⟨mh, data, h1⟩ | ⟨h1, -⟩
  · exact hop mh data h1
  · rw [hdbg] at h1; cases h1

/-- Non-vacuity: unregistering and creating again registers the key again. -/
example : (step demoEnv (.create 0 .scoped (.sheet demoRed) false) (step demoEnv (.unregister 0) demoState).1).2 =
    .style 4 := by decide

/-! ## C28: dropping a manager releases its styles -/

/-- **C28.** The last clone of a manager is dropped. In every later state, a style of this
manager is alive exactly if there is a handle to it, and unregistering it does nothing.
(With C22: its element is on the page exactly if there is a handle.) -/
theorem C28_drop_manager (env : Env) (d : Dom) (ops ops' : List Op) (s s1 s2 : St)
    (hs : s = run env ops (St.init d)) (mh i : Nat) (hi : s.mgrOf mh = some i)
    (hlast : ∀ mh', mh' ≠ mh → s.mgrOf mh' ≠ some i)
    (h1 : s1 = (step env (.dropMgr mh) s).1) (h2 : s2 = run env ops' s1)
    (p : Nat) (c : Content) (hc : s2.heap[p]? = some c) (hm : c.mgr = i) :
    (s2.Alive p ↔ some p ∈ s2.handles) ∧
    (∀ h, s2.contentOf h = some p → step env (.unregister h) s2 = (s2, .unit)) := by
  have hinv : Inv s := hs ▸ inv_run env ops (Inv.init d)
  have hinv1 : Inv s1 := h1 ▸ inv_step env _ hinv
  have hinv2 : Inv s2 := h2 ▸ inv_run env ops' hinv1
  have hlt : i < s.mgrs.length := hinv.mgrHandle i (mgrOf_mem hi)
  have hdead : some i ∉ s.mgrHandles.set mh none := by
    intro h
    obtain ⟨n, hn⟩ := List.getElem?_of_mem h
    by_cases he : mh = n
    · subst he
      have hl : mh < s.mgrHandles.length := by
        have := (List.getElem?_eq_some_iff.1 hn).1
        simpa using this
      rw [List.getElem?_set_self hl] at hn; cases hn
    · rw [List.getElem?_set_ne he] at hn
      refine hlast n (fun h => he h.symm) ?_
      simp [St.mgrOf, hn]
  have hdead1 : some i ∉ s1.mgrHandles := by
    rw [h1]
    simp only [step, hi]
    split
    · exact hdead
    · split
      · exact hdead
      · rw [(releaseAll_fields env _ _).2.2.2.1]; exact hdead
  obtain ⟨m', hm', -⟩ := (step_tr env hinv (.dropMgr mh)).mgr (List.getElem?_eq_getElem hlt)
  rw [← h1] at hm'
  have hdead2 : some i ∉ s2.mgrHandles := by
    rw [h2]; exact dead_run env ops' hinv1 (List.getElem?_eq_some_iff.1 hm').1 hdead1
  refine ⟨⟨?_, Or.inl⟩, ?_⟩
  · rintro (h | ⟨mm, h3, k, h4⟩)
    · exact h
    · exfalso
      obtain ⟨j, hj⟩ := List.getElem?_of_mem h3
      obtain ⟨c', e1, e2, e3⟩ := hinv2.reg j mm hj _ h4
      simp only at e1
      rw [hc] at e1; cases e1
      rw [hm] at e3; subst e3
      refine hdead2 (hinv2.dead i mm hj ?_)
      intro h; rw [h] at h4; cases h4
  · intro h hh
    have : s2.mgrAlive c.mgr = false := by
      simp only [St.mgrAlive, List.elem_eq_mem, decide_eq_false_iff_not]
      rw [hm]; exact hdead2
    simp only [step, hh, hc, this]
    rfl

/-- Non-vacuity: one style of the manager has a handle, the other has not. -/
example : let s := run demoEnv (demoOps ++ [.drop 2]) (St.init demoPage)
    let s1 := (step demoEnv (.dropMgr 0) s).1
    s.mgrOf 0 = some 0 ∧ s.mgrHandles = [some 0, some 1] ∧ s.Alive 0 ∧ s.Alive 2 ∧
    s1.Alive 0 ∧ ¬ s1.Alive 2 ∧ withId (c! "stylist-global-style-2") s1.dom.inDoc = [] ∧
    withId (c! "stylist-style-0") s1.dom.inDoc ≠ [] := by decide

/-! ## C29: style elements appear in creation order -/

/-- **C29.** A manager that appends creates a style. Either the style existed and the page
stays as it is, or the container gets exactly one more child, at its end: the element with
the class and the text of the new style. -/
theorem C29_appends (env : Env) (hw : env.wasm = true) (d : Dom) (ops : List Op) (s s' : St)
    (hs : s = run env ops (St.init d)) (mh i k h : Nat) (m : Mgr) (kind : Kind) (src : Source) (fault : Bool)
    (hi : s.mgrOf mh = some i) (hm : s.mgrs[i]? = some m) (happ : m.append = true) (hlog : m.log = none)
    (hcont : m.container = some k) (h1 : step env (.create mh kind src fault) s = (s', .style h)) :
    (s'.heap = s.heap ∧ s'.dom = s.dom) ∨
    (s'.heap.length = s.heap.length + 1 ∧ ∃ id text, s'.className h = some id ∧ s'.styleText h = some text ∧
      s'.dom.childrenOf k = s.dom.childrenOf k ++ [.style id text] ∧
      ∀ k', k' ≠ k → s'.dom.childrenOf k' = s.dom.childrenOf k') := by
  have hinv : Inv s := hs ▸ inv_run env ops (Inv.init d)
  have ht := step_tr env hinv (.create mh kind src fault)
  rw [h1] at ht
  simp only at ht
  generalize hout : Out.style h = out at ht
  cases ht with
  | createHit => exact Or.inl ⟨rfl, rfl⟩
  | createStatic _ _ _ _ _ i' m' ast l log c e1 e2 e3 e4 e5 e6 e7 =>
    rw [hi] at e1; cases e1
    rw [hm] at e2; cases e2
    rw [hlog] at e7; cases e7
  | createMount _ _ _ _ _ i' m' ast c d' e1 e2 e3 e4 e5 e6 e7 e8 =>
    rw [hi] at e1; cases e1
    rw [hm] at e2; cases e2
    cases hout
    refine Or.inr ⟨by simp [St.modReg, St.modMgr], c.id, c.text, ?_, ?_, ?_⟩
    · simp [St.className, St.contentOf, St.modReg, St.modMgr]
    · simp [St.styleText, St.contentOf, St.modReg, St.modMgr]
    · have hlt := hinv.container m (List.mem_of_getElem? hm) k hcont
      simp only [mount, hw, hcont, happ, if_true] at e8
      split at e8
      · cases e8
      · cases e8
        constructor
        · show (s.dom.appendChild k (.style c.id c.text)).childrenOf k = _
          rw [Dom.appendChild, childrenOf_setChildren _ _ _ _ hlt, if_pos rfl]
        · intro k' hk'
          show (s.dom.appendChild k (.style c.id c.text)).childrenOf k' = _
          rw [Dom.appendChild, childrenOf_setChildren _ _ _ _ hlt, if_neg (fun h => hk' h.symm)]
  | _ => cases hout

/-- An instance: a new style of manager 0 becomes the last child of its container. -/
example : let s' := (step demoEnv (.create 0 .scoped (.text (c! "top: 0;")) false) demoState).1
    ∃ id text, s'.className 4 = some id ∧ s'.dom.childrenOf 0 = demoState.dom.childrenOf 0 ++ [.style id text] := by
  intro s'
  rcases C29_appends demoEnv rfl demoPage demoOps demoState s' rfl 0 0 0 4 _ .scoped (.text (c! "top: 0;")) false rfl rfl
    rfl rfl rfl rfl with h | ⟨-, id, text, h1, -, h2, -⟩
  · exact absurd h.1 (by decide)
  · exact ⟨id, text, h1, h2⟩

/-- **C29** over histories. Of two styles that are alive, mounted into the same container,
the element of the one created first comes first, whatever happened in between. Style
elements prepended by other managers (which is impossible, see C30) or moved by the page
(excluded in `Op.page`) are not considered. -/
theorem C29_creation_order (env : Env) (hw : env.wasm = true) (d : Dom) (ops : List Op) (s : St)
    (hs : s = run env ops (St.init d)) (hid : ∀ c ∈ s.heap, cssIdent c.id = true)
    (hn : (s.heap.map Content.id).Nodup) (p q i : Nat) (c c' : Content) (hpq : p < q)
    (hc : s.heap[p]? = some c) (hc' : s.heap[q]? = some c') (hm : Mounts s c i) (hm' : Mounts s c' i)
    (ha : Attached d i) (hb : withId c.id d.inDoc = []) (hb' : withId c'.id d.inDoc = [])
    (hl : s.Alive p) (hl' : s.Alive q) :
    [c.element, c'.element].Sublist (s.dom.childrenOf i) := by
  subst hs
  have h0 : OrderInv d (St.init d) := by
    intro p q c c' i _ h; simp [St.init] at h
  have := OrderInv.run hw ops (Inv.init d) hid hn (PageInv.init d) h0 p q c c' i hpq hc hc' hm hm'
    (ha.of_map (attached_run env ops (Inv.init d))) hb hb' hl hl'
  rw [← this]
  exact List.filter_sublist

/-- Non-vacuity: the first and the third style of the demo. -/
example : ∃ c c', demoState.heap[0]? = some c ∧ demoState.heap[2]? = some c' ∧ Mounts demoState c 0 ∧
    Mounts demoState c' 0 ∧ Attached demoPage 0 ∧ withId c.id demoPage.inDoc = [] ∧
    withId c'.id demoPage.inDoc = [] ∧ demoState.Alive 0 ∧ demoState.Alive 2 :=
  ⟨_, _, rfl, rfl, ⟨rfl, _, rfl, rfl, rfl⟩, ⟨rfl, _, rfl, rfl, rfl⟩, ⟨_, rfl, rfl⟩, by decide, by decide, by decide,
    by decide⟩

/-! ## C30: prepending -/

/-- **C30 is false.** A manager built with `append(false)` cannot create a style once its
container has a child (in particular, it can never create a second style): the browser
call is made on the first child instead of the container and always throws. -/
theorem C30_false (env : Env) (hw : env.wasm = true) (hdbg : env.debugParser = false) (d : Dom) (ops : List Op) (s : St)
    (hs : s = run env ops (St.init d)) (mh i k : Nat) (m : Mgr) (kind : Kind) (src : Source) (fault : Bool) (ast : Sheet)
    (hi : s.mgrOf mh = some i) (hm : s.mgrs[i]? = some m) (happ : m.append = false) (hlog : m.log = none)
    (hcont : m.container = some k) (hsrc : src.sheet? = some ast)
    (hnew : regGet m.reg (kind.key m.pref ast) = none) (hne : s.dom.childrenOf k ≠ []) :
    (step env (.create mh kind src fault) s).2 = .err .web := by
  have hinv : Inv s := hs ▸ inv_run env ops (Inv.init d)
  have hmount : ∀ c, mount env fault m c s.dom = none := by
    intro c
    cases fault with
    | true => simp [mount, hw]
    | false =>
      have : s.dom.firstChild k = some (.child k 0) := by
        unfold Dom.firstChild
        split
        · contradiction
        · rfl
      simp [mount, hw, hcont, happ, this, Dom.insertBefore, Dom.NodeRef.parent]
  rcases getOrRegister_eq env hinv hm fault (kind.key m.pref ast) with ⟨p, h1, -⟩ | ⟨-, h1⟩
  · rw [hnew] at h1; cases h1
  · rcases h1 with ⟨h1, -⟩ | ⟨-, ⟨l, log, h1, -⟩ | ⟨-, -, h1⟩ | ⟨dd, -, h1, -⟩⟩
    · rw [hdbg] at h1; cases h1
    · rw [hlog] at h1; cases h1
    · simp only [step, create, hi, hm, hsrc, h1]
    · rw [hmount] at h1; cases h1

/-- An instance: `<head>` of the demo page is not empty. -/
example : (step demoEnv (.create 0 .scoped (.text (c! "color: red;")) false)
    (run demoEnv [.newMgr (c! "a") none false none] (St.init demoPage))).2 = .err .web :=
  C30_false demoEnv rfl rfl demoPage [.newMgr (c! "a") none false none] _ rfl 0 0 0 _ .scoped
    (.text (c! "color: red;")) false demoRed rfl rfl rfl rfl rfl (by decide) rfl (by decide)

/-- The witness: the second style of such a manager. -/
theorem C30_false_second :
    outs demoEnv [.newMgr (c! "a") (some 1) false none, .create 0 .scoped (.text (c! "color: red;")) false,
      .create 0 .scoped (.text (c! "color: blue;")) false] (St.init demoPage) = [.mgr 0, .style 0, .err .web] := by decide

/-- **C30**, the part that holds: while the container is empty, the element becomes its
first child. Missing: containers with children. -/
theorem C30_prepend_partial (env : Env) (hw : env.wasm = true) (hdbg : env.debugParser = false) (d : Dom)
    (ops : List Op) (s : St)
    (hs : s = run env ops (St.init d)) (mh i k : Nat) (m : Mgr) (kind : Kind) (src : Source) (ast : Sheet)
    (hi : s.mgrOf mh = some i) (hm : s.mgrs[i]? = some m) (hlog : m.log = none)
    (hcont : m.container = some k) (hsrc : src.sheet? = some ast)
    (hnew : regGet m.reg (kind.key m.pref ast) = none) (hempty : s.dom.childrenOf k = []) :
    ∃ s' h id text, step env (.create mh kind src false) s = (s', .style h) ∧ s'.className h = some id ∧
      s'.styleText h = some text ∧ s'.dom.childrenOf k = [.style id text] := by
  have hinv : Inv s := hs ▸ inv_run env ops (Inv.init d)
  have hlt := hinv.container m (List.mem_of_getElem? hm) k hcont
  have hmount : ∀ c, mount env false m c s.dom = some (s.dom.appendChild k (.style c.id c.text)) := by
    intro c
    have : s.dom.firstChild k = none := by
      unfold Dom.firstChild
      rw [hempty]
    cases h : m.append <;> simp [mount, hw, hcont, this, h]
  rcases getOrRegister_eq env hinv hm false (kind.key m.pref ast) with ⟨p, h1, -⟩ | ⟨-, h1⟩
  · rw [hnew] at h1; cases h1
  · rcases h1 with ⟨h1, -⟩ | ⟨-, ⟨l, log, h1, -⟩ | ⟨-, h1, -⟩ | ⟨dd, -, h1, h2⟩⟩
    · rw [hdbg] at h1; cases h1
    · rw [hlog] at h1; cases h1
    · rw [hmount] at h1; cases h1
    · rw [hmount] at h1; cases h1
      refine ⟨(step env (.create mh kind src false) s).1, s.handles.length, (newContent env s i (kind.key m.pref ast)).id,
        (newContent env s i (kind.key m.pref ast)).text, ?_⟩
      simp only [step, create, hi, hm, hsrc, h2]
      refine ⟨rfl, ?_, ?_, ?_⟩
      · simp [St.className, St.contentOf, St.modReg, St.modMgr]
      · simp [St.styleText, St.contentOf, St.modReg, St.modMgr]
      · show (s.dom.appendChild k _).childrenOf k = _
        rw [Dom.appendChild, childrenOf_setChildren _ _ _ _ hlt, if_pos rfl, hempty]
        rfl

/-- An instance. -/
example : let s := run demoEnv [.newMgr (c! "a") (some 1) false none] (St.init demoPage)
    ∃ s' h id text, step demoEnv (.create 0 .scoped (.text (c! "color: red;")) false) s = (s', .style h) ∧
      s'.className h = some id ∧ s'.styleText h = some text ∧ s'.dom.childrenOf 1 = [.style id text] :=
  C30_prepend_partial demoEnv rfl rfl demoPage [.newMgr (c! "a") (some 1) false none] _ rfl 0 0 1 _ .scoped
    (.text (c! "color: red;")) demoRed rfl rfl rfl rfl (by decide) rfl rfl

/-- **C30**: exactly when a manager built with `append(false)` makes a style, in any
reachable state and without a fault of the browser: if it has the style already, or its
container is empty. -/
theorem C30_succeeds_iff (env : Env) (hw : env.wasm = true) (hdbg : env.debugParser = false) (d : Dom)
    (ops : List Op) (s : St)
    (hs : s = run env ops (St.init d)) (mh i k : Nat) (m : Mgr) (kind : Kind) (src : Source) (ast : Sheet)
    (hi : s.mgrOf mh = some i) (hm : s.mgrs[i]? = some m) (happ : m.append = false) (hlog : m.log = none)
    (hcont : m.container = some k) (hsrc : src.sheet? = some ast) :
    (∃ h, (step env (.create mh kind src false) s).2 = .style h) ↔
      regGet m.reg (kind.key m.pref ast) ≠ none ∨ s.dom.childrenOf k = [] := by
  by_cases hnew : regGet m.reg (kind.key m.pref ast) = none
  · by_cases hempty : s.dom.childrenOf k = []
    · obtain ⟨s', h, -, -, h1, -⟩ := C30_prepend_partial env hw hdbg d ops s hs mh i k m kind src ast hi hm hlog hcont
        hsrc hnew hempty
      exact ⟨fun _ => .inr hempty, fun _ => ⟨h, by rw [h1]⟩⟩
    · have := C30_false env hw hdbg d ops s hs mh i k m kind src false ast hi hm happ hlog hcont hsrc hnew hempty
      rw [this]
      constructor
      · rintro ⟨h, h1⟩; cases h1
      · rintro (h | h)
        · exact absurd hnew h
        · exact absurd h hempty
  · have hinv : Inv s := hs ▸ inv_run env ops (Inv.init d)
    refine ⟨fun _ => .inl hnew, fun _ => ?_⟩
    rcases getOrRegister_eq env hinv hm false (kind.key m.pref ast) with ⟨p, h1, h2⟩ | ⟨h1, -⟩
    · simp only [step, create, hi, hm, hsrc, h2]
      exact ⟨_, rfl⟩
    · exact absurd h1 hnew

/-- Non-vacuity of `C30_prepend_partial`. -/
example : let s := run demoEnv [.newMgr (c! "a") (some 1) false none] (St.init demoPage)
    s.mgrOf 0 = some 0 ∧ s.mgrs = [⟨c! "a", some 1, false, none, [], false⟩] ∧ s.dom.childrenOf 1 = [] := by decide

/-! ## C31: static rendering -/

/-- **C31.** A manager with a static writer creates a style: the page is not touched. If
the style is new, one entry with its key, class and text is recorded after the others;
otherwise nothing is recorded. -/
theorem C31_records (env : Env) (d : Dom) (ops : List Op) (s s' : St) (hs : s = run env ops (St.init d))
    (mh i l h : Nat) (m : Mgr) (log : Log) (kind : Kind) (src : Source) (ast : Sheet) (fault : Bool)
    (hi : s.mgrOf mh = some i) (hm : s.mgrs[i]? = some m) (hlog : m.log = some l) (hl : s.logs[l]? = some log)
    (hsrc : src.sheet? = some ast) (h1 : step env (.create mh kind src fault) s = (s', .style h)) :
    s'.dom = s.dom ∧
    ((regGet m.reg (kind.key m.pref ast) ≠ none ∧ s'.logs = s.logs) ∨
     (regGet m.reg (kind.key m.pref ast) = none ∧ ∃ id text, s'.className h = some id ∧ s'.styleText h = some text ∧
       (s'.logs[l]?).map Log.entries = some (log.entries ++ [⟨kind.key m.pref ast, id, text⟩]) ∧
       ∀ l', l' ≠ l → s'.logs[l']? = s.logs[l']?)) := by
  have hinv : Inv s := hs ▸ inv_run env ops (Inv.init d)
  have ht := step_tr env hinv (.create mh kind src fault)
  rw [h1] at ht
  simp only at ht
  generalize hout : Out.style h = out at ht
  cases ht with
  | createHit _ _ _ _ _ i' m' ast' p e1 e2 e3 e4 =>
    rw [hi] at e1; cases e1
    rw [hm] at e2; cases e2
    rw [hsrc] at e3; cases e3
    exact ⟨rfl, Or.inl ⟨by rw [e4]; simp, rfl⟩⟩
  | createStatic _ _ _ _ _ i' m' ast' l' log' c e1 e2 e3 e4 e5 e6 e7 e8 =>
    rw [hi] at e1; cases e1
    rw [hm] at e2; cases e2
    rw [hsrc] at e3; cases e3
    rw [hlog] at e7; cases e7
    rw [hl] at e8; cases e8
    cases hout
    have hlt := (List.getElem?_eq_some_iff.1 hl).1
    refine ⟨rfl, Or.inr ⟨e4, c.id, c.text, ?_, ?_, ?_, ?_⟩⟩
    · simp [St.className, St.contentOf, St.modReg, St.modMgr]
    · simp [St.styleText, St.contentOf, St.modReg, St.modMgr]
    · simp only [St.modReg, St.modMgr, List.getElem?_set_self hlt, Option.map_some]
      rw [show c.key = kind.key m.pref ast by rw [e5]; rfl]
    · intro l' hl'
      simp only [St.modReg, St.modMgr, List.getElem?_set_ne (fun h => hl' h.symm)]
  | createMount _ _ _ _ _ i' m' ast' c d' e1 e2 e3 e4 e5 e6 e7 e8 =>
    rw [hi] at e1; cases e1
    rw [hm] at e2; cases e2
    rw [hlog] at e7; cases e7
  | _ => cases hout

/-- **C31**, reading: in every reachable state, what is recorded is the styles created by
this manager, in order of creation, each with its key, class and text, and nothing else
(no style of another manager, no style that was loaded). `style_data` and
`read_style_data` return this list. -/
theorem C31_read (env : Env) (d : Dom) (ops : List Op) (s : St) (hs : s = run env ops (St.init d))
    (i l : Nat) (m : Mgr) (hm : s.mgrs[i]? = some m) (hlog : m.log = some l) :
    (∀ mh, s.mgrOf mh = some i → step env (.styleData mh) s = (s, .data ((createdBy i s.heap).map Content.entry))) ∧
    (∀ log, s.logs[l]? = some log → log.readerTaken = false →
      (step env (.readData l) s).2 = .data ((createdBy i s.heap).map Content.entry)) := by
  have hinv : Inv s := hs ▸ inv_run env ops (Inv.init d)
  have hli : LogInv s := hs ▸ LogInv.run ops (Inv.init d) (LogInv.init d)
  obtain ⟨log, h1, -⟩ := hinv.log m (List.mem_of_getElem? hm) l hlog
  have hent := hli.log i m l log hm hlog h1
  have hpo := hinv.poison log (List.mem_of_getElem? h1)
  constructor
  · intro mh hmh
    simp [step, hmh, hm, hlog, h1, hpo, hent]
  · intro log' h2 h3
    rw [h1] at h2; cases h2
    simp [step, h1, h3, hpo, hent]

/-- **C31**, each once: if no style of the manager is unregistered, no key is recorded
twice. -/
theorem C31_once (env : Env) (d : Dom) (ops : List Op) (s : St) (hs : s = run env ops (St.init d))
    (i l : Nat) (m : Mgr) (hm : s.mgrs[i]? = some m) (hlog : m.log = some l)
    (hu : Along env (fun t op => ∀ k, ¬ Unregisters op t i k) ops (St.init d)) :
    ((createdBy i s.heap).map Content.key).Nodup := by
  subst hs
  refine (OnceInv.run ops (Inv.init d) ?_ hu ⟨by simp [createdBy, St.init], by simp [St.init]⟩).keys
  intro m' hm'
  rw [hm] at hm'; cases hm'
  rw [hlog]; simp

/-- A server with a static manager, and what it records. -/
def serverEnv : Env := { demoEnv with wasm := false }

/-- A static manager creates three styles, one of them twice. -/
def serverOps : List Op :=
  [ .renderStatic,
    .newMgr (c! "stylist") none true (some 0),
    .create 0 .scoped (.text (c! "color: red;")) false,
    .create 0 .scoped (.sheet demoRed) false,
    .create 0 (.withPrefix (c! "app")) (.text (c! "color: red;")) false,
    .create 0 .global (.sheet demoRed) false ]

/-- The state after it. -/
def serverState : St := run serverEnv serverOps (St.init [])

/-- Non-vacuity. -/
example : (serverState.mgrs[0]?).map Mgr.log = some (some 0) ∧
    (step serverEnv (.readData 0) serverState).2 = .data [
      ⟨⟨false, c! "stylist", demoRed⟩, c! "stylist-style-0", c! ".stylist-style-0 {\n    color: red;\n}\n"⟩,
      ⟨⟨false, c! "app", demoRed⟩, c! "app-style-1", c! ".app-style-1 {\n    color: red;\n}\n"⟩,
      ⟨⟨true, c! "stylist", demoRed⟩, c! "stylist-global-style-2", c! ":root {\n    color: red;\n}\n"⟩] := by decide

/-- Non-vacuity of `C31_once`. -/
example : Along serverEnv (fun t op => ∀ k, ¬ Unregisters op t 0 k) serverOps (St.init []) := by
  simp [serverOps, Along, Unregisters]

/-- An instance: the third style of the server. -/
example : let s := run serverEnv (serverOps.take 5) (St.init [])
    let s' := (step serverEnv (.create 0 .global (.sheet demoRed) false) s).1
    ∃ id text, s'.className 3 = some id ∧ (s'.logs[0]?).map Log.entries =
      (s.logs[0]?).map fun log => log.entries ++ [⟨⟨true, c! "stylist", demoRed⟩, id, text⟩] := by
  intro s s'
  rcases (C31_records serverEnv [] (serverOps.take 5) s s' rfl 0 0 0 3 _ _ .global (.sheet demoRed) demoRed false rfl rfl rfl
    rfl rfl rfl).2 with h | ⟨-, id, text, h1, -, h2, -⟩
  · exact absurd h.1 (by decide)
  · exact ⟨id, text, h1, h2⟩

/-- An instance: what the reader returns is what the manager returns. -/
example : (step serverEnv (.styleData 0) serverState).2 = (step serverEnv (.readData 0) serverState).2 := by
  have h := C31_read serverEnv [] serverOps serverState rfl 0 0 _ rfl rfl
  rw [h.1 0 rfl, h.2 _ rfl rfl]

/-- Unregistering and creating again records a key twice: `C31_once` needs its
hypothesis. -/
theorem C31_twice : (step serverEnv (.readData 0)
    (run serverEnv [.renderStatic, .newMgr (c! "stylist") none true (some 0),
      .create 0 .scoped (.sheet demoRed) false, .unregister 0, .create 0 .scoped (.sheet demoRed) false]
      (St.init []))).2 = .data [
      ⟨⟨false, c! "stylist", demoRed⟩, c! "stylist-style-0", c! ".stylist-style-0 {\n    color: red;\n}\n"⟩,
      ⟨⟨false, c! "stylist", demoRed⟩, c! "stylist-style-1", c! ".stylist-style-1 {\n    color: red;\n}\n"⟩] := by
  decide

/-! ## C37: the text is the rendering of the sheet -/

/-- **C37** for scoped styles: what creation returns has, in every later state in which the
handle exists, the text that is the rendering of the sheet under its own class. -/
theorem C37_scoped_text (env : Env) (d : Dom) (ops ops' : List Op) (mh i h : Nat) (kind : Kind) (src : Source)
    (fault : Bool) (ast : Sheet) (s s1 s2 : St) (m : Mgr) (hs : s = run env ops (St.init d))
    (hi : s.mgrOf mh = some i) (hm : s.mgrs[i]? = some m) (hk : kind ≠ .global)
    (hsrc : src.sheet? = some ast) (h1 : step env (.create mh kind src fault) s = (s1, .style h))
    (h2 : s2 = run env ops' s1) (id text : Str) (hc : s2.className h = some id) (ht : s2.styleText h = some text) :
    text = ast.toStyleStr (some id) := by
  obtain ⟨c, -, rfl, rfl, e3, -, e4⟩ :=
    created_content env d ops ops' mh i h kind src fault ast s s1 s2 m hs hi hm hsrc h1 h2 id text hc ht
  rw [TextOk, e3] at e4
  cases kind with
  | global => exact absurd rfl hk
  | _ => simpa [Kind.key] using e4

/-- An instance: the style with its own prefix, after it was unregistered. -/
example : ∀ id text, (run serverEnv [.unregister 2] (run serverEnv (serverOps.take 5) (St.init []))).className 2 = some id →
    (run serverEnv [.unregister 2] (run serverEnv (serverOps.take 5) (St.init []))).styleText 2 = some text →
    text = demoRed.toStyleStr (some id) :=
  C37_scoped_text serverEnv [] (serverOps.take 4) [.unregister 2] 0 0 2 (.withPrefix (c! "app"))
    (.text (c! "color: red;")) false demoRed _ _ _ _ rfl rfl rfl (by decide) (by decide) rfl rfl

/-- **C37** for global styles that were not loaded: the global rendering. Loaded global
styles are different, see C34. -/
theorem C37_global_text (env : Env) (d : Dom) (ops ops' : List Op) (mh i h : Nat) (src : Source)
    (fault : Bool) (ast : Sheet) (s s1 s2 : St) (m : Mgr) (hs : s = run env ops (St.init d))
    (hi : s.mgrOf mh = some i) (hm : s.mgrs[i]? = some m)
    (hload : ∀ mh data e, Op.load mh data ∈ ops → e ∈ data → e.key ≠ Kind.global.key m.pref ast)
    (hsrc : src.sheet? = some ast) (h1 : step env (.create mh .global src fault) s = (s1, .style h))
    (h2 : s2 = run env ops' s1) (id text : Str) (hc : s2.className h = some id) (ht : s2.styleText h = some text) :
    text = ast.toStyleStr none := by
  obtain ⟨c, hmem, rfl, rfl, e3, -, e4⟩ :=
    created_content env d ops ops' mh i h .global src fault ast s s1 s2 m hs hi hm hsrc h1 h2 id text hc ht
  have ho : c.origin = .created := by
    cases ho : c.origin with
    | created => rfl
    | hydrated =>
      exfalso
      have := hydrated_run env (ops ++ [.create mh .global src fault]) (Inv.init d) c
        (by rw [run_append, ← hs, run, run, h1]; exact hmem) ho
      rcases this with h | ⟨mh', data, e, h3, h4, h5⟩
      · simp [St.init] at h
      · rcases List.mem_append.1 h3 with h3 | h3
        · refine hload mh' data e h3 h4 ?_
          rw [← e3, h5]; rfl
        · simp at h3
  rw [TextOk, e3, ho] at e4
  simpa [Kind.key] using e4

/-- Non-vacuity: a scoped and a global style. -/
example : demoState.styleText 1 = some (demoRed.toStyleStr (some (c! "app-style-1"))) ∧
    demoState.className 1 = some (c! "app-style-1") ∧ demoState.styleText 2 = some (demoRed.toStyleStr none) ∧
    (step demoEnv (.create 0 .global (.sheet demoRed) false) (run demoEnv (demoOps.take 4) (St.init demoPage))).2 =
      .style 2 := by decide

end Manager
