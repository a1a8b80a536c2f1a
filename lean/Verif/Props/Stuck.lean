import Verif.Proofs.Stuck
import Verif.Props.Shadow
import Verif.Props.Prefix

/-!
# Property theorems: styles whose element cannot be found again

C22. What happens to the elements of styles whose ids are no CSS identifiers.
-/

namespace Manager

open Spec

/-- **C22**, what is there instead when an id is no CSS identifier, exactly: in every
reachable state, the elements with that id in a container are those it had before, and after
them the elements of all styles with that id that were ever made for it, alive or not. Other
styles may have any ids. -/
theorem C22_rejected_exactly (env : Env) (hw : env.wasm = true) (hq : Rejects env) (d : Dom) (ops : List Op) (i : Nat)
    (hi : i < d.length) (id : Str) (hid : cssIdent id = false) :
    withId id ((run env ops (St.init d)).dom.childrenOf i) =
      withId id (d.childrenOf i) ++ ((everMade env i ops (St.init d)).filter fun c => c.id = id).map Content.element :=
  run_rejected hw hq hid ops (Inv.init d) hi

/-- **C22**: a style with such an id that was ever alive has its element in the page for
ever, whatever is done to it later. -/
theorem C22_rejected_stays (env : Env) (hw : env.wasm = true) (hq : Rejects env) (d : Dom) (ops ops' : List Op) (s s' : St)
    (hs : s = run env ops (St.init d)) (hs' : s' = run env ops' s) (p i : Nat) (c : Content)
    (hc : s.heap[p]? = some c) (ha : s.Alive p) (hm : Mounts s c i) (hi : i < d.length) (hid : cssIdent c.id = false) :
    c.element ∈ s'.dom.childrenOf i := by
  subst hs hs'
  have h1 := mem_everMade ops (Inv.init d) (by simp [St.init]) hc ha hm
  have h2 : c.element ∈ withId c.id ((run env ops (St.init d)).dom.childrenOf i) := by
    rw [C22_rejected_exactly env hw hq d ops i hi c.id hid]
    exact List.mem_append_right _ (List.mem_map.2 ⟨c, List.mem_filter.2 ⟨h1, by simp⟩, rfl⟩)
  have hl : i < (run env ops (St.init d)).dom.length := by
    have := congrArg List.length (attached_run env ops (Inv.init d))
    simp only [List.length_map] at this
    rw [this]
    exact hi
  have h3 := run_rejected hw hq hid ops' (inv_run env ops (Inv.init d)) hl
  have h4 : c.element ∈ withId c.id ((run env ops' (run env ops (St.init d))).dom.childrenOf i) := by
    rw [h3]; exact List.mem_append_left _ h2
  exact (List.mem_filter.1 h4).1

/-- A style of a manager with the prefix `1`, made and given up: its element stays. -/
example : Child.style (c! "1-style-0") (c! ".1-style-0 {\n    color: red;\n}\n") ∈
    (run demoEnv [.unregister 0, .drop 0] (run demoEnv [.newMgr (c! "1") none true none,
      .create 0 .scoped (.sheet demoRed) false] (St.init demoPage))).dom.childrenOf 0 :=
  C22_rejected_stays demoEnv rfl (fun _ _ _ => rfl) demoPage _ _ _ _ rfl rfl 0 0
    ⟨c! "1-style-0", ⟨false, c! "1", demoRed⟩, c! ".1-style-0 {\n    color: red;\n}\n", 0, .created⟩
    (by decide) (by decide) ⟨rfl, _, rfl, rfl, rfl⟩ (by decide) (by decide)

/-- **C22**, in terms of the prefix: a manager that puts its styles into container `j` makes a
style under a prefix that is neither empty, nor a dash, nor a CSS identifier. Whatever is done
later, to this style or to others, an element with its class and its text is in the
container. -/
theorem C22_prefix_stays (env : Env) (hw : env.wasm = true) (hq : Rejects env) (d : Dom) (ops ops' : List Op)
    (s s1 s' : St) (hs : s = run env ops (St.init d)) (hload : ∀ mh data, Op.load mh data ∉ ops)
    (mh h i j : Nat) (kind : Kind) (src : Source) (fault : Bool) (m : Mgr) (ast : Sheet) (hi : s.mgrOf mh = some i)
    (hm : s.mgrs[i]? = some m) (hsrc : src.sheet? = some ast)
    (h1 : step env (.create mh kind src fault) s = (s1, .style h))
    (he : env.entropy = counterEntropy ∨ (∀ n, ∀ c ∈ env.entropy n, c.isAlphanum = true))
    (hlog : m.log = none) (hcont : m.container = some j) (hj : j < d.length)
    (hp : cssIdent (kind.prefixOr m.pref) = false) (hp1 : kind.prefixOr m.pref ≠ c! "-") (hp2 : kind.prefixOr m.pref ≠ [])
    (hs' : s' = run env ops' s1) :
    ∃ cls text, s1.className h = some cls ∧ s1.styleText h = some text ∧
      Child.style cls text ∈ s'.dom.childrenOf j := by
  obtain ⟨p, c, a1, a2, a3, a4, -⟩ := create_created env d ops s s1 hs hload mh h i kind src fault m ast hi hm hsrc h1
  obtain ⟨n, -, cls, b1, -, b2⟩ := C66_exactly env d ops s s1 hs hload mh h i kind src fault m ast hi hm hsrc h1 he
  have hcls : s1.className h = some c.id := by simp [St.className, a1, a2]
  have htext : s1.styleText h = some c.text := by simp [St.styleText, a1, a2]
  rw [hcls] at b1
  cases b1
  have hid : cssIdent c.id = false := by
    rw [Bool.eq_false_iff]
    intro hc
    rcases b2.1 hc with h2 | h2 | ⟨h2, -⟩
    · rw [hp] at h2; cases h2
    · exact hp1 h2
    · exact hp2 h2
  have hinv : Inv s := hs ▸ inv_run env ops (Inv.init d)
  obtain ⟨m', c1, c2, -⟩ := (step_tr env hinv (.create mh kind src fault)).mgr hm
  rw [h1] at c1
  have hrun : s1 = run env (ops ++ [.create mh kind src fault]) (St.init d) := by
    rw [run_append, ← hs, run, run, h1]
  have halive : s1.Alive p := by
    refine Or.inl ?_
    simp only [St.contentOf, Option.join_eq_some_iff] at a1
    exact List.mem_of_getElem? a1
  refine ⟨c.id, c.text, hcls, htext, C22_rejected_stays env hw hq d _ ops' s1 s' hrun hs' p j c a2 halive
    ⟨a3, m', by rw [a4]; exact c1, by rw [c2.2.2.2, hlog], by rw [c2.2.1, hcont]⟩ hj hid⟩

/-- The prefix `1`. -/
example : ∃ cls text, Child.style cls text ∈ (run demoEnv [.unregister 0, .drop 0] (step demoEnv
      (.create 0 .scoped (.sheet demoRed) false) (run demoEnv [.newMgr (c! "1") none true none]
        (St.init demoPage))).1).dom.childrenOf 0 := by
  obtain ⟨cls, text, -, -, h⟩ := C22_prefix_stays demoEnv rfl (fun _ _ _ => rfl) demoPage
    [.newMgr (c! "1") none true none] [.unregister 0, .drop 0] _ _ _ rfl (by simp) 0 0 0 0 .scoped (.sheet demoRed) false
    ⟨c! "1", some 0, true, none, [], false⟩ demoRed (by decide) (by decide) rfl (Prod.ext rfl (by decide)) (Or.inl rfl) rfl rfl
    (by decide) (by decide) (by decide) (by decide) rfl
  exact ⟨cls, text, h⟩

end Manager
