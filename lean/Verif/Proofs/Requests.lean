import Verif.Spec.Requests
import Verif.Proofs.Threads
import Verif.Proofs.Contents

/-!
# Helper lemmas for what a thread asks for
-/

namespace Manager

/-- What is known of manager `i`, which writes to `l`, is right. -/
structure Right (l i : Nat) (s : St) (a : Asked) : Prop where
  mgr : ∃ m, s.mgrs[i]? = some m ∧ m.log = some l ∧ m.pref = a.pref ∧
    (some i ∈ s.mgrHandles → ∀ k ∈ a.keys, ∃ p, regGet m.reg k = some p)
  val : ∀ h : Nat, s.mgrHandles[h]? = some (some i) → h ∈ a.values
  val' : ∀ h ∈ a.values, s.mgrHandles[h]? = some (some i) ∨ s.mgrHandles[h]? = some none
  made : ∀ c ∈ s.heap, c.mgr = i → c.origin = .created
  keys : a.keys = (s.heap.filter (fun c => c.mgr = i)).map Content.key

theorem Right.withCtr {l i : Nat} {s : St} {a : Asked} (h : Right l i s a) (n : Nat) : Right l i (s.withCtr n) a :=
  ⟨h.mgr, h.val, h.val', h.made, h.keys⟩

theorem Right.unCtr {l i : Nat} {s : St} {a : Asked} {n : Nat} (h : Right l i (s.withCtr n) a) : Right l i s a :=
  ⟨h.mgr, h.val, h.val', h.made, h.keys⟩

theorem Right.lt {l i : Nat} {s : St} {a : Asked} (h : Right l i s a) : i < s.mgrs.length := by
  obtain ⟨m, hm, -⟩ := h.mgr
  exact (List.getElem?_eq_some_iff.1 hm).1

theorem Right.get {l i : Nat} {s : St} {a : Asked} (h : Right l i s a) {mh : Nat} (hv : mh ∈ a.values) :
    s.mgrOf mh = some i ∨ s.mgrOf mh = none := by
  rcases h.val' mh hv with e | e <;> simp [St.mgrOf, e]

theorem Right.iff {l i : Nat} {s : St} {a : Asked} (h : Right l i s a) {mh j : Nat} (hm : s.mgrOf mh = some j) :
    mh ∈ a.values ↔ j = i := by
  constructor
  · intro hv
    rcases h.get hv with e | e <;> rw [e] at hm <;> cases hm
    rfl
  · rintro rfl
    refine h.val mh ?_
    simp only [St.mgrOf] at hm
    cases e : s.mgrHandles[mh]? with
    | none => rw [e] at hm; cases hm
    | some x => rw [e] at hm; simp at hm; rw [hm]

/-- Handles of a manager, with a new handle of another manager, and without one of another. -/
theorem Right.handles_append {l i : Nat} {s : St} {a : Asked} (h : Right l i s a) {j : Nat} (hj : j ≠ i) :
    (∀ k : Nat, (s.mgrHandles ++ [some j])[k]? = some (some i) → k ∈ a.values) ∧
    ∀ k ∈ a.values, (s.mgrHandles ++ [some j])[k]? = some (some i) ∨ (s.mgrHandles ++ [some j])[k]? = some none := by
  constructor
  · intro k hk
    rcases get_append_cases hk with ⟨-, hk⟩ | ⟨-, hk⟩
    · exact h.val k hk
    · cases hk; exact absurd rfl hj
  · intro k hk
    have hlt : k < s.mgrHandles.length := by
      rcases h.val' k hk with e | e <;> exact (List.getElem?_eq_some_iff.1 e).1
    rw [List.getElem?_append_left hlt]
    exact h.val' k hk

theorem Right.handles_set {l i : Nat} {s : St} {a : Asked} (h : Right l i s a) (mh : Nat) :
    (∀ k : Nat, (s.mgrHandles.set mh none)[k]? = some (some i) → k ∈ a.values) ∧
    ∀ k ∈ a.values, (s.mgrHandles.set mh none)[k]? = some (some i) ∨ (s.mgrHandles.set mh none)[k]? = some none := by
  constructor
  · intro k hk
    rw [List.getElem?_set] at hk
    split at hk
    · split at hk <;> cases hk
    · exact h.val k hk
  · intro k hk
    rw [List.getElem?_set]
    split
    · rename_i e
      subst e
      have hlt : mh < s.mgrHandles.length := by
        rcases h.val' mh hk with e | e <;> exact (List.getElem?_eq_some_iff.1 e).1
      simp [hlt]
    · exact h.val' k hk

/-- The same if handles, and contents of the manager, are the same. -/
theorem Right.same {l i : Nat} {s s' : St} {a : Asked} (h : Right l i s a) {m : Mgr} (hm : s.mgrs[i]? = some m)
    (hm' : s'.mgrs[i]? = some m) (hi : some i ∈ s'.mgrHandles → some i ∈ s.mgrHandles)
    (hh : (∀ k : Nat, s'.mgrHandles[k]? = some (some i) → k ∈ a.values) ∧
      ∀ k ∈ a.values, s'.mgrHandles[k]? = some (some i) ∨ s'.mgrHandles[k]? = some none)
    {more : List Content} (hheap : s'.heap = s.heap ++ more) (hmore : ∀ c ∈ more, c.mgr ≠ i) : Right l i s' a := by
  obtain ⟨m0, h1, h2, h3, h4⟩ := h.mgr
  rw [hm] at h1; cases h1
  refine ⟨⟨m, hm', h2, h3, fun hx => h4 (hi hx)⟩, hh.1, hh.2, ?_, ?_⟩
  · intro c hc hci
    rw [hheap] at hc
    rcases List.mem_append.1 hc with hc | hc
    · exact h.made c hc hci
    · exact absurd hci (hmore c hc)
  · rw [h.keys, hheap, List.filter_append]
    have : more.filter (fun c => decide (c.mgr = i)) = [] := by
      rw [List.filter_eq_nil_iff]
      intro c hc
      simpa using hmore c hc
    rw [this, List.append_nil]

/-- Calls on other managers. -/
theorem Right.other {env : Env} {op : Op} {s s' : St} {out : Out} {l i : Nat} {a : Asked} (h : Right l i s a) (hi : Inv s)
    (ht : Tr env op s s' out) (hop : op.manager s ≠ some i) : Right l i s' a := by
  obtain ⟨m, hm, -⟩ := h.mgr
  obtain ⟨h1, h2, -⟩ := ht.isolated hi hm hop
  have keep : s'.mgrHandles = s.mgrHandles → ∀ more, s'.heap = s.heap ++ more → (∀ c ∈ more, c.mgr ≠ i) → Right l i s' a :=
    fun e more e' hmore => h.same hm h1 h2.1 (by rw [e]; exact ⟨h.val, h.val'⟩) e' hmore
  have keep0 : s'.mgrHandles = s.mgrHandles → s'.heap = s.heap → Right l i s' a :=
    fun e e' => keep e [] (by simpa using e') (by simp)
  cases ht with
  | newMgr => exact h.same hm h1 h2.1 (h.handles_append (Nat.ne_of_gt h.lt)) (more := []) (by simp) (by simp)
  | cloneMgr mh j _ hj =>
    refine h.same hm h1 h2.1 (h.handles_append ?_) (more := []) (by simp) (by simp)
    simpa [Op.manager, hj] using hop
  | dropMgr mh j _ hj => exact h.same hm h1 h2.1 (h.handles_set mh) (more := []) (by simp) (by simp)
  | dropMgrLast mh j _ m0 hj =>
    refine h.same hm h1 h2.1 ?_ (more := []) (by rw [(releaseAll_fields env _ _).1]; simp [St.modReg, St.modMgr]) (by simp)
    rw [(releaseAll_fields env _ _).2.2.2.1]
    exact h.handles_set mh
  | createStatic mh kind src fault _ j m0 ast l' log c e1 e2 e3 e4 e5 =>
    refine keep rfl [c] rfl ?_
    intro c' hc'
    simp only [List.mem_singleton] at hc'
    subst hc'
    rw [e5]
    simpa [Op.manager, e1, newContent] using hop
  | createFail mh kind src fault _ j m0 ast c e1 e2 e3 e4 e5 =>
    refine keep rfl [c] rfl ?_
    intro c' hc'
    simp only [List.mem_singleton] at hc'
    subst hc'
    rw [e5]
    simpa [Op.manager, e1, newContent] using hop
  | createMount mh kind src fault _ j m0 ast c d e1 e2 e3 e4 e5 =>
    refine keep rfl [c] rfl ?_
    intro c' hc'
    simp only [List.mem_singleton] at hc'
    subst hc'
    rw [e5]
    simpa [Op.manager, e1, newContent] using hop
  | drop => exact keep0 (release_fields env _ _).2.2.2.1 (release_fields env _ _).1
  | unregister => exact keep0 (release_fields env _ _).2.2.2.1 (release_fields env _ _).1
  | load mh j data _ _ r _ hj hr _ =>
    obtain ⟨es', -, e⟩ := hr.newContents
    refine keep hr.mgrs.1 _ e ?_
    intro c hc
    obtain ⟨x, -, rfl⟩ := List.mem_map.1 hc
    simpa [Op.manager, hj, loadedContent] using hop
  | _ => exact keep0 rfl rfl

/-- A key that is registered has been got. -/
theorem Right.known {l i : Nat} {s : St} {a : Asked} (h : Right l i s a) (hi : Inv s) {m : Mgr} (hm : s.mgrs[i]? = some m)
    {k : Key} {p : Nat} (hk : regGet m.reg k = some p) : k ∈ a.keys := by
  obtain ⟨c, h1, h2, h3⟩ := hi.reg i m hm _ (regGet_mem hk)
  rw [h.keys]
  refine List.mem_map.2 ⟨c, List.mem_filter.2 ⟨List.mem_of_getElem? h1, by simp [h3]⟩, h2⟩

/-- Calls of the thread of the manager. -/
theorem Right.own {env : Env} {op : Op} {s s' : St} {out : Out} {l i : Nat} {a : Asked} (h : Right l i s a) (hi : Inv s)
    (ht : Tr env op s s' out) (t : Nat) (hp : (Done.mk t op out).Plain) :
    ∃ a', heard l (some a) ⟨t, op, out⟩ = some a' ∧ Right l i s' a' := by
  by_cases hop : op.manager s = some i
  · obtain ⟨m, hm, hlog, hpref, hreg⟩ := h.mgr
    cases ht with
    | invalid => exact ⟨a, by cases op <;> rfl, h⟩
    | renderStatic => cases hop
    | newMgrErr => cases hop
    | newMgr => cases hop
    | cloneMgr mh j _ hj =>
      simp only [Op.manager, hj, Option.some.injEq] at hop
      subst hop
      refine ⟨{ a with values := a.values ++ [s.mgrHandles.length] }, ?_, ?_⟩
      · simp [heard, (h.iff hj).2 rfl]
      · refine ⟨⟨m, hm, hlog, hpref, fun _ => hreg (mgrOf_mem hj)⟩, ?_, ?_, h.made, h.keys⟩
        · intro k hk
          rcases get_append_cases hk with ⟨-, hk⟩ | ⟨rfl, -⟩
          · exact List.mem_append_left _ (h.val k hk)
          · simp
        · intro k hk
          rcases List.mem_append.1 hk with hk | hk
          · have hlt : k < s.mgrHandles.length := by
              rcases h.val' k hk with e | e <;> exact (List.getElem?_eq_some_iff.1 e).1
            show (s.mgrHandles ++ _)[k]? = _ ∨ (s.mgrHandles ++ _)[k]? = _
            rw [List.getElem?_append_left hlt]
            exact h.val' k hk
          · simp only [List.mem_singleton] at hk
            subst hk
            left; simp
    | dropMgr mh j _ hj hmem =>
      refine ⟨a, rfl, ⟨m, hm, hlog, hpref, fun hx => hreg ?_⟩, (h.handles_set mh).1, (h.handles_set mh).2, h.made, h.keys⟩
      simp only [Op.manager, hj, Option.some.injEq] at hop
      exact hop ▸ mgrOf_mem hj
    | dropMgrLast mh j _ m0 hj hn hm0 =>
      simp only [Op.manager, hj, Option.some.injEq] at hop
      subst hop
      obtain ⟨f1, -, f3, f4, -⟩ := releaseAll_fields env (m0.reg.map Prod.snd)
        (({ s with mgrHandles := s.mgrHandles.set mh none } : St).modReg j (fun _ => []))
      refine ⟨a, rfl, ⟨{ m with reg := [] }, ?_, hlog, hpref, fun hx => ?_⟩, ?_, ?_, ?_, ?_⟩
      · rw [f3]; simp [St.modReg, St.modMgr, hm]
      · rw [f4] at hx; exact absurd hx hn
      · rw [f4]; exact (h.handles_set mh).1
      · rw [f4]; exact (h.handles_set mh).2
      · rw [f1]; exact h.made
      · rw [f1]; exact h.keys
    | createSyntax => exact ⟨a, rfl, h⟩
    | createHit mh kind src fault _ j m0 ast p e1 e2 e3 e4 =>
      simp only [Op.manager, e1, Option.some.injEq] at hop
      subst hop
      rw [hm] at e2; cases e2
      have hk := h.known hi hm e4
      rw [hpref] at hk
      refine ⟨a, ?_, h.mgr, h.val, h.val', h.made, h.keys⟩
      simp [heard, e3, hk]
    | createDebug => exact ⟨a, rfl, h.mgr, h.val, h.val', h.made, h.keys⟩
    | createStatic mh kind src fault _ j m0 ast l' log c e1 e2 e3 e4 e5 =>
      simp only [Op.manager, e1, Option.some.injEq] at hop
      subst hop
      rw [hm] at e2; cases e2
      have hck : c.key = kind.key a.pref ast := by rw [e5, ← hpref]; rfl
      have hcm : c.mgr = j := by rw [e5]; rfl
      have hnk : kind.key a.pref ast ∉ a.keys := by
        intro hk
        obtain ⟨p, hp⟩ := hreg (mgrOf_mem e1) _ hk
        rw [← hpref, e4] at hp
        cases hp
      refine ⟨{ a with keys := a.keys ++ [kind.key a.pref ast] }, ?_, ?_⟩
      · simp [heard, e3, hnk, (h.iff e1).2 rfl]
      · refine ⟨⟨{ m with reg := m.reg ++ [(c.key, s.heap.length)] }, by simp [St.modReg, St.modMgr, hm], hlog, hpref, ?_⟩,
          h.val, h.val', ?_, ?_⟩
        · intro _ k hk
          rcases List.mem_append.1 hk with hk | hk
          · obtain ⟨p, hp⟩ := hreg (mgrOf_mem e1) _ hk
            refine ⟨p, ?_⟩
            simp only [regGet] at hp ⊢
            rw [List.find?_append]
            cases hf : m.reg.find? (fun e => decide (e.1 = k)) with
            | none => rw [hf] at hp; cases hp
            | some x => rw [hf] at hp; simpa using hp
          · simp only [List.mem_singleton] at hk
            subst hk
            refine ⟨s.heap.length, ?_⟩
            rw [← hpref] at hck
            simp only [regGet] at e4 ⊢
            rw [List.find?_append]
            rw [← hpref]
            cases hf : m.reg.find? (fun e => decide (e.1 = kind.key m.pref ast)) with
            | some x => rw [hf] at e4; cases e4
            | none => simp [hck]
        · intro c' hc' hci
          rcases List.mem_append.1 hc' with hc' | hc'
          · exact h.made c' hc' hci
          · simp only [List.mem_singleton] at hc'
            subst hc'
            rw [e5]; rfl
        · show a.keys ++ [_] = ((s.heap ++ [c]).filter _).map _
          rw [List.filter_append, List.map_append, ← h.keys]
          simp [hcm, hck]
    | createFail mh kind src fault _ j m0 ast c e1 e2 e3 e4 e5 e6 e7 =>
      simp only [Op.manager, e1, Option.some.injEq] at hop
      subst hop
      rw [hm] at e2; cases e2
      rw [hlog] at e7; cases e7
    | createMount mh kind src fault _ j m0 ast c d e1 e2 e3 e4 e5 e6 e7 =>
      simp only [Op.manager, e1, Option.some.injEq] at hop
      subst hop
      rw [hm] at e2; cases e2
      rw [hlog] at e7; cases e7
    | clone => exact ⟨a, rfl, h.mgr, h.val, h.val', h.made, h.keys⟩
    | drop =>
      obtain ⟨f1, -, f3, f4, -⟩ := release_fields env _ _
      refine ⟨a, rfl, ?_, ?_, ?_, ?_, ?_⟩
      · rw [f3, f4]; exact h.mgr
      · rw [f4]; exact h.val
      · rw [f4]; exact h.val'
      · rw [f1]; exact h.made
      · rw [f1]; exact h.keys
    | unregisterDead => exact absurd rfl (hp.1 _)
    | unregisterNone => exact absurd rfl (hp.1 _)
    | unregister => exact absurd rfl (hp.1 _)
    | load => exact absurd rfl (hp.2 _ _)
    | readData => cases hop
    | styleDataNone => exact ⟨a, rfl, h⟩
    | styleData => exact ⟨a, rfl, h⟩
    | page => cases hop
  · refine ⟨a, ?_, h.other hi ht hop⟩
    cases ht with
    | newMgr pref cont append writer cont' _ hw =>
      have : writer ≠ some l := by
        rintro rfl
        obtain ⟨m, hm, hlog, -⟩ := h.mgr
        obtain ⟨log, h1, h2⟩ := hi.log m (List.mem_of_getElem? hm) l hlog
        obtain ⟨log', h3, h4⟩ := hw l rfl
        rw [h1] at h3; cases h3
        rw [h2] at h4; cases h4
      simp [heard, this]
    | cloneMgr mh j _ hj =>
      have : mh ∉ a.values := fun hv => hop (by
        simp only [Op.manager, hj]; rw [(h.iff hj).1 hv])
      simp [heard, this]
    | createHit mh kind src fault _ j m0 ast p e1 e2 e3 e4 =>
      have : mh ∉ a.values := fun hv => hop (by
        simp only [Op.manager, e1]; rw [(h.iff e1).1 hv])
      simp [heard, this, e3]
    | createStatic mh kind src fault _ j m0 ast l' log c e1 e2 e3 e4 e5 =>
      have : mh ∉ a.values := fun hv => hop (by
        simp only [Op.manager, e1]; rw [(h.iff e1).1 hv])
      simp [heard, this, e3]
    | createMount mh kind src fault _ j m0 ast c d e1 e2 e3 e4 e5 =>
      have : mh ∉ a.values := fun hv => hop (by
        simp only [Op.manager, e1]; rw [(h.iff e1).1 hv])
      simp [heard, this, e3]
    | invalid => cases op <;> rfl
    | _ => rfl

/-- A new manager. -/
theorem Right.new {env : Env} {s : St} (hi : Inv s) {pref : Str} {cont : Option Nat} {append : Bool} {l : Nat} {s' : St}
    {h : Nat} (ht : Tr env (.newMgr pref cont append (some l)) s s' (.mgr h)) :
    Right l s.mgrs.length s' ⟨pref, [h], []⟩ ∧ s'.mgrs.length = s.mgrs.length + 1 := by
  have hno : ∀ c ∈ s.heap, c.mgr ≠ s.mgrs.length := fun c hc => Nat.ne_of_lt (hi.contentMgr c hc)
  generalize hout : Out.mgr h = out at ht
  cases ht with
  | newMgr _ _ _ _ cont' =>
    cases hout
    refine ⟨⟨⟨⟨pref, cont', append, some l, [], false⟩, by simp, rfl, rfl, by simp⟩, ?_, ?_, ?_, ?_⟩, by simp⟩
    · intro k hk
      rcases get_append_cases hk with ⟨-, hk⟩ | ⟨rfl, -⟩
      · exact absurd (hi.mgrHandle _ (List.mem_of_getElem? hk)) (Nat.lt_irrefl _)
      · simp
    · intro k hk
      simp only [List.mem_singleton] at hk
      subst hk
      left; simp
    · intro c hc hci
      exact absurd hci (hno c hc)
    · rw [List.filter_eq_nil_iff.2]
      · rfl
      · intro c hc
        simpa using hno c hc
  | _ => cases hout

/-! ## All managers -/

/-- The same for all managers with style data. -/
def RightAll (s : St) (owner : Nat → Nat) (done : List Done) : Prop :=
  ∀ (i : Nat) (m : Mgr) (l : Nat), s.mgrs[i]? = some m → m.log = some l → (∀ e ∈ done, e.t = owner i → e.Plain) →
    ∃ a, (done.filter (fun e => e.t = owner i)).foldl (heard l) none = some a ∧ Right l i s a

/-- Managers belong to the threads that made them. -/
def MadeBy (s : St) (owner : Nat → Nat) (done : List Done) : Prop :=
  ∀ e ∈ done, ∀ l, e.MakesFor l → ∃ (i : Nat) (m : Mgr), s.mgrs[i]? = some m ∧ m.log = some l ∧ owner i = e.t

/-- More managers than before are there after `newMgr` only. -/
theorem Tr.more {env : Env} {op : Op} {s s' : St} {out : Out} (ht : Tr env op s s' out) (hlt : s.mgrs.length < s'.mgrs.length) :
    ∃ pref cont append writer h cont', op = .newMgr pref cont append writer ∧ out = .mgr h ∧
      s'.mgrs = s.mgrs ++ [{ pref, container := cont', append, log := writer, reg := [], borrowed := false }] := by
  cases ht with
  | newMgr => exact ⟨_, _, _, _, _, _, rfl, rfl, rfl⟩
  | dropMgrLast => simp [(releaseAll_fields env _ _).2.2.1, St.modReg, St.modMgr] at hlt
  | drop => simp [(release_fields env _ _).2.2.1] at hlt
  | unregister => simp [(release_fields env _ _).2.2.1, St.modReg, St.modMgr] at hlt
  | load mh' i' data _ _ r _ h' hr _ => simp [hr.mgrs_length] at hlt
  | _ => simp [St.modReg, St.modMgr] at hlt

theorem rightAll_step {env : Env} {op : Op} {s s' : St} {out : Out} (hi : Inv s) (ht : Tr env op s s' out) {t : Nat}
    {owner owner' : Nat → Nat} {done : List Done} (ho : ∀ i < s.mgrs.length, owner' i = owner i)
    (hn : s.mgrs.length < s'.mgrs.length → owner' s.mgrs.length = t) (hb : ∀ j, op.manager s = some j → owner j = t)
    (h : RightAll s owner done) : RightAll s' owner' (done ++ [⟨t, op, out⟩]) := by
  intro i m' l hm' hl hpl
  by_cases hlt : i < s.mgrs.length
  · have hm := List.getElem?_eq_getElem hlt
    obtain ⟨m'', h1, h2, -⟩ := ht.mgr hm
    rw [hm'] at h1; cases h1
    rw [ho i hlt] at hpl ⊢
    obtain ⟨a, h3, h4⟩ := h i _ l hm (h2.2.2.2.symm ▸ hl) (fun e he => hpl e (List.mem_append_left _ he))
    rw [List.filter_append, List.foldl_append, h3]
    by_cases hto : t = owner i
    · obtain ⟨a', h5, h6⟩ := h4.own hi ht t (hpl _ (by simp) hto)
      exact ⟨a', by simp [hto] at h5 ⊢; exact h5, h6⟩
    · exact ⟨a, by simp [hto], h4.other hi ht (fun hj => hto (hb i hj).symm)⟩
  · have hlen : i < s'.mgrs.length := (List.getElem?_eq_some_iff.1 hm').1
    obtain ⟨pref, cont, append, writer, h1, cont', rfl, rfl, h4⟩ := ht.more (by omega)
    have hi' : i = s.mgrs.length := by
      rw [h4] at hlen
      simp at hlen
      omega
    subst hi'
    rw [h4] at hm'
    simp only [List.length_append, List.getElem?_concat_length, Option.some.injEq] at hm'
    subst hm'
    simp only at hl
    subst hl
    obtain ⟨h5, h6⟩ := Right.new hi ht
    refine ⟨_, ?_, h5⟩
    rw [hn (by omega), List.filter_append, List.foldl_append]
    simp [heard]

theorem madeBy_step {env : Env} {op : Op} {s s' : St} {out : Out} (hi : Inv s) (ht : Tr env op s s' out) {t : Nat}
    {owner owner' : Nat → Nat} {done : List Done} (ho : ∀ i < s.mgrs.length, owner' i = owner i)
    (hn : s.mgrs.length < s'.mgrs.length → owner' s.mgrs.length = t)
    (h : MadeBy s owner done) : MadeBy s' owner' (done ++ [⟨t, op, out⟩]) := by
  intro e he l hl
  rcases List.mem_append.1 he with he | he
  · obtain ⟨i, m, h1, h2, h3⟩ := h e he l hl
    obtain ⟨m', h4, h5, -⟩ := ht.mgr h1
    exact ⟨i, m', h4, h5.2.2.2 ▸ h2, (ho i (List.getElem?_eq_some_iff.1 h1).1).trans h3⟩
  · simp only [List.mem_singleton] at he
    subst he
    obtain ⟨pref, cont, append, h0, h1, h2⟩ := hl
    simp only at h1 h2
    subst h1 h2
    obtain ⟨h3, h4⟩ := Right.new hi ht
    obtain ⟨m, h5, h6, -⟩ := h3.mgr
    exact ⟨_, m, h5, h6, hn (by omega)⟩

/-- Both, for all threads. -/
theorem all_step {env : Env} {d : Dom} {c : Threads} {used : List Nat} (h : TInv env d c used) (x : Nat × Op)
    (hr : RightAll c.st c.owner c.done) (hm : MadeBy c.st c.owner c.done) :
    RightAll (c.step env x).st (c.step env x).owner (c.step env x).done ∧
      MadeBy (c.step env x).st (c.step env x).owner (c.step env x).done := by
  obtain ⟨t, op⟩ := x
  unfold Threads.step
  cases ht : c.pc t with
  | some p =>
    obtain ⟨hok, ho, -⟩ := h.pend t p ht
    have hfin := finish_eq env (fun _ => env.entropy p.n) h.inv hok 0 rfl
    have htr := step_tr (env.withEntropy (fun _ => env.entropy p.n)) (h.inv.withCtr 0) p.op
    rw [hfin] at htr
    have hlen := finish_mgrs_length env h.inv hok
    have hb : ∀ j, p.op.manager (c.st.withCtr 0) = some j → c.owner j = t := by
      intro j hj
      have hj : c.st.mgrOf p.mh = some j := hj
      rw [hok.mgrOf] at hj
      cases hj
      exact ho
    have hr' : RightAll (c.st.withCtr 0) c.owner c.done := by
      intro i m l h1 h2 h3
      obtain ⟨a, h4, h5⟩ := hr i m l h1 h2 h3
      exact ⟨a, h4, h5.withCtr 0⟩
    constructor
    · have := rightAll_step (h.inv.withCtr 0) htr (t := t) (owner' := c.owner) (fun _ _ => rfl)
        (fun hl => by
          have hl : c.st.mgrs.length < (p.finish env c.st).1.mgrs.length := hl
          omega) hb hr'
      intro i m l h1 h2 h3
      obtain ⟨a, h4, h5⟩ := this i m l h1 h2 h3
      exact ⟨a, h4, h5.unCtr⟩
    · exact madeBy_step (h.inv.withCtr 0) htr (t := t) (owner' := c.owner) (fun _ _ => rfl)
        (fun hl => by
          have hl : c.st.mgrs.length < (p.finish env c.st).1.mgrs.length := hl
          omega) (done := c.done) hm
  | none =>
    simp only
    split
    · rename_i hb
      have hb : ∀ i, op.manager c.st = some i → c.owner i = t := by
        intro i hi
        rw [boundTo_eq, hi] at hb
        simpa using hb
      have htr := step_tr env h.inv op
      have whole : ∀ owner' : Nat → Nat, (∀ i < c.st.mgrs.length, owner' i = c.owner i) →
          (c.st.mgrs.length < (Manager.step env op c.st).1.mgrs.length → owner' c.st.mgrs.length = t) →
          RightAll (Manager.step env op c.st).1 owner' (c.done ++ [⟨t, op, (Manager.step env op c.st).2⟩]) ∧
            MadeBy (Manager.step env op c.st).1 owner' (c.done ++ [⟨t, op, (Manager.step env op c.st).2⟩]) :=
        fun owner' h1 h2 => ⟨rightAll_step h.inv htr h1 h2 hb hr, madeBy_step h.inv htr h1 h2 hm⟩
      have nomore : (∀ a b c d, op ≠ .newMgr a b c d) → ¬ c.st.mgrs.length < (Manager.step env op c.st).1.mgrs.length := by
        intro h1 h2
        obtain ⟨_, _, _, _, _, _, h3, -⟩ := htr.more h2
        exact h1 _ _ _ _ h3
      unfold Threads.call
      cases op with
      | create mh kind src fault =>
        simp only
        cases hl : lookup mh kind src fault c.st with
        | none => exact whole _ (fun _ _ => rfl) (fun h => absurd h (nomore (by simp)))
        | some p =>
          refine ⟨?_, hm⟩
          intro i m l h1 h2 h3
          obtain ⟨a, h4, h5⟩ := hr i m l h1 h2 h3
          exact ⟨a, h4, h5.withCtr _⟩
      | newMgr pref container append writer =>
        refine whole _ ?_ (fun _ => by simp)
        intro i hi
        have : i ≠ c.st.mgrs.length := by omega
        simp [this]
      | _ => exact whole _ (fun _ _ => rfl) (fun h => absurd h (nomore (by simp)))
    · exact ⟨hr, hm⟩

theorem all_run {env : Env} {d : Dom} : ∀ (xs : List (Nat × Op)) {c : Threads} {used : List Nat}, TInv env d c used →
    RightAll c.st c.owner c.done → MadeBy c.st c.owner c.done →
    RightAll (Threads.run env xs c).st (Threads.run env xs c).owner (Threads.run env xs c).done ∧
      MadeBy (Threads.run env xs c).st (Threads.run env xs c).owner (Threads.run env xs c).done
  | [], _, _, _, hr, hm => ⟨hr, hm⟩
  | x :: xs, _, _, h, hr, hm => by
    obtain ⟨_, h'⟩ := h.step x
    obtain ⟨hr', hm'⟩ := all_step h x hr hm
    exact all_run xs h' hr' hm'

theorem all_init (d : Dom) : RightAll (Threads.init d).st (Threads.init d).owner (Threads.init d).done ∧
    MadeBy (Threads.init d).st (Threads.init d).owner (Threads.init d).done := by
  constructor
  · intro i m l h; simp [Threads.init, St.init] at h
  · intro e he; cases he

/-! ## Reads -/

/-- A step finishes one call or none. -/
theorem step_done (env : Env) (c : Threads) (x : Nat × Op) :
    (c.step env x).done = c.done ∨ ∃ e, (c.step env x).done = c.done ++ [e] := by
  obtain ⟨t, op⟩ := x
  unfold Threads.step
  cases c.pc t with
  | some p => exact .inr ⟨_, rfl⟩
  | none =>
    simp only
    split
    · unfold Threads.call
      cases op with
      | create mh kind src fault =>
        simp only
        cases lookup mh kind src fault c.st with
        | none => exact .inr ⟨_, rfl⟩
        | some p => exact .inl rfl
      | _ => exact .inr ⟨_, rfl⟩
    · exact .inl rfl

/-- The time at which a call was finished. -/
theorem done_split (env : Env) : ∀ (xs : List (Nat × Op)) (c : Threads) (pre post : List Done) (e : Done),
    (Threads.run env xs c).done = pre ++ e :: post → c.done.length ≤ pre.length →
    ∃ ys x zs, xs = ys ++ x :: zs ∧ (Threads.run env ys c).done = pre ∧
      ((Threads.run env ys c).step env x).done = pre ++ [e]
  | [], c, pre, post, e, h, hl => by
    simp only [Threads.run] at h
    rw [h] at hl
    simp at hl
    omega
  | x :: xs, c, pre, post, e, h, hl => by
    simp only [Threads.run] at h
    by_cases hl' : (c.step env x).done.length ≤ pre.length
    · obtain ⟨ys, y, zs, h1, h2, h3⟩ := done_split env xs (c.step env x) pre post e h hl'
      exact ⟨x :: ys, y, zs, by rw [h1]; rfl, h2, h3⟩
    · have mono : ∀ (xs : List (Nat × Op)) (c : Threads), ∃ more, (Threads.run env xs c).done = c.done ++ more := by
        intro xs
        induction xs with
        | nil => intro c; exact ⟨[], by simp [Threads.run]⟩
        | cons y xs ih =>
          intro c
          obtain ⟨more, hm⟩ := ih (c.step env y)
          rcases step_done env c y with h | ⟨e, h⟩
          · exact ⟨more, by rw [Threads.run, hm, h]⟩
          · exact ⟨e :: more, by rw [Threads.run, hm, h]; simp⟩
      rcases step_done env c x with h1 | ⟨e', h1⟩
      · rw [h1] at hl'; exact absurd hl hl'
      · obtain ⟨more, hm⟩ := mono xs (c.step env x)
        rw [hm, h1] at h
        rw [h1] at hl'
        simp only [List.length_append, List.length_cons, List.length_nil] at hl'
        have hlen : c.done.length = pre.length := by omega
        rw [List.append_assoc] at h
        obtain ⟨h2, h3⟩ := List.append_inj h hlen
        simp only [List.singleton_append, List.cons.injEq] at h3
        refine ⟨[], x, xs, rfl, h2, ?_⟩
        show (c.step env x).done = _
        rw [h1, h2, h3.1]

/-- A finished read is a step of its own. -/
theorem read_step {env : Env} {c : Threads} {x : Nat × Op} {e : Done} {l : Nat} {es : List Entry}
    (h : (c.step env x).done = c.done ++ [e]) (hop : e.op = .readData l) (hout : e.out = .data es) :
    (Manager.step env (.readData l) c.st).2 = .data es := by
  obtain ⟨t, op⟩ := x
  have one : ∀ e', c.done ++ [e'] = c.done ++ [e] → e' = e := by
    intro e' he
    have := List.append_cancel_left he
    simpa using this
  unfold Threads.step at h
  cases ht : c.pc t with
  | some p =>
    rw [ht] at h
    have := one _ h
    subst this
    cases hop
  | none =>
    simp only [ht] at h
    split at h
    · have fin : Done.mk t op (Manager.step env op c.st).2 = e → (Manager.step env (.readData l) c.st).2 = .data es := by
        rintro rfl
        simp only at hop hout
        subst hop
        exact hout
      unfold Threads.call at h
      cases op with
      | create mh kind src fault =>
        simp only at h
        cases hl : lookup mh kind src fault c.st with
        | none => rw [hl] at h; exact fin (one _ h)
        | some p =>
          rw [hl] at h
          have := congrArg List.length h
          simp at this
      | _ => exact fin (one _ h)
    · have := congrArg List.length h
      simp at this

/-- Styles that were made stay, and managers keep their style data. -/
theorem theap_step {env : Env} {d : Dom} {c : Threads} {used : List Nat} (h : TInv env d c used) (x : Nat × Op) :
    c.st.heap <+: (c.step env x).st.heap ∧
      ∀ (i : Nat) (m : Mgr), c.st.mgrs[i]? = some m → ∃ m', (c.step env x).st.mgrs[i]? = some m' ∧ m'.log = m.log := by
  have tr : ∀ {env : Env} {op : Op} {s s' : St} {out : Out}, Tr env op s s' out → s.heap <+: s'.heap ∧
      ∀ (i : Nat) (m : Mgr), s.mgrs[i]? = some m → ∃ m', s'.mgrs[i]? = some m' ∧ m'.log = m.log := by
    intro env op s s' out ht
    refine ⟨?_, fun i m hm => ?_⟩
    · rcases ht.newContents with ⟨h1, -⟩ | ⟨i, key, h1, -⟩ | ⟨i, data, r, -, hr, -⟩
      · rw [h1]; exact List.prefix_refl _
      · rw [h1]; exact List.prefix_append _ _
      · obtain ⟨es', -, h3⟩ := hr.newContents
        rw [h3]; exact List.prefix_append _ _
    · obtain ⟨m', h1, h2, -⟩ := ht.mgr hm
      exact ⟨m', h1, h2.2.2.2⟩
  obtain ⟨t, op⟩ := x
  unfold Threads.step
  cases ht : c.pc t with
  | some p =>
    obtain ⟨hok, ho, -⟩ := h.pend t p ht
    have hfin := finish_eq env (fun _ => env.entropy p.n) h.inv hok 0 rfl
    have htr := step_tr (env.withEntropy (fun _ => env.entropy p.n)) (h.inv.withCtr 0) p.op
    rw [hfin] at htr
    have := tr htr
    exact this
  | none =>
    simp only
    split
    · have htr := tr (step_tr env h.inv op)
      unfold Threads.call
      cases op with
      | create mh kind src fault =>
        simp only
        cases hl : lookup mh kind src fault c.st with
        | none => exact htr
        | some p => exact ⟨List.prefix_refl _, fun i m hm => ⟨m, hm, rfl⟩⟩
      | _ => exact htr
    · exact ⟨List.prefix_refl _, fun i m hm => ⟨m, hm, rfl⟩⟩

theorem theap_run {env : Env} {d : Dom} : ∀ (xs : List (Nat × Op)) {c : Threads} {used : List Nat}, TInv env d c used →
    c.st.heap <+: (Threads.run env xs c).st.heap ∧
      ∀ (i : Nat) (m : Mgr), c.st.mgrs[i]? = some m → ∃ m', (Threads.run env xs c).st.mgrs[i]? = some m' ∧ m'.log = m.log
  | [], c, _, _ => ⟨List.prefix_refl _, fun i m hm => ⟨m, hm, rfl⟩⟩
  | x :: xs, c, _, h => by
    obtain ⟨_, h'⟩ := h.step x
    obtain ⟨h1, h2⟩ := theap_step h x
    obtain ⟨h3, h4⟩ := theap_run xs h'
    refine ⟨h1.trans h3, fun i m hm => ?_⟩
    obtain ⟨m', a1, a2⟩ := h2 i m hm
    obtain ⟨m'', a3, a4⟩ := h4 i m' a1
    exact ⟨m'', a3, a4.trans a2⟩

theorem trun_append (env : Env) : ∀ (xs ys : List (Nat × Op)) (c : Threads),
    Threads.run env (xs ++ ys) c = Threads.run env ys (Threads.run env xs c)
  | [], _, _ => rfl
  | x :: xs, ys, c => trun_append env xs ys (c.step env x)

/-- What a read of the data of a manager that was made before finds. -/
theorem read_facts {env : Env} {d : Dom} {sched : List (Nat × Op)} {c : Threads}
    (hc : c = Threads.run env sched (Threads.init d)) {pre post : List Done} {e : Done} (hdone : c.done = pre ++ e :: post)
    {l : Nat} {es : List Entry} (hop : e.op = .readData l) (hout : e.out = .data es) {f : Done} (hf : f ∈ pre)
    (hmade : f.MakesFor l) :
    ∃ (i : Nat) (m : Mgr) (before : List Content), c.st.mgrs[i]? = some m ∧ m.log = some l ∧ before <+: c.st.heap ∧
      es = (createdBy i before).map Content.entry ∧
      ((∀ g ∈ pre, g.t = f.t → g.Plain) → es.map Entry.key = keysAsked l (pre.filter (fun g => g.t = f.t))) := by
  rw [hc] at hdone
  obtain ⟨ys, x, zs, h1, h2, h3⟩ := done_split env sched (Threads.init d) pre post e hdone (Nat.zero_le _)
  obtain ⟨used, hT⟩ := TInv.run (env := env) (d := d) ys (TInv.init env d)
  obtain ⟨hr, hm⟩ := all_run (env := env) ys (TInv.init env d) (all_init d).1 (all_init d).2
  have hrun : c = Threads.run env (x :: zs) (Threads.run env ys (Threads.init d)) := by rw [hc, h1, trun_append]
  generalize hc0 : Threads.run env ys (Threads.init d) = c0 at *
  obtain ⟨i, m, h4, h5, h6⟩ := hm f (h2 ▸ hf) l hmade
  obtain ⟨hheap, hmgrs⟩ := theap_run (x :: zs) hT
  rw [← hrun] at hheap hmgrs
  obtain ⟨m', h7, h8⟩ := hmgrs i m h4
  have hread := read_step (h2 ▸ h3) hop hout
  obtain ⟨hs, -⟩ := hT.seq (fun k => env.entropy ((used[k]?).getD 0)) (by intro k n hk; rw [hk]; rfl)
  have hli : LogInv (c0.st.withCtr used.length) := hs ▸ LogInv.run _ (Inv.init d) (LogInv.init d)
  have hes : es = (createdBy i c0.st.heap).map Content.entry := by
    cases hlog : c0.st.logs[l]? with
    | none => simp [Manager.step, hlog] at hread
    | some log =>
      have h9 := hli.log i m l log h4 h5 hlog
      have h10 : log.poisoned = false := hT.inv.poison log (List.mem_of_getElem? hlog)
      simp only [Manager.step, hlog] at hread
      split at hread
      · cases hread
      · simp only [h10] at hread
        cases hread
        exact h9
  refine ⟨i, m', c0.st.heap, h7, h8.trans h5, hheap, hes, fun hpl => ?_⟩
  obtain ⟨a, h11, h12⟩ := hr i m l h4 h5 (by rw [h2, h6]; exact hpl)
  rw [h6, h2] at h11
  rw [keysAsked, h11, hes]
  simp only [Option.map_some, Option.getD_some]
  rw [h12.keys, List.map_map]
  show ((createdBy i c0.st.heap).map Content.key) = _
  congr 1
  unfold createdBy
  refine List.filter_congr fun c hc => ?_
  by_cases hci : c.mgr = i
  · simp [hci, h12.made c hc hci]
  · simp [hci]

/-! ## Numbers -/

/-- The entries of the first styles of a manager, by their numbers. -/
theorem entries_numbered {env env' : Env} {s : St} {num π : Nat → Nat} (hn : Numbered env' s num)
    (hent : ∀ k, env'.entropy k = env.entropy (π k)) (hinj : ∀ a b, π a = π b → a = b)
    (htext : ∀ c ∈ s.heap, TextOk c) (i : Nat) : ∀ k : Nat,
    ∃ ns : List Nat, ns.length = (createdBy i (s.heap.take k)).length ∧ ns.Nodup ∧
      (∀ n ∈ ns, ∃ (p : Nat) (c : Content), p < k ∧ s.heap[p]? = some c ∧ c.origin = .created ∧ n = π (num p)) ∧
      (createdBy i (s.heap.take k)).map Content.entry =
        List.zipWith (entryNo env) ((createdBy i (s.heap.take k)).map Content.key) ns
  | 0 => ⟨[], by simp [createdBy], List.nodup_nil, by simp, by simp [createdBy]⟩
  | k + 1 => by
    obtain ⟨ns, h1, h2, h3, h4⟩ := entries_numbered hn hent hinj htext i k
    have weak : ∀ n ∈ ns, ∃ (p : Nat) (c : Content), p < k + 1 ∧ s.heap[p]? = some c ∧ c.origin = .created ∧ n = π (num p) := by
      intro n hx
      obtain ⟨p, c, a, b⟩ := h3 n hx
      exact ⟨p, c, by omega, b⟩
    rw [List.take_succ]
    cases hk : s.heap[k]? with
    | none =>
      simp only [Option.toList_none, List.append_nil]
      exact ⟨ns, h1, h2, weak, h4⟩
    | some c =>
      simp only [Option.toList_some]
      by_cases hc : c.mgr = i ∧ c.origin = .created
      · have hcb : createdBy i (s.heap.take k ++ [c]) = createdBy i (s.heap.take k) ++ [c] := by
          simp [createdBy, List.filter_append, hc]
        obtain ⟨-, hid⟩ := hn.id k c hk hc.2
        rw [hent] at hid
        have ht := htext c (List.mem_of_getElem? hk)
        refine ⟨ns ++ [π (num k)], by rw [hcb]; simp [h1], ?_, ?_, ?_⟩
        · rw [List.nodup_append]
          refine ⟨h2, by simp, ?_⟩
          rintro a ha b hb rfl
          simp only [List.mem_singleton] at hb
          obtain ⟨p, c', a1, a2, a3, a4⟩ := h3 a ha
          have := hn.inj p k c' c a2 a3 hk hc.2 a1
          have := hinj _ _ (a4.symm.trans hb)
          omega
        · intro n hx
          rcases List.mem_append.1 hx with hx | hx
          · exact weak n hx
          · simp only [List.mem_singleton] at hx
            exact ⟨k, c, by omega, hk, hc.2, hx⟩
        · rw [hcb, List.map_append, List.map_append, List.zipWith_append (by simp [h1]), ← h4]
          simp only [List.map_cons, List.map_nil, List.zipWith_cons_cons, List.zipWith_nil_right, List.append_cancel_left_eq,
            List.cons.injEq, and_true]
          simp only [TextOk, hc.2, and_true] at ht
          rw [hid] at ht
          simp only [Content.entry, entryNo, ht, hid]
      · have hcb : createdBy i (s.heap.take k ++ [c]) = createdBy i (s.heap.take k) := by
          simp only [createdBy, List.filter_append]
          simp [hc]
        rw [hcb]
        exact ⟨ns, h1, h2, weak, h4⟩

end Manager
