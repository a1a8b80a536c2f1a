import Verif.Model.Manager

/-!
# The operations of the manager as explicit transitions
-/

namespace Manager

/-! ## Lists -/

theorem modify_self {α : Type} {l : List α} {i : Nat} {f : α → α}
    (h : ∀ a, l[i]? = some a → f a = a) : l.modify i f = l := by
  apply List.ext_getElem?
  intro j
  rw [List.getElem?_modify]
  by_cases hij : i = j
  · subst hij
    cases e : l[i]? with
    | none => simp
    | some a => simp [h a e]
  · simp [hij]

theorem modify_modify {α : Type} (l : List α) (i : Nat) (f g : α → α) :
    (l.modify i f).modify i g = l.modify i (g ∘ f) := by
  apply List.ext_getElem?
  intro j
  rw [List.getElem?_modify, List.getElem?_modify, List.getElem?_modify]
  by_cases hij : i = j
  · subst hij; cases l[i]? <;> simp
  · simp [hij]

theorem modify_congr {α : Type} {l : List α} {i : Nat} {f g : α → α}
    (h : ∀ a, l[i]? = some a → f a = g a) : l.modify i f = l.modify i g := by
  apply List.ext_getElem?
  intro j
  rw [List.getElem?_modify, List.getElem?_modify]
  by_cases hij : i = j
  · subst hij
    cases e : l[i]? with
    | none => simp
    | some a => simp [h a e]
  · simp [hij]

/-! ## The registry -/

theorem regGet_eq_none {reg : List (Key × Nat)} {k : Key} :
    regGet reg k = none ↔ k ∉ reg.map Prod.fst := by
  simp only [regGet, Option.map_eq_none_iff, List.find?_eq_none, List.mem_map, not_exists, not_and,
    decide_eq_true_eq]

theorem regGet_mem {reg : List (Key × Nat)} {k : Key} {p : Nat} (h : regGet reg k = some p) :
    (k, p) ∈ reg := by
  simp only [regGet, Option.map_eq_some_iff] at h
  obtain ⟨⟨k', p'⟩, h1, h2⟩ := h
  have := List.find?_some h1
  simp only [decide_eq_true_eq] at this
  simp only at h2
  subst this h2
  exact List.mem_of_find?_eq_some h1

theorem mem_regGet {reg : List (Key × Nat)} {k : Key} {p : Nat} (hn : (reg.map Prod.fst).Nodup)
    (h : (k, p) ∈ reg) : regGet reg k = some p := by
  induction reg with
  | nil => cases h
  | cons e es ih =>
    simp only [List.map_cons, List.nodup_cons] at hn
    simp only [regGet, List.find?_cons] at *
    by_cases he : e.1 = k
    · simp only [he, decide_true]
      rcases List.mem_cons.1 h with rfl | h
      · simp
      · exact absurd (List.mem_map.2 ⟨_, h, rfl⟩) (he ▸ hn.1)
    · simp only [he, decide_false]
      rcases List.mem_cons.1 h with rfl | h
      · exact absurd rfl he
      · exact ih hn.2 h

theorem regRemove_absent {reg : List (Key × Nat)} {k : Key} (h : regGet reg k = none) :
    regRemove reg k = reg := by
  rw [regGet_eq_none] at h
  refine List.filter_eq_self.2 ?_
  intro e he
  simp only [decide_eq_true_eq]
  rintro rfl
  exact h (List.mem_map.2 ⟨e, he, rfl⟩)

theorem regInsert_absent {reg : List (Key × Nat)} {k : Key} {p : Nat} (h : regGet reg k = none) :
    regInsert reg k p = reg ++ [(k, p)] := by
  rw [regInsert, regRemove_absent h]

theorem regRemove_get (reg : List (Key × Nat)) (k : Key) : regGet (regRemove reg k) k = none := by
  rw [regGet_eq_none]
  intro h
  obtain ⟨e, he, rfl⟩ := List.mem_map.1 h
  have := (List.mem_filter.1 he).2
  simp at this

theorem regRemove_get_ne (reg : List (Key × Nat)) {k k' : Key} (h : k' ≠ k) :
    regGet (regRemove reg k) k' = regGet reg k' := by
  simp only [regRemove, regGet, List.find?_filter]
  congr 2
  funext a
  by_cases ha : a.1 = k'
  · simp [ha, h]
  · simp [ha]

theorem regGet_append_ne (reg : List (Key × Nat)) {k k' : Key} {p : Nat} (h : k' ≠ k) :
    regGet (reg ++ [(k, p)]) k' = regGet reg k' := by
  simp only [regGet, List.find?_append, List.find?_cons, List.find?_nil]
  have : ¬ k = k' := fun x => h x.symm
  simp [this]

theorem regGet_append_self {reg : List (Key × Nat)} {k : Key} {p : Nat} (h : regGet reg k = none) :
    regGet (reg ++ [(k, p)]) k = some p := by
  simp only [regGet, Option.map_eq_none_iff] at h
  simp [regGet, List.find?_append, h]

theorem regRemove_nodup {reg : List (Key × Nat)} (k : Key) (h : (reg.map Prod.fst).Nodup) :
    ((regRemove reg k).map Prod.fst).Nodup :=
  (List.Nodup.sublist (List.Sublist.map _ (List.filter_sublist)) h)

/-! ## The invariant -/

/-- What holds between operations. -/
structure Inv (s : St) : Prop where
  borrow : ∀ m ∈ s.mgrs, m.borrowed = false
  reg : ∀ (i : Nat) (m : Mgr), s.mgrs[i]? = some m → ∀ e ∈ m.reg,
    ∃ c, s.heap[e.2]? = some c ∧ c.key = e.1 ∧ c.mgr = i
  keys : ∀ m ∈ s.mgrs, (m.reg.map Prod.fst).Nodup
  handle : ∀ p, some p ∈ s.handles → p < s.heap.length
  dead : ∀ (i : Nat) (m : Mgr), s.mgrs[i]? = some m → m.reg ≠ [] → some i ∈ s.mgrHandles
  mgrHandle : ∀ i, some i ∈ s.mgrHandles → i < s.mgrs.length
  contentMgr : ∀ c ∈ s.heap, c.mgr < s.mgrs.length
  poison : ∀ log ∈ s.logs, log.poisoned = false
  log : ∀ m ∈ s.mgrs, ∀ l, m.log = some l → ∃ log, s.logs[l]? = some log ∧ log.writerTaken = true
  logUnique : ∀ (i j : Nat) (mi mj : Mgr) (l : Nat), s.mgrs[i]? = some mi → s.mgrs[j]? = some mj → mi.log = some l →
    mj.log = some l → i = j
  container : ∀ m ∈ s.mgrs, ∀ i, m.container = some i → i < s.dom.length

/-- Manager `i` gets the registry `f reg`. -/
def St.modReg (s : St) (i : Nat) (f : List (Key × Nat) → List (Key × Nat)) : St :=
  s.modMgr i (fun m => { m with reg := f m.reg })

/-- The content made for a key by a new creation. -/
def newContent (env : Env) (s : St) (i : Nat) (key : Key) : Content :=
  { id := makeId key (env.entropy s.ctr)
    key := key
    text := key.ast.toStyleStr (if key.isGlobal then none else some (makeId key (env.entropy s.ctr)))
    mgr := i
    origin := .created }

/-- The content made by loading an entry. -/
def loadedContent (i : Nat) (e : Entry) : Content :=
  { id := e.id, key := e.key, text := e.key.ast.toStyleStr (some e.id), mgr := i, origin := .hydrated }

/-- The loop of loading, as a relation. -/
inductive LoadRun (i : Nat) : List Entry → St → St → Res Unit → Prop
  | nil (s : St) : LoadRun i [] s s (.ok ())
  | same (e : Entry) (es : List Entry) (s s' : St) (r : Res Unit) (m : Mgr) (p : Nat) (c : Content) :
      s.mgrs[i]? = some m → regGet m.reg e.key = some p → s.heap[p]? = some c → c.id = e.id →
      LoadRun i es s s' r → LoadRun i (e :: es) s s' r
  | conflict (e : Entry) (es : List Entry) (s : St) (m : Mgr) (p : Nat) (c : Content) :
      s.mgrs[i]? = some m → regGet m.reg e.key = some p → s.heap[p]? = some c → c.id ≠ e.id →
      LoadRun i (e :: es) s s .panic
  | fresh (e : Entry) (es : List Entry) (s s' : St) (r : Res Unit) (m : Mgr) :
      s.mgrs[i]? = some m → regGet m.reg e.key = none →
      LoadRun i es (({ s with heap := s.heap ++ [loadedContent i e] } : St).modReg i
        (fun reg => reg ++ [(e.key, s.heap.length)])) s' r →
      LoadRun i (e :: es) s s' r

/-- The operations as explicit transitions, given the invariant. -/
inductive Tr (env : Env) : Op → St → St → Out → Prop
  | invalid (op : Op) (s : St) : Tr env op s s .invalid
  | renderStatic (s : St) : Tr env .renderStatic s
      { s with logs := s.logs ++ [{ entries := [], poisoned := false, writerTaken := false, readerTaken := false }] }
      (.writer s.logs.length)
  | newMgrErr (pref : Str) (cont : Option Nat) (append : Bool) (writer : Option Nat) (s : St) :
      (∀ l ∈ writer, ∃ log, s.logs[l]? = some log ∧ log.writerTaken = false) →
      env.wasm = true →
      Tr env (.newMgr pref cont append writer) s
        { s with logs := s.takeWriter writer } (.err .web)
  | newMgr (pref : Str) (cont : Option Nat) (append : Bool) (writer : Option Nat) (cont' : Option Nat) (s : St) :
      (∀ l ∈ writer, ∃ log, s.logs[l]? = some log ∧ log.writerTaken = false) →
      (∀ i ∈ cont', i < s.dom.length) → (env.wasm = true → cont'.isSome = true) →
      (∀ i ∈ cont, cont' = some i) →
      Tr env (.newMgr pref cont append writer) s
        { s with
          logs := s.takeWriter writer
          mgrs := s.mgrs ++ [{ pref, container := cont', append, log := writer, reg := [], borrowed := false }]
          mgrHandles := s.mgrHandles ++ [some s.mgrs.length] } (.mgr s.mgrHandles.length)
  | cloneMgr (mh i : Nat) (s : St) : s.mgrOf mh = some i →
      Tr env (.cloneMgr mh) s { s with mgrHandles := s.mgrHandles ++ [some i] } (.mgr s.mgrHandles.length)
  | dropMgr (mh i : Nat) (s : St) : s.mgrOf mh = some i → some i ∈ s.mgrHandles.set mh none →
      Tr env (.dropMgr mh) s { s with mgrHandles := s.mgrHandles.set mh none } .unit
  | dropMgrLast (mh i : Nat) (s : St) (m : Mgr) : s.mgrOf mh = some i →
      some i ∉ s.mgrHandles.set mh none → s.mgrs[i]? = some m →
      Tr env (.dropMgr mh) s
        (releaseAll env (m.reg.map Prod.snd)
          (({ s with mgrHandles := s.mgrHandles.set mh none } : St).modReg i (fun _ => []))) .unit
  | createSyntax (mh : Nat) (kind : Kind) (css : Str) (fault : Bool) (s : St) (i : Nat) :
      s.mgrOf mh = some i → Css.parse css = none →
      Tr env (.create mh kind (.text css) fault) s s (.err .parse)
  | createHit (mh : Nat) (kind : Kind) (src : Source) (fault : Bool) (s : St) (i : Nat) (m : Mgr) (ast : Sheet)
      (p : Nat) : s.mgrOf mh = some i → s.mgrs[i]? = some m → src.sheet? = some ast →
      regGet m.reg (kind.key m.pref ast) = some p →
      Tr env (.create mh kind src fault) s { s with handles := s.handles ++ [some p] } (.style s.handles.length)
  | createDebug (mh : Nat) (kind : Kind) (src : Source) (fault : Bool) (s : St) (i : Nat) (m : Mgr) (ast : Sheet) :
      s.mgrOf mh = some i → s.mgrs[i]? = some m → src.sheet? = some ast →
      regGet m.reg (kind.key m.pref ast) = none →
      env.debugParser = true → Css.parse (newContent env s i (kind.key m.pref ast)).text = none →
      Tr env (.create mh kind src fault) s { s with ctr := s.ctr + 1 } .panic
  | createStatic (mh : Nat) (kind : Kind) (src : Source) (fault : Bool) (s : St) (i : Nat) (m : Mgr) (ast : Sheet)
      (l : Nat) (log : Log) (c : Content) : s.mgrOf mh = some i → s.mgrs[i]? = some m → src.sheet? = some ast →
      regGet m.reg (kind.key m.pref ast) = none →
      c = newContent env s i (kind.key m.pref ast) →
      (env.debugParser = true → Css.parse c.text ≠ none) →
      m.log = some l → s.logs[l]? = some log →
      Tr env (.create mh kind src fault) s
        (({ s with
            ctr := s.ctr + 1
            heap := s.heap ++ [c]
            logs := s.logs.set l { log with entries := log.entries ++ [{ key := c.key, id := c.id, text := c.text }] }
            handles := s.handles ++ [some s.heap.length] } : St).modReg i
          (fun reg => reg ++ [(c.key, s.heap.length)])) (.style s.handles.length)
  | createFail (mh : Nat) (kind : Kind) (src : Source) (fault : Bool) (s : St) (i : Nat) (m : Mgr) (ast : Sheet)
      (c : Content) : s.mgrOf mh = some i → s.mgrs[i]? = some m → src.sheet? = some ast →
      regGet m.reg (kind.key m.pref ast) = none →
      c = newContent env s i (kind.key m.pref ast) →
      (env.debugParser = true → Css.parse c.text ≠ none) →
      m.log = none → mount env fault m c s.dom = none →
      Tr env (.create mh kind src fault) s
        { s with ctr := s.ctr + 1, heap := s.heap ++ [c], dom := unmount env c.id s.dom } (.err .web)
  | createMount (mh : Nat) (kind : Kind) (src : Source) (fault : Bool) (s : St) (i : Nat) (m : Mgr) (ast : Sheet)
      (c : Content) (d : Dom) : s.mgrOf mh = some i → s.mgrs[i]? = some m → src.sheet? = some ast →
      regGet m.reg (kind.key m.pref ast) = none →
      c = newContent env s i (kind.key m.pref ast) →
      (env.debugParser = true → Css.parse c.text ≠ none) →
      m.log = none → mount env fault m c s.dom = some d →
      Tr env (.create mh kind src fault) s
        (({ s with
            ctr := s.ctr + 1
            heap := s.heap ++ [c]
            dom := d
            handles := s.handles ++ [some s.heap.length] } : St).modReg i
          (fun reg => reg ++ [(c.key, s.heap.length)])) (.style s.handles.length)
  | clone (h p : Nat) (s : St) : s.contentOf h = some p →
      Tr env (.clone h) s { s with handles := s.handles ++ [some p] } (.style s.handles.length)
  | drop (h p : Nat) (s : St) : s.contentOf h = some p →
      Tr env (.drop h) s (({ s with handles := s.handles.set h none } : St).release env p) .unit
  | unregisterDead (h p : Nat) (s : St) (c : Content) : s.contentOf h = some p → s.heap[p]? = some c →
      some c.mgr ∉ s.mgrHandles → Tr env (.unregister h) s s .unit
  | unregisterNone (h p : Nat) (s : St) (c : Content) (m : Mgr) : s.contentOf h = some p →
      s.heap[p]? = some c → s.mgrs[c.mgr]? = some m → regGet m.reg c.key = none →
      Tr env (.unregister h) s s .unit
  | unregister (h p q : Nat) (s : St) (c : Content) (m : Mgr) : s.contentOf h = some p →
      s.heap[p]? = some c → s.mgrs[c.mgr]? = some m → regGet m.reg c.key = some q →
      Tr env (.unregister h) s
        ((s.modReg c.mgr (fun reg => regRemove reg c.key)).release env q) .unit
  | load (mh i : Nat) (data : List Entry) (s s' : St) (r : Res Unit) (out : Out) : s.mgrOf mh = some i →
      LoadRun i data s s' r → out = (match r with | .ok _ => .unit | .err e => .err e | .panic => .panic) →
      Tr env (.load mh data) s s' out
  | readData (l : Nat) (s : St) (log : Log) : s.logs[l]? = some log → log.readerTaken = false →
      Tr env (.readData l) s { s with logs := s.logs.set l { log with readerTaken := true } } (.data log.entries)
  | styleDataNone (mh i : Nat) (s : St) (m : Mgr) : s.mgrOf mh = some i → s.mgrs[i]? = some m → m.log = none →
      Tr env (.styleData mh) s s (.data [])
  | styleData (mh i : Nat) (s : St) (m : Mgr) (l : Nat) (log : Log) : s.mgrOf mh = some i → s.mgrs[i]? = some m →
      m.log = some l → s.logs[l]? = some log → Tr env (.styleData mh) s s (.data log.entries)
  | page (i : Nat) (ch : List Child) (s : St) :
      (s.dom.childrenOf i).filter Child.isStyle = ch.filter Child.isStyle →
      Tr env (.page i ch) s { s with dom := s.dom.setChildren i ch } .unit

/-! ## Every step is a transition -/

theorem withBorrow_eq {α : Type} {s : St} (hi : Inv s) {i : Nat} {m : Mgr} (hm : s.mgrs[i]? = some m)
    (f : St → St × Res α) :
    withBorrow i f s =
      ((f (s.modMgr i (fun m => { m with borrowed := true }))).1.modMgr i (fun m => { m with borrowed := false }),
        (f (s.modMgr i (fun m => { m with borrowed := true }))).2) := by
  have hb := hi.borrow m (List.mem_of_getElem? hm)
  simp only [withBorrow, hm, hb]
  rfl

/-- Setting and clearing the flag does nothing. -/
theorem unborrow {s : St} (hi : Inv s) (i : Nat) :
    (s.modMgr i (fun m => { m with borrowed := true })).modMgr i (fun m => { m with borrowed := false }) = s := by
  simp only [St.modMgr, modify_modify]
  rw [modify_self]
  intro m hm
  have := hi.borrow m (List.mem_of_getElem? hm)
  simp only [Function.comp]
  rw [← this]

theorem unborrow_reg {s : St} (hi : Inv s) (i : Nat) (f : List (Key × Nat) → List (Key × Nat)) :
    ((s.modMgr i (fun m => { m with borrowed := true })).modReg i f).modMgr i
      (fun m => { m with borrowed := false }) = s.modReg i f := by
  simp only [St.modMgr, St.modReg, modify_modify]
  congr 1
  apply modify_congr
  intro m hm
  have := hi.borrow m (List.mem_of_getElem? hm)
  simp only [Function.comp]
  rw [← this]

theorem sum_eq_zero {l : List Nat} (h : ∀ x ∈ l, x = 0) : l.sum = 0 := by
  induction l with
  | nil => rfl
  | cons a t ih =>
    rw [List.sum_cons, h a (by simp), ih (fun x hx => h x (by simp [hx]))]

theorem le_sum {l : List Nat} {x : Nat} (h : x ∈ l) : x ≤ l.sum := by
  induction l with
  | nil => cases h
  | cons a t ih =>
    rw [List.sum_cons]
    rcases List.mem_cons.1 h with rfl | h
    · omega
    · have := ih h; omega

theorem refs_eq_zero {s : St} {p : Nat} : s.refs p = 0 ↔
    some p ∉ s.handles ∧ ∀ m ∈ s.mgrs, p ∉ m.reg.map Prod.snd := by
  simp only [St.refs, Nat.add_eq_zero_iff, List.count_eq_zero]
  refine and_congr_right (fun _ => ⟨?_, ?_⟩)
  · intro h m hm hp
    have := le_sum (List.mem_map.2 ⟨m, hm, rfl⟩ : (m.reg.map Prod.snd).count p ∈ s.mgrs.map (fun m => (m.reg.map Prod.snd).count p))
    have := List.count_pos_iff.2 hp
    omega
  · intro h
    apply sum_eq_zero
    intro x hx
    obtain ⟨m, hm, rfl⟩ := List.mem_map.1 hx
    exact List.count_eq_zero.2 (h m hm)

theorem Inv.reg_lt {s : St} (hi : Inv s) {m : Mgr} (hm : m ∈ s.mgrs) {e : Key × Nat} (he : e ∈ m.reg) :
    e.2 < s.heap.length := by
  obtain ⟨i, hi'⟩ := List.getElem?_of_mem hm
  obtain ⟨c, hc, -⟩ := hi.reg i m hi' e he
  exact (List.getElem?_eq_some_iff.1 hc).1

/-- Nothing refers to a content that does not exist yet. -/
theorem refs_fresh {s : St} (hi : Inv s) : s.refs s.heap.length = 0 := by
  rw [refs_eq_zero]
  refine ⟨fun h => Nat.lt_irrefl _ (hi.handle _ h), ?_⟩
  intro m hm h
  obtain ⟨e, he, h2⟩ := List.mem_map.1 h
  have := hi.reg_lt hm he
  omega

theorem refs_modMgr (s : St) (i : Nat) (f : Mgr → Mgr) (hf : ∀ m, (f m).reg = m.reg) (p : Nat) :
    (s.modMgr i f).refs p = s.refs p := by
  have : ∀ l : List Mgr, (l.modify i f).map (fun m => (m.reg.map Prod.snd).count p) =
      l.map (fun m => (m.reg.map Prod.snd).count p) := by
    intro l
    apply List.ext_getElem?
    intro j
    simp only [List.getElem?_map, List.getElem?_modify]
    cases l[j]? with
    | none => rfl
    | some a => by_cases h : i = j <;> simp [h, hf]
  simp only [St.refs, St.modMgr, this]

theorem release_modMgr (env : Env) (s : St) (i : Nat) (f : Mgr → Mgr) (hf : ∀ m, (f m).reg = m.reg) (p : Nat) :
    (s.modMgr i f).release env p = (s.release env p).modMgr i f := by
  have h := refs_modMgr s i f hf p
  simp only [St.release, h]
  by_cases hr : s.refs p = 0
  · simp only [hr, if_true]
    have : (s.modMgr i f).heap = s.heap := rfl
    rw [this]
    cases s.heap[p]? <;> rfl
  · simp only [hr, if_false]

theorem mgrOf_mem {s : St} {mh i : Nat} (h : s.mgrOf mh = some i) : some i ∈ s.mgrHandles := by
  simp only [St.mgrOf, Option.join_eq_some_iff] at h
  exact List.mem_of_getElem? h

theorem contentOf_mem {s : St} {h p : Nat} (e : s.contentOf h = some p) : some p ∈ s.handles := by
  simp only [St.contentOf, Option.join_eq_some_iff] at e
  exact List.mem_of_getElem? e

theorem mgrOf_get {s : St} (hi : Inv s) {mh i : Nat} (h : s.mgrOf mh = some i) : ∃ m, s.mgrs[i]? = some m :=
  ⟨_, List.getElem?_eq_getElem (hi.mgrHandle i (mgrOf_mem h))⟩

/-- The body of a creation, in a state `t` that differs from `s` by the borrow. -/
theorem getOrRegister_eq (env : Env) {s : St} (hi : Inv s) {i : Nat} {m : Mgr} (hm : s.mgrs[i]? = some m)
    (fault : Bool) (key : Key) :
    (∃ p, regGet m.reg key = some p ∧ getOrRegister env fault i key s = (s, .ok p)) ∨
    (regGet m.reg key = none ∧
      ((env.debugParser = true ∧ Css.parse (newContent env s i key).text = none ∧
          getOrRegister env fault i key s = ({ s with ctr := s.ctr + 1 }, .panic)) ∨
       ((env.debugParser = true → Css.parse (newContent env s i key).text ≠ none) ∧
        ((∃ l log, m.log = some l ∧ s.logs[l]? = some log ∧
            getOrRegister env fault i key s =
              (({ s with
                  ctr := s.ctr + 1
                  heap := s.heap ++ [newContent env s i key]
                  logs := s.logs.set l { log with entries := log.entries ++
                    [{ key := key, id := (newContent env s i key).id, text := (newContent env s i key).text }] } } : St).modReg i
                (fun reg => reg ++ [(key, s.heap.length)]), .ok s.heap.length)) ∨
         (m.log = none ∧ mount env fault m (newContent env s i key) s.dom = none ∧
            getOrRegister env fault i key s =
              ({ s with
                  ctr := s.ctr + 1
                  heap := s.heap ++ [newContent env s i key]
                  dom := unmount env (newContent env s i key).id s.dom }, .err .web)) ∨
         (∃ d, m.log = none ∧ mount env fault m (newContent env s i key) s.dom = some d ∧
            getOrRegister env fault i key s =
              (({ s with
                  ctr := s.ctr + 1
                  heap := s.heap ++ [newContent env s i key]
                  dom := d } : St).modReg i (fun reg => reg ++ [(key, s.heap.length)]), .ok s.heap.length)))))) := by
  have hget : (s.modMgr i (fun m => { m with borrowed := true })).mgrs[i]? = some { m with borrowed := true } := by
    simp [St.modMgr, hm]
  have hreg : ∀ t : St, regGet m.reg key = none → t.mgrs = (s.modMgr i (fun m => { m with borrowed := true })).mgrs →
      register i key s.heap.length t = (t.modReg i (fun reg => reg ++ [(key, s.heap.length)]), .ok ()) := by
    intro t hn ht
    simp only [register, ht, hget, hn]
    simp only [St.modReg, St.modMgr]
    congr 2
    apply modify_congr
    intro a ha
    rw [ht, hget] at ha
    cases ha
    simp [regInsert_absent hn]
  cases hg : regGet m.reg key with
  | some p =>
    refine Or.inl ⟨p, rfl, ?_⟩
    rw [getOrRegister, withBorrow_eq hi hm]
    simp only [createBody, hget, hg]
    rw [unborrow hi]
  | none =>
    refine Or.inr ⟨rfl, ?_⟩
    by_cases hd : env.debugParser = true ∧ Css.parse (newContent env s i key).text = none
    · refine Or.inl ⟨hd.1, hd.2, ?_⟩
      rw [getOrRegister, withBorrow_eq hi hm]
      have h2 : (Css.parse (key.ast.toStyleStr (if key.isGlobal then none else
          some (makeId key (env.entropy s.ctr))))).isNone = true := by
        have := hd.2
        simp only [newContent] at this
        rw [this]; rfl
      simp only [createBody, hget, hg]
      have h3 : (s.modMgr i (fun m => { m with borrowed := true })).ctr = s.ctr := rfl
      simp only [h3, hd.1, h2, Bool.and_self, if_true]
      have := unborrow hi i
      simp only [St.modMgr] at this ⊢
      have h4 : ((s.mgrs.modify i (fun m => { m with borrowed := true })).modify i
        (fun m => { m with borrowed := false })) = s.mgrs := congrArg St.mgrs this
      rw [h4]
    · have hd' : env.debugParser = true → Css.parse (newContent env s i key).text ≠ none := by
        intro h1 h2; exact hd ⟨h1, h2⟩
      refine Or.inr ⟨hd', ?_⟩
      have hcond : (env.debugParser && (Css.parse (key.ast.toStyleStr (if key.isGlobal then none else
          some (makeId key (env.entropy s.ctr))))).isNone) = false := by
        cases hdp : env.debugParser with
        | false => rfl
        | true =>
          have := hd' hdp
          simp only [newContent] at this
          simp only [Bool.true_and]
          cases hp : Css.parse (key.ast.toStyleStr (if key.isGlobal then none else
              some (makeId key (env.entropy s.ctr)))) with
          | none => exact absurd hp this
          | some x => rfl
      have h3 : (s.modMgr i (fun m => { m with borrowed := true })).ctr = s.ctr := rfl
      have h5 : (s.modMgr i (fun m => { m with borrowed := true })).heap = s.heap := rfl
      have h6 : (s.modMgr i (fun m => { m with borrowed := true })).logs = s.logs := rfl
      have h7 : (s.modMgr i (fun m => { m with borrowed := true })).dom = s.dom := rfl
      have hmod := congrArg St.mgrs (unborrow_reg hi i (fun reg => reg ++ [(key, s.heap.length)]))
      cases hl : m.log with
      | some l =>
        refine Or.inl ?_
        obtain ⟨log, h1, -⟩ := hi.log m (List.mem_of_getElem? hm) l hl
        have hpo := hi.poison log (List.mem_of_getElem? h1)
        refine ⟨l, log, rfl, h1, ?_⟩
        rw [getOrRegister, withBorrow_eq hi hm]
        simp only [createBody, hget, hg, h3, hcond, h5, h6, hl, h1]
        simp only [hpo, Bool.false_eq_true, if_false]
        rw [hreg _ hg]
        · simp only [St.modReg, St.modMgr] at hmod ⊢
          rw [hmod]
          rfl
        · rfl
      | none =>
        refine Or.inr ?_
        have hmt : mount env fault { m with borrowed := true } (newContent env s i key) s.dom =
            mount env fault m (newContent env s i key) s.dom := rfl
        cases hd2 : mount env fault m (newContent env s i key) s.dom with
        | none =>
          refine Or.inl ⟨rfl, rfl, ?_⟩
          rw [getOrRegister, withBorrow_eq hi hm]
          rw [hd2] at hmt
          simp only [newContent, hl] at hmt
          simp only [createBody, hget, hg, h3, hcond, h5, h7, hl, hmt]
          simp only [Bool.false_eq_true, if_false]
          have hz : s.refs s.heap.length = 0 := refs_fresh hi
          have hz' : (({ s with ctr := s.ctr + 1, heap := s.heap ++ [newContent env s i key] } : St).modMgr i
              (fun m => { m with borrowed := true })).refs s.heap.length = 0 := by
            rw [refs_modMgr _ _ _ (by intro m; rfl)]
            exact hz
          simp only [St.modMgr, newContent] at hz'
          simp only [St.release, St.modMgr, hz', if_true]
          simp only [List.getElem?_concat_length]
          have := congrArg St.mgrs (unborrow hi i)
          simp only [St.modMgr] at this
          rw [this]
          rfl
        | some d =>
          refine Or.inr ⟨d, rfl, rfl, ?_⟩
          rw [getOrRegister, withBorrow_eq hi hm]
          rw [hd2] at hmt
          simp only [newContent, hl] at hmt
          simp only [createBody, hget, hg, h3, hcond, h5, h7, hl, hmt]
          simp only [Bool.false_eq_true, if_false]
          rw [hreg _ hg]
          · simp only [St.modReg, St.modMgr] at hmod ⊢
            rw [hmod]
            rfl
          · rfl

/-- Borrowing commutes with extending the heap and the registry. -/
theorem borrow_modReg (s : St) (i : Nat) (f : List (Key × Nat) → List (Key × Nat)) :
    (s.modMgr i (fun m => { m with borrowed := true })).modReg i f =
      (s.modReg i f).modMgr i (fun m => { m with borrowed := true }) := by
  simp only [St.modMgr, St.modReg, modify_modify]
  rfl

theorem unborrow' {s : St} {i : Nat} {m : Mgr} (hm : s.mgrs[i]? = some m) (hb : m.borrowed = false) :
    (s.modMgr i (fun m => { m with borrowed := true })).modMgr i (fun m => { m with borrowed := false }) = s := by
  simp only [St.modMgr, modify_modify]
  rw [modify_self]
  intro m' hm'
  rw [hm] at hm'
  cases hm'
  simp only [Function.comp]
  rw [← hb]

theorem loadBody_run (i : Nat) : ∀ (es : List Entry) (s : St) (m : Mgr), s.mgrs[i]? = some m → m.borrowed = false →
    (∀ e ∈ m.reg, e.2 < s.heap.length) →
    ∃ s' r, LoadRun i es s s' r ∧
      loadBody i es (s.modMgr i (fun m => { m with borrowed := true })) =
        (s'.modMgr i (fun m => { m with borrowed := true }), r) ∧
      ∃ m', s'.mgrs[i]? = some m' ∧ m'.borrowed = false
  | [], s, m, hm, hb, _ => ⟨s, .ok (), .nil s, rfl, m, hm, hb⟩
  | e :: es, s, m, hm, hb, hr => by
    have hget : (s.modMgr i (fun m => { m with borrowed := true })).mgrs[i]? = some { m with borrowed := true } := by
      simp [St.modMgr, hm]
    cases hg : regGet m.reg e.key with
    | some p =>
      have hp := hr _ (regGet_mem hg)
      have hc : s.heap[p]? = some s.heap[p] := List.getElem?_eq_getElem hp
      have hc' : (s.modMgr i (fun m => { m with borrowed := true })).heap[p]? = some s.heap[p] := hc
      by_cases hid : s.heap[p].id = e.id
      · obtain ⟨s', r, h1, h2, h3⟩ := loadBody_run i es s m hm hb hr
        refine ⟨s', r, .same e es s s' r m p _ hm hg hc hid h1, ?_, h3⟩
        simp only [loadBody, hget, hg, hc', hid, if_true]
        exact h2
      · refine ⟨s, .panic, .conflict e es s m p _ hm hg hc hid, ?_, m, hm, hb⟩
        simp only [loadBody, hget, hg, hc', hid, if_false]
    | none =>
      let s1 : St := ({ s with heap := s.heap ++ [loadedContent i e] } : St).modReg i
        (fun reg => reg ++ [(e.key, s.heap.length)])
      have hm1 : s1.mgrs[i]? = some { m with reg := m.reg ++ [(e.key, s.heap.length)] } := by
        simp [s1, St.modReg, St.modMgr, hm]
      obtain ⟨s', r, h1, h2, h3⟩ := loadBody_run i es s1 _ hm1 hb (by
        intro e' he'
        show e'.2 < (s.heap ++ [loadedContent i e]).length
        simp only [List.length_append, List.length_cons, List.length_nil]
        rcases List.mem_append.1 he' with he' | he'
        · have := hr _ he'; omega
        · simp only [List.mem_cons, List.not_mem_nil, or_false] at he'
          subst he'; show s.heap.length < _; omega)
      refine ⟨s', r, .fresh e es s s' r m hm hg h1, ?_, h3⟩
      simp only [loadBody, hget, hg]
      refine Eq.trans (congrArg (loadBody i es) ?_) h2
      show _ = (St.modReg _ _ _).modMgr _ _
      rw [← borrow_modReg]
      simp only [St.modReg, St.modMgr]
      congr 1
      apply modify_congr
      intro a ha
      have : a = { m with borrowed := true } := by
        have := hget
        simp only [St.modMgr] at this
        rw [this] at ha
        cases ha; rfl
      subst this
      simp [regInsert_absent hg]

/-- Every step from a state with the invariant is one of the transitions. -/
theorem step_tr (env : Env) {s : St} (hi : Inv s) (op : Op) :
    Tr env op s (step env op s).1 (step env op s).2 := by
  cases op with
  | renderStatic => exact .renderStatic s
  | newMgr pref cont append writer =>
    simp only [step, newMgr]
    split
    · rename_i hok
      simp only [Bool.and_eq_true] at hok
      have hw : ∀ l ∈ writer, ∃ log, s.logs[l]? = some log ∧ log.writerTaken = false := by
        intro l hl
        cases hl
        have := hok.1
        simp only [St.writerFree, Option.any_eq_true] at this
        obtain ⟨log, h1, h2⟩ := this
        exact ⟨log, h1, by simpa using h2⟩
      have hc : ∀ i ∈ cont, i < s.dom.length := by
        intro i hci
        cases hci
        simpa using hok.2
      generalize hcont : (if env.wasm = true then
        cont.or (env.head.filter (fun i => decide (i < s.dom.length))) else cont) = cont'
      by_cases he : (env.wasm && cont'.isNone) = true
      · rw [if_pos he]
        simp only [Bool.and_eq_true] at he
        exact .newMgrErr pref cont append writer s hw he.1
      · rw [if_neg he]
        refine .newMgr pref cont append writer cont' s hw ?_ ?_ ?_
        · intro i hi
          rw [← hcont] at hi
          by_cases hwasm : env.wasm = true
          · simp only [hwasm, if_true] at hi
            rcases Option.or_eq_some_iff.1 hi with h | ⟨-, h⟩
            · exact hc i h
            · have := (Option.filter_eq_some_iff.1 h).2
              simpa using this
          · simp only [hwasm] at hi
            exact hc i hi
        · intro hwasm
          cases cont' with
          | none => simp [hwasm] at he
          | some _ => rfl
        · intro i hi
          cases hi
          rw [← hcont]
          by_cases hwasm : env.wasm = true <;> simp [hwasm]
    · exact .invalid _ s
  | cloneMgr mh =>
    simp only [step]
    cases h : s.mgrOf mh with
    | none => exact .invalid _ s
    | some i => exact .cloneMgr mh i s h
  | dropMgr mh =>
    simp only [step]
    cases h : s.mgrOf mh with
    | none => exact .invalid _ s
    | some i =>
      obtain ⟨m, hm⟩ := mgrOf_get hi h
      simp only
      by_cases ha : some i ∈ s.mgrHandles.set mh none
      · have : St.mgrAlive { s with mgrHandles := s.mgrHandles.set mh none } i = true := by
          simpa [St.mgrAlive] using ha
        rw [if_pos this]
        exact .dropMgr mh i s h ha
      · have : ¬ St.mgrAlive { s with mgrHandles := s.mgrHandles.set mh none } i = true := by
          simpa [St.mgrAlive] using ha
        rw [if_neg this]
        simp only [hm]
        exact .dropMgrLast mh i s m h ha hm
  | create mh kind src fault =>
    simp only [step, create]
    cases h : s.mgrOf mh with
    | none => exact .invalid _ s
    | some i =>
      obtain ⟨m, hm⟩ := mgrOf_get hi h
      simp only [hm]
      cases hs : src.sheet? with
      | none =>
        cases src with
        | sheet x => cases hs
        | text css => exact .createSyntax mh kind css fault s i h hs
      | some ast =>
        simp only
        rcases getOrRegister_eq env hi hm fault (kind.key m.pref ast) with
          ⟨p, hg, e⟩ | ⟨hg, ⟨h1, h2, e⟩ | ⟨hd, ⟨l, log, hl, hlog, e⟩ | ⟨hl, hmt, e⟩ | ⟨d, hl, hmt, e⟩⟩⟩
        · rw [e]; exact .createHit mh kind src fault s i m ast p h hm hs hg
        · rw [e]; exact .createDebug mh kind src fault s i m ast h hm hs hg h1 h2
        · rw [e]; exact .createStatic mh kind src fault s i m ast l log _ h hm hs hg rfl hd hl hlog
        · rw [e]; exact .createFail mh kind src fault s i m ast _ h hm hs hg rfl hd hl hmt
        · rw [e]; exact .createMount mh kind src fault s i m ast _ d h hm hs hg rfl hd hl hmt
  | clone h =>
    simp only [step]
    cases e : s.contentOf h with
    | none => exact .invalid _ s
    | some p => exact .clone h p s e
  | drop h =>
    simp only [step]
    cases e : s.contentOf h with
    | none => exact .invalid _ s
    | some p => exact .drop h p s e
  | unregister h =>
    simp only [step]
    cases e : s.contentOf h with
    | none => exact .invalid _ s
    | some p =>
      have hp := hi.handle p (contentOf_mem e)
      have hc : s.heap[p]? = some s.heap[p] := List.getElem?_eq_getElem hp
      simp only [hc]
      by_cases ha : some s.heap[p].mgr ∈ s.mgrHandles
      · have ha' : s.mgrAlive s.heap[p].mgr = true := by simpa [St.mgrAlive] using ha
        rw [if_pos ha']
        obtain ⟨m, hm⟩ : ∃ m, s.mgrs[s.heap[p].mgr]? = some m :=
          ⟨_, List.getElem?_eq_getElem (hi.mgrHandle _ ha)⟩
        have hget : (s.modMgr s.heap[p].mgr (fun m => { m with borrowed := true })).mgrs[s.heap[p].mgr]? =
            some { m with borrowed := true } := by
          simp [St.modMgr, hm]
        rw [unregisterStyle, withBorrow_eq hi hm]
        simp only [hget]
        cases hg : regGet m.reg s.heap[p].key with
        | none =>
          have : (((s.modMgr s.heap[p].mgr (fun m => { m with borrowed := true })).modMgr s.heap[p].mgr
              (fun m => { m with reg := regRemove m.reg s.heap[p].key })).modMgr s.heap[p].mgr
              (fun m => { m with borrowed := false })) = s := by
            refine Eq.trans (unborrow_reg hi s.heap[p].mgr (fun reg => regRemove reg s.heap[p].key)) ?_
            simp only [St.modReg, St.modMgr]
            rw [modify_self]
            intro a ha
            rw [hm] at ha
            cases ha
            rw [regRemove_absent hg]
          simp only [this]
          exact .unregisterNone h p s _ m e hc hm hg
        | some q =>
          have : ((((s.modMgr s.heap[p].mgr (fun m => { m with borrowed := true })).modMgr s.heap[p].mgr
              (fun m => { m with reg := regRemove m.reg s.heap[p].key })).release env q).modMgr s.heap[p].mgr
              (fun m => { m with borrowed := false })) =
                (s.modReg s.heap[p].mgr (fun reg => regRemove reg s.heap[p].key)).release env q := by
            rw [← release_modMgr _ _ _ _ (by intro m; rfl)]
            exact congrArg (St.release env q) (unborrow_reg hi s.heap[p].mgr (fun reg => regRemove reg s.heap[p].key))
          simp only [this]
          exact .unregister h p q s _ m e hc hm hg
      · have ha' : ¬ s.mgrAlive s.heap[p].mgr = true := by simpa [St.mgrAlive] using ha
        rw [if_neg ha']
        exact .unregisterDead h p s _ e hc ha
  | load mh data =>
    simp only [step]
    cases h : s.mgrOf mh with
    | none => exact .invalid _ s
    | some i =>
      obtain ⟨m, hm⟩ := mgrOf_get hi h
      simp only
      obtain ⟨s', r, h1, h2, m', hm', hb'⟩ := loadBody_run i data s m hm (hi.borrow m (List.mem_of_getElem? hm))
        (fun e he => hi.reg_lt (List.mem_of_getElem? hm) he)
      rw [loadStyleData, withBorrow_eq hi hm, h2]
      simp only [unborrow' hm' hb']
      cases r <;> exact .load mh i data s s' _ _ h h1 rfl
  | readData l =>
    simp only [step]
    cases hl : s.logs[l]? with
    | none => exact .invalid _ s
    | some log =>
      simp only
      by_cases hr : log.readerTaken = true
      · rw [if_pos hr]; exact .invalid _ s
      · rw [if_neg hr]
        have hp : (if log.poisoned = true then [] else log.entries) = log.entries := by
          rw [hi.poison log (List.mem_of_getElem? hl)]; rfl
        simp only [hp]
        exact .readData l s log hl (by simpa using hr)
  | styleData mh =>
    simp only [step]
    cases h : s.mgrOf mh with
    | none => exact .invalid _ s
    | some i =>
      obtain ⟨m, hm⟩ := mgrOf_get hi h
      simp only [hm, Option.bind_some]
      cases hl : m.log with
      | none => exact .styleDataNone mh i s m h hm hl
      | some l =>
        obtain ⟨log, h1, -⟩ := hi.log m (List.mem_of_getElem? hm) l hl
        simp only [h1, hi.poison log (List.mem_of_getElem? h1)]
        exact .styleData mh i s m l log h hm hl h1
  | page i ch =>
    simp only [step]
    split
    · rename_i h; exact .page i ch s h
    · exact .invalid _ s

/-! ## The invariant is preserved -/

theorem Inv.init (d : Dom) : Inv (St.init d) := by
  constructor <;> simp [St.init]

theorem removeAt_length : ∀ (n : Nat) (d : Dom), (d.removeAt n).length = d.length
  | _, [] => rfl
  | n, c :: cs => by
    simp only [Dom.removeAt]
    split
    · split
      · rfl
      · simp [removeAt_length _ cs]
    · simp [removeAt_length _ cs]

theorem unmount_length (env : Env) (id : Str) (d : Dom) : (unmount env id d).length = d.length := by
  simp only [unmount]
  split
  · split
    · exact removeAt_length _ _
    · rfl
  · rfl

theorem setChildren_length (d : Dom) (i : Nat) (ch : List Child) : (d.setChildren i ch).length = d.length := by
  simp [Dom.setChildren]

theorem mount_length {env : Env} {fault : Bool} {m : Mgr} {c : Content} {d d' : Dom}
    (h : mount env fault m c d = some d') : d'.length = d.length := by
  simp only [mount] at h
  split at h
  · split at h
    · cases h
    · split at h
      · cases h
      · split at h
        · cases h; exact setChildren_length _ _ _
        · split at h
          · simp only [Dom.insertBefore] at h
            split at h
            · split at h
              · cases h; exact setChildren_length _ _ _
              · cases h
            · cases h
          · cases h; exact setChildren_length _ _ _
  · cases h; rfl

theorem Inv.setDom {s : St} (hi : Inv s) {d : Dom} (h : d.length = s.dom.length) : Inv { s with dom := d } where
  borrow := hi.borrow
  reg := hi.reg
  keys := hi.keys
  handle := hi.handle
  dead := hi.dead
  mgrHandle := hi.mgrHandle
  contentMgr := hi.contentMgr
  poison := hi.poison
  log := hi.log
  logUnique := hi.logUnique
  container := fun m hm i h' => by
    show i < d.length
    rw [h]; exact hi.container m hm i h'

theorem release_eq (env : Env) (p : Nat) (s : St) : ∃ d : Dom, d.length = s.dom.length ∧
    s.release env p = { s with dom := d } := by
  simp only [St.release]
  split
  · split
    · exact ⟨_, unmount_length _ _ _, rfl⟩
    · exact ⟨s.dom, rfl, rfl⟩
  · exact ⟨s.dom, rfl, rfl⟩

theorem Inv.release {s : St} (hi : Inv s) (env : Env) (p : Nat) : Inv (s.release env p) := by
  obtain ⟨d, h1, h2⟩ := release_eq env p s
  rw [h2]; exact hi.setDom h1

theorem Inv.releaseAll {env : Env} : ∀ (ps : List Nat) {s : St}, Inv s → Inv (releaseAll env ps s)
  | [], _, hi => hi
  | p :: ps, _, hi => Inv.releaseAll ps (hi.release env p)

theorem Inv.setCtr {s : St} (hi : Inv s) (n : Nat) : Inv { s with ctr := n } :=
  ⟨hi.borrow, hi.reg, hi.keys, hi.handle, hi.dead, hi.mgrHandle, hi.contentMgr, hi.poison, hi.log,
    hi.logUnique, hi.container⟩

theorem Inv.addHandle {s : St} (hi : Inv s) {p : Nat} (hp : p < s.heap.length) :
    Inv { s with handles := s.handles ++ [some p] } :=
  ⟨hi.borrow, hi.reg, hi.keys, fun q hq => by
      simp only [List.mem_append, List.mem_cons, List.not_mem_nil, or_false, Option.some.injEq] at hq
      rcases hq with hq | rfl
      · exact hi.handle q hq
      · exact hp,
    hi.dead, hi.mgrHandle, hi.contentMgr, hi.poison, hi.log, hi.logUnique, hi.container⟩

theorem mem_set_none {α : Type} {l : List (Option α)} {n : Nat} {a : α} (h : some a ∈ l.set n none) :
    some a ∈ l := by
  rcases List.mem_or_eq_of_mem_set h with h | h
  · exact h
  · cases h

theorem Inv.dropHandle {s : St} (hi : Inv s) (h : Nat) : Inv { s with handles := s.handles.set h none } :=
  ⟨hi.borrow, hi.reg, hi.keys, fun q hq => hi.handle q (mem_set_none hq),
    hi.dead, hi.mgrHandle, hi.contentMgr, hi.poison, hi.log, hi.logUnique, hi.container⟩

theorem getElem?_append_of {α : Type} {l : List α} {i : Nat} {a : α} (t : List α) (h : l[i]? = some a) :
    (l ++ t)[i]? = some a := by
  rw [List.getElem?_append_left (List.getElem?_eq_some_iff.1 h).1]
  exact h

theorem Inv.addContent {s : St} (hi : Inv s) {c : Content} (hc : c.mgr < s.mgrs.length) :
    Inv { s with heap := s.heap ++ [c] } where
  borrow := hi.borrow
  reg := fun i m hm e he => by
    obtain ⟨c', h1, h2⟩ := hi.reg i m hm e he
    exact ⟨c', getElem?_append_of _ h1, h2⟩
  keys := hi.keys
  handle := fun p hp => by
    have := hi.handle p hp
    simp only [List.length_append, List.length_cons, List.length_nil]; omega
  dead := hi.dead
  mgrHandle := hi.mgrHandle
  contentMgr := fun c' hc' => by
    rcases List.mem_append.1 hc' with h | h
    · exact hi.contentMgr c' h
    · simp only [List.mem_cons, List.not_mem_nil, or_false] at h
      subst h; exact hc
  poison := hi.poison
  log := hi.log
  logUnique := hi.logUnique
  container := hi.container

theorem Inv.setLogs {s : St} (hi : Inv s) {logs : List Log} (hp : ∀ log ∈ logs, log.poisoned = false)
    (hl : ∀ (l : Nat) log, s.logs[l]? = some log → log.writerTaken = true →
      ∃ log', logs[l]? = some log' ∧ log'.writerTaken = true) : Inv { s with logs := logs } :=
  ⟨hi.borrow, hi.reg, hi.keys, hi.handle, hi.dead, hi.mgrHandle, hi.contentMgr, hp,
    fun m hm l h => by
      obtain ⟨log, h1, h2⟩ := hi.log m hm l h
      exact hl l log h1 h2,
    hi.logUnique, hi.container⟩

theorem mem_modify {α : Type} {l : List α} {i : Nat} {f : α → α} {a : α} (h : a ∈ l.modify i f) :
    a ∈ l ∨ ∃ b, l[i]? = some b ∧ a = f b := by
  obtain ⟨j, hj⟩ := List.getElem?_of_mem h
  rw [List.getElem?_modify] at hj
  cases e : l[j]? with
  | none => rw [e] at hj; cases hj
  | some b =>
    rw [e] at hj
    by_cases hij : i = j
    · subst hij
      simp only [Option.map_eq_map, Option.map_some, if_true, Option.some.injEq] at hj
      exact Or.inr ⟨b, e, hj.symm⟩
    · simp only [Option.map_eq_map, Option.map_some, hij, if_false, Option.some.injEq] at hj
      subst hj
      exact Or.inl (List.mem_of_getElem? e)

theorem getElem?_modReg {s : St} {i j : Nat} {f : List (Key × Nat) → List (Key × Nat)} {m' : Mgr}
    (h : (s.modReg i f).mgrs[j]? = some m') : ∃ m, s.mgrs[j]? = some m ∧
      m' = { m with reg := if i = j then f m.reg else m.reg } := by
  simp only [St.modReg, St.modMgr, List.getElem?_modify] at h
  cases e : s.mgrs[j]? with
  | none => rw [e] at h; cases h
  | some m =>
    rw [e] at h
    refine ⟨m, rfl, ?_⟩
    by_cases hij : i = j
    · simp only [hij, Option.map_eq_map, Option.map_some, if_true, Option.some.injEq] at h ⊢
      exact h.symm
    · simp only [hij, Option.map_eq_map, Option.map_some, if_false, Option.some.injEq] at h ⊢
      exact h.symm

theorem mem_modReg {s : St} {i : Nat} {f : List (Key × Nat) → List (Key × Nat)} {m' : Mgr}
    (h : m' ∈ (s.modReg i f).mgrs) : ∃ (j : Nat) (m : Mgr), s.mgrs[j]? = some m ∧
      m' = { m with reg := if i = j then f m.reg else m.reg } := by
  obtain ⟨j, hj⟩ := List.getElem?_of_mem h
  obtain ⟨m, h1, h2⟩ := getElem?_modReg hj
  exact ⟨j, m, h1, h2⟩

theorem Inv.modReg {s : St} (hi : Inv s) {i : Nat} {f : List (Key × Nat) → List (Key × Nat)} {m : Mgr}
    (hm : s.mgrs[i]? = some m)
    (hk : ((f m.reg).map Prod.fst).Nodup)
    (hr : ∀ e ∈ f m.reg, e ∈ m.reg ∨ ∃ c, s.heap[e.2]? = some c ∧ c.key = e.1 ∧ c.mgr = i)
    (ha : f m.reg ≠ [] → some i ∈ s.mgrHandles) : Inv (s.modReg i f) where
  borrow := fun m' h' => by
    obtain ⟨j, m1, h1, rfl⟩ := mem_modReg h'
    exact hi.borrow m1 (List.mem_of_getElem? h1)
  reg := fun j m' h' e he => by
    obtain ⟨m1, h1, rfl⟩ := getElem?_modReg h'
    by_cases hij : i = j
    · subst hij
      rw [hm] at h1
      cases h1
      simp only [if_true] at he
      rcases hr e he with h | h
      · exact hi.reg i m hm e h
      · exact h
    · simp only [hij, if_false] at he
      exact hi.reg j m1 h1 e he
  keys := fun m' h' => by
    obtain ⟨j, m1, h1, rfl⟩ := mem_modReg h'
    by_cases hij : i = j
    · subst hij
      rw [hm] at h1
      cases h1
      simpa using hk
    · simpa [hij] using hi.keys m1 (List.mem_of_getElem? h1)
  handle := hi.handle
  dead := fun j m' h' hne => by
    obtain ⟨m1, h1, rfl⟩ := getElem?_modReg h'
    by_cases hij : i = j
    · subst hij
      rw [hm] at h1
      cases h1
      exact ha (by simpa using hne)
    · exact hi.dead j m1 h1 (by simpa [hij] using hne)
  mgrHandle := fun j hj => by
    have := hi.mgrHandle j hj
    simpa [St.modReg, St.modMgr] using this
  contentMgr := fun c hc => by
    have := hi.contentMgr c hc
    simpa [St.modReg, St.modMgr] using this
  poison := hi.poison
  log := fun m' h' l hl => by
    obtain ⟨j, m1, h1, rfl⟩ := mem_modReg h'
    exact hi.log m1 (List.mem_of_getElem? h1) l hl
  logUnique := fun j k mj mk l hj hk' h1 h2 => by
    obtain ⟨m1, e1, rfl⟩ := getElem?_modReg hj
    obtain ⟨m2, e2, rfl⟩ := getElem?_modReg hk'
    exact hi.logUnique j k m1 m2 l e1 e2 h1 h2
  container := fun m' h' j hj => by
    obtain ⟨k, m1, h1, rfl⟩ := mem_modReg h'
    exact hi.container m1 (List.mem_of_getElem? h1) j hj

theorem Inv.setMgrHandles {s : St} (hi : Inv s) {mh : List (Option Nat)}
    (h1 : ∀ i, some i ∈ mh → i < s.mgrs.length)
    (h2 : ∀ (i : Nat) m, s.mgrs[i]? = some m → m.reg ≠ [] → some i ∈ mh) : Inv { s with mgrHandles := mh } :=
  ⟨hi.borrow, hi.reg, hi.keys, hi.handle, h2, h1, hi.contentMgr, hi.poison, hi.log,
    hi.logUnique, hi.container⟩

theorem Inv.addMgr {s : St} (hi : Inv s) (m : Mgr) (hb : m.borrowed = false) (hr : m.reg = [])
    (hl : ∀ l, m.log = some l → (∃ log, s.logs[l]? = some log ∧ log.writerTaken = true) ∧
      ∀ m' ∈ s.mgrs, m'.log ≠ some l)
    (hc : ∀ i, m.container = some i → i < s.dom.length) :
    Inv { s with mgrs := s.mgrs ++ [m], mgrHandles := s.mgrHandles ++ [some s.mgrs.length] } where
  borrow := fun m' h' => by
    rcases List.mem_append.1 h' with h | h
    · exact hi.borrow m' h
    · simp only [List.mem_cons, List.not_mem_nil, or_false] at h; subst h; exact hb
  reg := fun i m' h' e he => by
    rw [List.getElem?_append] at h'
    split at h'
    · exact hi.reg i m' h' e he
    · have := List.mem_of_getElem? h'
      simp only [List.mem_cons, List.not_mem_nil, or_false] at this
      subst this; rw [hr] at he; cases he
  keys := fun m' h' => by
    rcases List.mem_append.1 h' with h | h
    · exact hi.keys m' h
    · simp only [List.mem_cons, List.not_mem_nil, or_false] at h; subst h; simp [hr]
  handle := hi.handle
  dead := fun i m' h' hne => by
    rw [List.getElem?_append] at h'
    split at h'
    · exact List.mem_append_left _ (hi.dead i m' h' hne)
    · have := List.mem_of_getElem? h'
      simp only [List.mem_cons, List.not_mem_nil, or_false] at this
      subst this; exact absurd hr hne
  mgrHandle := fun i h => by
    simp only [List.length_append, List.length_cons, List.length_nil]
    rcases List.mem_append.1 h with h | h
    · have := hi.mgrHandle i h; omega
    · simp only [List.mem_cons, List.not_mem_nil, or_false, Option.some.injEq] at h; omega
  contentMgr := fun c h => by
    have := hi.contentMgr c h
    simp only [List.length_append, List.length_cons, List.length_nil]; omega
  poison := hi.poison
  log := fun m' h' l hl' => by
    rcases List.mem_append.1 h' with h | h
    · exact hi.log m' h l hl'
    · simp only [List.mem_cons, List.not_mem_nil, or_false] at h; subst h; exact (hl l hl').1
  logUnique := fun i j mi mj l h1 h2 h3 h4 => by
    rw [List.getElem?_append] at h1 h2
    have last : ∀ (k : Nat) (x : Mgr), ¬ k < s.mgrs.length → [m][k - s.mgrs.length]? = some x → x = m ∧ k = s.mgrs.length := by
      intro k x hk h
      have := (List.getElem?_eq_some_iff.1 h).1
      simp only [List.length_cons, List.length_nil] at this
      have h0 : k - s.mgrs.length = 0 := by omega
      rw [h0] at h
      simp only [List.getElem?_cons_zero, Option.some.injEq] at h
      exact ⟨h.symm, by omega⟩
    split at h1 <;> split at h2
    · exact hi.logUnique i j mi mj l h1 h2 h3 h4
    · obtain ⟨rfl, -⟩ := last j mj ‹_› h2
      exact absurd h3 ((hl l h4).2 mi (List.mem_of_getElem? h1))
    · obtain ⟨rfl, -⟩ := last i mi ‹_› h1
      exact absurd h4 ((hl l h3).2 mj (List.mem_of_getElem? h2))
    · obtain ⟨-, e1⟩ := last i mi ‹_› h1
      obtain ⟨-, e2⟩ := last j mj ‹_› h2
      omega
  container := fun m' h' i hi' => by
    rcases List.mem_append.1 h' with h | h
    · exact hi.container m' h i hi'
    · simp only [List.mem_cons, List.not_mem_nil, or_false] at h; subst h; exact hc i hi'

/-- Adding a new content under a new key. -/
theorem Inv.addEntry {s : St} (hi : Inv s) {i : Nat} {m : Mgr} (hm : s.mgrs[i]? = some m)
    (ha : some i ∈ s.mgrHandles) {c : Content} (hc : c.mgr = i) {k : Key} (hk : c.key = k)
    (hg : regGet m.reg k = none) :
    Inv (({ s with heap := s.heap ++ [c] } : St).modReg i (fun reg => reg ++ [(k, s.heap.length)])) := by
  have hlt : c.mgr < s.mgrs.length := by rw [hc]; exact hi.mgrHandle i ha
  refine (hi.addContent hlt).modReg hm ?_ ?_ ?_
  · rw [regGet_eq_none] at hg
    simp only [List.map_append, List.map_cons, List.map_nil]
    rw [List.nodup_append]
    refine ⟨hi.keys m (List.mem_of_getElem? hm), by simp, ?_⟩
    intro a ha' b hb
    simp only [List.mem_cons, List.not_mem_nil, or_false] at hb
    subst hb
    rintro rfl
    exact hg ha'
  · intro e he
    rcases List.mem_append.1 he with he | he
    · exact Or.inl he
    · simp only [List.mem_cons, List.not_mem_nil, or_false] at he
      subst he
      exact Or.inr ⟨c, by simp, hk, hc⟩
  · intro _; exact ha

theorem LoadRun.inv {i : Nat} {es : List Entry} {s s' : St} {r : Res Unit} (h : LoadRun i es s s' r)
    (hi : Inv s) (ha : some i ∈ s.mgrHandles) : Inv s' := by
  induction h with
  | nil s => exact hi
  | same e es s s' r m p c _ _ _ _ _ ih => exact ih hi ha
  | conflict e es s m p c _ _ _ _ => exact hi
  | fresh e es s s' r m hm hg _ ih => exact ih (hi.addEntry hm ha rfl rfl hg) ha

theorem Tr.inv {env : Env} {op : Op} {s s' : St} {out : Out} (h : Tr env op s s' out) (hi : Inv s) : Inv s' := by
  cases h with
  | invalid => exact hi
  | renderStatic =>
    refine hi.setLogs ?_ ?_
    · intro log hlog
      rcases List.mem_append.1 hlog with h | h
      · exact hi.poison log h
      · simp only [List.mem_cons, List.not_mem_nil, or_false] at h; subst h; rfl
    · intro l log h1 h2; exact ⟨log, getElem?_append_of _ h1, h2⟩
  | newMgrErr pref cont append writer _ hw _ =>
    cases writer with
    | none => exact hi
    | some l =>
      refine hi.setLogs ?_ ?_
      · intro log hlog
        rcases mem_modify hlog with h | ⟨b, h, rfl⟩
        · exact hi.poison log h
        · exact hi.poison b (List.mem_of_getElem? h)
      · intro l' log h1 h2
        simp only [St.takeWriter, List.getElem?_modify, h1]
        by_cases hll : l = l' <;> simp [hll, h2]
  | newMgr pref cont append writer cont' _ hw hc _ _ =>
    have h1 : Inv { s with logs := s.takeWriter writer } := by
      cases writer with
      | none => exact hi
      | some l =>
        refine hi.setLogs ?_ ?_
        · intro log hlog
          rcases mem_modify hlog with h | ⟨b, h, rfl⟩
          · exact hi.poison log h
          · exact hi.poison b (List.mem_of_getElem? h)
        · intro l' log h1 h2
          simp only [St.takeWriter, List.getElem?_modify, h1]
          by_cases hll : l = l' <;> simp [hll, h2]
    refine h1.addMgr _ rfl rfl ?_ hc
    intro l hl
    obtain ⟨log, h2, h3⟩ := hw l hl
    simp only at hl
    subst hl
    refine ⟨⟨{ log with writerTaken := true }, ?_, rfl⟩, ?_⟩
    · simp [St.takeWriter, h2]
    · intro m' hm' hl'
      obtain ⟨log', h4, h5⟩ := hi.log m' hm' l hl'
      rw [h2] at h4
      cases h4
      rw [h3] at h5; cases h5
  | cloneMgr mh i _ h =>
    refine hi.setMgrHandles ?_ ?_
    · intro j hj
      rcases List.mem_append.1 hj with h' | h'
      · exact hi.mgrHandle j h'
      · simp only [List.mem_cons, List.not_mem_nil, or_false, Option.some.injEq] at h'
        subst h'; exact hi.mgrHandle _ (mgrOf_mem h)
    · intro j m h1 h2; exact List.mem_append_left _ (hi.dead j m h1 h2)
  | dropMgr mh i _ h ha =>
    refine hi.setMgrHandles ?_ ?_
    · intro j hj; exact hi.mgrHandle j (mem_set_none hj)
    · intro j m h1 h2
      by_cases hij : j = i
      · subst hij; exact ha
      · have := hi.dead j m h1 h2
        obtain ⟨n, hn⟩ := List.getElem?_of_mem this
        have hne : mh ≠ n := by
          rintro rfl
          simp only [St.mgrOf, hn, Option.join_some] at h
          cases h; exact hij rfl
        refine List.mem_of_getElem? (i := n) ?_
        rw [List.getElem?_set_ne hne]; exact hn
  | dropMgrLast mh i _ m h ha hm =>
    refine Inv.releaseAll _ ?_
    have h1 : Inv (s.modReg i (fun _ => [])) := hi.modReg hm (by simp) (by simp) (by simp)
    refine h1.setMgrHandles (mh := s.mgrHandles.set mh none) ?_ ?_
    · intro j hj; exact h1.mgrHandle j (mem_set_none hj)
    · intro j m' h2 h3
      by_cases hij : j = i
      · subst hij
        obtain ⟨m1, -, rfl⟩ := getElem?_modReg h2
        simp at h3
      · have := h1.dead j m' h2 h3
        obtain ⟨n, hn⟩ := List.getElem?_of_mem this
        have hn : s.mgrHandles[n]? = some (some j) := hn
        have hne : mh ≠ n := by
          rintro rfl
          simp only [St.mgrOf, hn, Option.join_some] at h
          cases h; exact hij rfl
        refine List.mem_of_getElem? (i := n) ?_
        rw [List.getElem?_set_ne hne]; exact hn
  | createSyntax => exact hi
  | createHit mh kind src fault _ i m ast p h hm hs hg =>
    exact hi.addHandle (hi.reg_lt (List.mem_of_getElem? hm) (regGet_mem hg))
  | createDebug => exact hi.setCtr _
  | createStatic mh kind src fault _ i m ast l log c h hm hs hg hc hd hl hlog =>
    have h1 : Inv { s with ctr := s.ctr + 1, logs := s.logs.set l { log with entries := log.entries ++ [{ key := c.key, id := c.id, text := c.text }] } } := by
      refine (hi.setCtr _).setLogs ?_ ?_
      · intro log' hlog'
        rcases List.mem_or_eq_of_mem_set hlog' with h' | rfl
        · exact hi.poison log' h'
        · exact hi.poison log (List.mem_of_getElem? hlog)
      · intro l' log' h1 h2
        by_cases hll : l = l'
        · subst hll
          have h1' : s.logs[l]? = some log' := h1
          rw [hlog] at h1'; cases h1'
          refine ⟨{ log with entries := log.entries ++ [{ key := c.key, id := c.id, text := c.text }] }, ?_, h2⟩
          rw [List.getElem?_set_self (List.getElem?_eq_some_iff.1 hlog).1]
        · rw [List.getElem?_set_ne hll]; exact ⟨log', h1, h2⟩
    have h2 := h1.addEntry hm (mgrOf_mem h) (c := c) (by rw [hc]; rfl) rfl (by rw [hc]; exact hg)
    exact h2.addHandle (by simp [St.modReg, St.modMgr])
  | createFail mh kind src fault _ i m ast c h hm hs hg hc hd hl hmt =>
    exact ((hi.setCtr _).addContent (c := c) (by rw [hc]; exact hi.mgrHandle i (mgrOf_mem h))).setDom (unmount_length _ _ _)
  | createMount mh kind src fault _ i m ast c d h hm hs hg hc hd hl hmt =>
    have h2 := ((hi.setCtr (s.ctr + 1)).setDom (d := d) (mount_length hmt)).addEntry hm (mgrOf_mem h) (c := c)
      (by rw [hc]; rfl) rfl (by rw [hc]; exact hg)
    exact h2.addHandle (by simp [St.modReg, St.modMgr])
  | clone h p _ e => exact hi.addHandle (hi.handle p (contentOf_mem e))
  | drop h p _ e => exact (hi.dropHandle h).release env p
  | unregisterDead => exact hi
  | unregisterNone => exact hi
  | unregister h p q _ c m e hc hm hg =>
    refine Inv.release ?_ env q
    refine hi.modReg hm (regRemove_nodup _ (hi.keys m (List.mem_of_getElem? hm))) ?_ ?_
    · intro e' he'; exact Or.inl (List.mem_filter.1 he').1
    · intro _
      refine hi.dead c.mgr m hm ?_
      intro h0
      rw [h0] at hg; cases hg
  | load mh i data _ _ r _ h hr _ => exact hr.inv hi (mgrOf_mem h)
  | readData l _ log hl hr =>
    refine hi.setLogs ?_ ?_
    · intro log' hlog'
      rcases List.mem_or_eq_of_mem_set hlog' with h' | rfl
      · exact hi.poison log' h'
      · exact hi.poison log (List.mem_of_getElem? hl)
    · intro l' log' h1 h2
      by_cases hll : l = l'
      · subst hll
        rw [hl] at h1; cases h1
        refine ⟨{ log with readerTaken := true }, ?_, h2⟩
        rw [List.getElem?_set_self (List.getElem?_eq_some_iff.1 hl).1]
      · rw [List.getElem?_set_ne hll]; exact ⟨log', h1, h2⟩
  | styleDataNone => exact hi
  | styleData => exact hi
  | page i ch _ _ => exact hi.setDom (setChildren_length _ _ _)

theorem inv_step (env : Env) (op : Op) {s : St} (hi : Inv s) : Inv (step env op s).1 :=
  (step_tr env hi op).inv hi

theorem inv_run (env : Env) : ∀ (ops : List Op) {s : St}, Inv s → Inv (run env ops s)
  | [], _, hi => hi
  | op :: ops, _, hi => inv_run env ops (inv_step env op hi)

theorem run_append (env : Env) : ∀ (a b : List Op) (s : St), run env (a ++ b) s = run env b (run env a s)
  | [], _, _ => rfl
  | op :: a, b, s => run_append env a b (step env op s).1

end Manager
